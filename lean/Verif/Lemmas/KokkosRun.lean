import Verif.Lemmas.Graph
import Verif.Lemmas.Interval
import Verif.Spec.Kokkos

/-! Helper lemmas for the runs of the Kokkos connector. -/

namespace CCS.Kokkos

open CCS Spec

/-! ### Maps -/

theorem look_put {κ α : Type} [DecidableEq κ] (m : List (κ × α)) (k k' : κ) (v : α) :
    look (put m k v) k' = if k' = k then some v else look m k' := by
  unfold look put
  by_cases h : k = k'
  · simp [h]
  · have h' : ¬ k' = k := fun e => h e.symm
    simp only [List.find?_cons, h, decide_false, h', if_false]
    congr 1
    induction m with
    | nil => rfl
    | cons a m ih =>
      by_cases h1 : a.1 = k
      · simp only [List.filter_cons, h1, ne_eq, not_true_eq_false, decide_false, Bool.false_eq_true, if_false, List.find?_cons, h]
        exact ih
      · simp only [List.filter_cons, h1, ne_eq, not_false_eq_true, decide_true, if_true, List.find?_cons]
        rw [ih]

theorem look_drop {κ α : Type} [DecidableEq κ] (m : List (κ × α)) (k k' : κ) :
    look (drop m k) k' = if k' = k then none else look m k' := by
  unfold look drop
  induction m with
  | nil => simp
  | cons a m ih =>
    by_cases h1 : a.1 = k
    · simp only [List.filter_cons, h1, ne_eq, not_true_eq_false, decide_false, Bool.false_eq_true, if_false, List.find?_cons, ih]
      by_cases h : k' = k
      · simp [h]
      · have h' : ¬ k = k' := fun e => h e.symm
        simp [h, h']
    · simp only [List.filter_cons, h1, ne_eq, not_false_eq_true, decide_true, if_true, List.find?_cons]
      by_cases h2 : a.1 = k'
      · have h' : ¬ k' = k := fun e => h1 (h2.trans e)
        simp [h2, h']
      · simp only [h2, decide_false]
        exact ih

theorem store_same {α : Type} (f : BitVec 64 → α) (a : BitVec 64) (v : α) : store f a v a = v := by simp [store]

theorem store_ne {α : Type} {f : BitVec 64 → α} {a b : BitVec 64} {v : α} (h : b ≠ a) : store f a v b = f b := by simp [store, h]

/-! ### Identity of regions -/

theorem sorted_ext {l m : List Nat} (hl : l.Pairwise (· < ·)) (hm : m.Pairwise (· < ·)) (h : ∀ x, x ∈ l ↔ x ∈ m) : l = m := by
  induction l generalizing m with
  | nil =>
    cases m with
    | nil => rfl
    | cons b m => exact absurd ((h b).2 (by simp)) (by simp)
  | cons a l ih =>
    cases m with
    | nil => exact absurd ((h a).1 (by simp)) (by simp)
    | cons b m =>
      obtain ⟨h1, h2⟩ := List.pairwise_cons.1 hl
      obtain ⟨h3, h4⟩ := List.pairwise_cons.1 hm
      have e : a = b := by
        rcases List.mem_cons.1 ((h a).1 (by simp)) with h5 | h5
        · exact h5
        · rcases List.mem_cons.1 ((h b).2 (by simp)) with h6 | h6
          · exact h6.symm
          · have := h1 b h6
            have := h3 a h5
            omega
      subst e
      congr 1
      refine ih h2 h4 fun x => ?_
      have := h x
      simp only [List.mem_cons] at this
      constructor
      · intro hx
        rcases this.1 (.inr hx) with h5 | h5
        · have := h1 x hx; omega
        · exact h5
      · intro hx
        rcases this.2 (.inr hx) with h5 | h5
        · have := h3 x hx; omega
        · exact h5

theorem uniqNat_sorted (l : List Nat) : (uniqNat l).Pairwise (· < ·) := by
  have hn := uniqNat_nodup l
  have hs : (uniqNat l).Pairwise (· ≤ ·) := by
    have h := sortNat_sorted l
    unfold uniqNat
    have key : ∀ (xs : List Nat) (last : Nat), (last :: xs).Pairwise (· ≤ ·) → (last :: skipSame last xs).Pairwise (· ≤ ·) ∧
        ∀ y ∈ skipSame last xs, y ∈ xs := by
      intro xs
      induction xs with
      | nil => intro last _; simp [skipSame]
      | cons x xs ih =>
        intro last hp
        obtain ⟨h1, h2⟩ := List.pairwise_cons.1 hp
        unfold skipSame
        split
        · obtain ⟨h3, h4⟩ := ih x h2
          refine ⟨List.pairwise_cons.2 ⟨fun y hy => ?_, h3⟩, fun y hy => ?_⟩
          · rcases List.mem_cons.1 hy with rfl | hy
            · exact h1 _ (by simp)
            · exact h1 y (List.mem_cons_of_mem _ (h4 y hy))
          · rcases List.mem_cons.1 hy with rfl | hy
            · simp
            · exact List.mem_cons_of_mem _ (h4 y hy)
        · obtain ⟨h3, h4⟩ := ih last (List.pairwise_cons.2 ⟨fun y hy => h1 y (List.mem_cons_of_mem _ hy), (List.pairwise_cons.1 h2).2⟩)
          exact ⟨h3, fun y hy => List.mem_cons_of_mem _ (h4 y hy)⟩
    split
    · exact .nil
    · next x xs e =>
      rw [e] at h
      exact (key xs x h).1
  exact List.Pairwise.imp₂ (fun a b h1 h2 => Nat.lt_of_le_of_ne h1 h2) hs hn

theorem uniqNat_eq_iff (a b : List Nat) : uniqNat a = uniqNat b ↔ SameRegion a b := by
  constructor
  · intro h
    constructor
    · intro x hx
      rw [← mem_uniqNat, ← h, mem_uniqNat]; exact hx
    · intro x hx
      rw [← mem_uniqNat, h, mem_uniqNat]; exact hx
  · intro h
    refine sorted_ext (uniqNat_sorted a) (uniqNat_sorted b) fun x => ?_
    rw [mem_uniqNat, mem_uniqNat]
    exact ⟨h.1 x, h.2 x⟩

section
variable {ops : FloatOps} {toInt : F64 → Option (BitVec 64)} {jen : Bytes → BitVec 32} {little : Bool}
variable {mk : Nat → Param → Out Dist}

/-! ### Requests and ends of contexts -/

/-- What the successful search for a tuner did. -/
theorem findTuner_ok {st st' : State} {key cids tids : List Nat} {g : Supply} {t : BitVec 64} {c : Bool}
    (h : findTuner ops mk st key cids tids g = .ok (st', t, c)) :
    (look st.tuners key = some (t, c) ∧ st' = st) ∨
    (look st.tuners key = none ∧ t = g.tuner ∧ c = false ∧ ∃ cs fs p, addTuning mk st tids Space.empty = .ok cs ∧
      addContext st cids Ctx.empty = .ok fs ∧ timeSpace ops st.params g.htime g.expression = .ok p ∧
      st' = { st with
        params := store st.params g.htime p.1
        ospaces := store st.ospaces g.ospace p.2
        regions := store st.regions g.tuner ⟨cs, g.fspace, fs, g.ospace, Tuner.empty⟩
        tuners := put st.tuners key (g.tuner, false) }) := by
  unfold findTuner at h
  split at h
  · next t' c' hl =>
    cases h
    exact .inl ⟨hl, rfl⟩
  · next hl =>
    obtain ⟨cs, h1, h⟩ := bind_eq_ok h
    obtain ⟨fs, h2, h⟩ := bind_eq_ok h
    obtain ⟨p, h3, h⟩ := bind_eq_ok h
    cases h
    exact .inr ⟨hl, rfl, rfl, cs, fs, p, h1, h2, h3, rfl⟩

theorem historySize_eq (st : State) (t : BitVec 64) : historySize little st t = .ok (st.regions t).tuner.history.length := by
  simp [historySize, Tuner.getFeaturesHistory, selected, listing]

/-- What the test of convergence did. -/
theorem testConvergence_ok {st st' : State} {key : List Nat} {t : BitVec 64} {c c' : Bool}
    (h : testConvergence little st key t c = .ok (st', c')) :
    (c' = true ↔ c = true ∨ 500 ≤ (st.regions t).tuner.history.length) ∧
    ((st' = st ∧ c' = c) ∨ c' = true ∧ st' = { st with tuners := put st.tuners key (t, true) }) := by
  unfold testConvergence at h
  split at h
  · next hc => cases h; simp [hc]
  · next hc =>
    rw [historySize_eq] at h
    simp only [Out.bind_ok] at h
    split at h
    · next hn => cases h; exact ⟨by simp; exact .inr hn, .inr ⟨rfl, rfl⟩⟩
    · next hn =>
      cases h
      refine ⟨?_, .inl ⟨rfl, by simpa using hc⟩⟩
      simp only [Bool.false_eq_true, false_iff, not_or]
      exact ⟨hc, hn⟩

/-- The steps of a successful request. -/
theorem request_ok {st st' : State} {cid : Nat} {cv tv : List Var} {g : Supply} {sent : List Raw}
    (h : requestValues ops jen little mk st cid cv tv g = .ok (st', sent)) :
    ∃ st1 st2 t c0 c top rest f s sug st4 cfg vs,
      findTuner ops mk st (regionId (cv.map (·.id)) (tv.map (·.id))) (cv.map (·.id)) (tv.map (·.id)) g = .ok (st1, t, c0) ∧
      testConvergence little st1 (regionId (cv.map (·.id)) (tv.map (·.id))) t c0 = .ok (st2, c) ∧
      st2.stack = top :: rest ∧
      requestFeatures jen little { st2 with stack := (if top then c else false) :: st2.stack } (st2.regions t) cv = .ok f ∧
      choose ops jen little { st2 with stack := (if top then c else false) :: st2.stack, feats := store st2.feats g.features f }
        (st2.regions t) c g = (s, sug) ∧
      keepConfiguration { st2 with
          stack := (if top then c else false) :: st2.stack
          feats := store st2.feats g.features f
          regions := store st2.regions t { st2.regions t with space := s } } g.configuration sug = .ok (st4, cfg) ∧
      configurationValues (st4.configs cfg) tv.length = .ok vs ∧
      sendLoop st4 s vs tv = .ok sent ∧
      st' = { st4 with contexts := put st4.contexts cid ⟨g.clock, t, g.features, cfg, c⟩ } := by
  unfold requestValues at h
  obtain ⟨⟨st1, t, c0⟩, h1, h⟩ := bind_eq_ok h
  obtain ⟨⟨st2, c⟩, h2, h⟩ := bind_eq_ok h
  obtain ⟨st3, h3, h⟩ := bind_eq_ok h
  unfold pushStatus at h3
  split at h3
  · cases h3
  next top rest hst =>
  cases h3
  obtain ⟨f, h4, h⟩ := bind_eq_ok h
  obtain ⟨⟨st4, cfg⟩, h5, h⟩ := bind_eq_ok h
  obtain ⟨vs, h6, h⟩ := bind_eq_ok h
  obtain ⟨sent', h7, h⟩ := bind_eq_ok h
  cases h
  exact ⟨st1, st2, t, c0, c, top, rest, f, _, _, st4, cfg, vs, h1, h2, hst, h4, rfl, h5, h6, h7, rfl⟩

theorem keepConfiguration_ok {st st' : State} {a c : BitVec 64} {sug : Out Suggested} (h : keepConfiguration st a sug = .ok (st', c)) :
    (sug = .ok (.known c) ∧ st' = st) ∨ ∃ vs, sug = .ok (.fresh vs) ∧ c = a ∧ st' = { st with configs := store st.configs a vs } := by
  unfold keepConfiguration at h
  split at h
  · cases h; exact .inl ⟨rfl, rfl⟩
  · cases h; exact .inr ⟨_, rfl, rfl, rfl⟩
  · cases h
  · cases h

/-- The steps of a successful report. -/
theorem report_ok {st st' : State} {o : Open} {stop : Timespec} {e : BitVec 64} (h : report ops jen little st o stop e = .ok st') :
    ∃ ns b t, elapsed o.start stop = .ok ns ∧
      createBinding jen little (st.regions o.tuner).ospace (st.ospaces (st.regions o.tuner).ospace).ctx
        (some [⟨.int ns, false, false, false⟩]) = .ok b ∧ e ≠ 0#64 ∧
      (st.regions o.tuner).tuner.learn
        (State.env ops jen little { st with evals := store st.evals e ⟨⟨b, o.configuration, 0#32⟩, o.features⟩ }) e = .ok t ∧
      st' = { st with
        evals := store st.evals e ⟨⟨b, o.configuration, 0#32⟩, o.features⟩
        regions := store st.regions o.tuner { st.regions o.tuner with tuner := t } } := by
  unfold report at h
  obtain ⟨ns, h1, h⟩ := bind_eq_ok h
  obtain ⟨b, h2, h⟩ := bind_eq_ok h
  simp only [Tuner.tell] at h
  by_cases he : e = 0#64
  · rw [if_pos he] at h; cases h
  · rw [if_neg he] at h
    have hr : (State.env ops jen little
        { st with evals := store st.evals e ⟨⟨b, o.configuration, 0#32⟩, o.features⟩ }).result e = 0#32 := by
      simp [State.env, store_same]
    rw [if_neg (by rw [hr]; simp)] at h
    cases hl : (st.regions o.tuner).tuner.learn
        (State.env ops jen little { st with evals := store st.evals e ⟨⟨b, o.configuration, 0#32⟩, o.features⟩ }) e with
    | ok t =>
      simp only [hl] at h
      cases h
      exact ⟨ns, b, t, h1, h2, he, hl, rfl⟩
    | err x => simp only [hl] at h; cases h
    | ub => simp only [hl] at h; cases h

theorem learn_history {env : TunerEnv} {t t' : Tuner} {e : BitVec 64} (h : t.learn env e = .ok t') : t'.history = t.history ++ [e] := by
  unfold Tuner.learn at h
  obtain ⟨r, -, h⟩ := bind_eq_ok h
  cases h
  rfl

/-! ### The past and the state -/

/-- The statuses on the stack: whether no context of the list, or of what follows it, is measured. -/
def statuses : List Opened → List Bool
  | [] => [true]
  | o :: os => (!(o :: os).any (·.measured)) :: statuses os

/-- The number of contexts measured for the region with the key. -/
def keyCount (done : List (List Nat)) (k : List Nat) : Nat := (done.filter fun d => decide (uniqNat d = k)).length

theorem count_key (l : Ledger) (vars : List Nat) : l.count vars = keyCount l.done (uniqNat vars) := by
  unfold Ledger.count keyCount
  congr 2
  funext d
  simp only [uniqNat_eq_iff]

/-- The state is what the past says, and no tuner lies at the addresses `free`. -/
structure Agrees (l : Ledger) (st : State) (free : List (BitVec 64)) : Prop where
  stack : st.stack = statuses l.opened
  nodup : (l.opened.map (·.id)).Nodup
  opened : ∀ o ∈ l.opened, ∃ x c, look st.contexts o.id = some x ∧ x.converged = !o.measured ∧
    look st.tuners (uniqNat o.vars) = some (x.tuner, c)
  contexts : ∀ c x, look st.contexts c = some x → ∃ o ∈ l.opened, o.id = c
  tuners : ∀ k t c, look st.tuners k = some (t, c) → (st.regions t).tuner.history.length = keyCount l.done k ∧
    (c = true → 500 ≤ keyCount l.done k) ∧ t ∉ free
  absent : ∀ k, look st.tuners k = none → keyCount l.done k = 0
  distinct : ∀ k k' t c c', look st.tuners k = some (t, c) → look st.tuners k' = some (t, c') → k = k'

theorem Agrees.empty (st : State) (free : List (BitVec 64)) (h1 : st.stack = [true]) (h2 : st.contexts = []) (h3 : st.tuners = []) :
    Agrees ⟨[], []⟩ st free where
  stack := h1
  nodup := .nil
  opened := by simp
  contexts := by simp [h2, look]
  tuners := by simp [h3, look]
  absent := by simp [keyCount]
  distinct := by simp [h3, look]

theorem Agrees.congr {l : Ledger} {st st' : State} {free : List (BitVec 64)} (ha : Agrees l st free) (h1 : st'.stack = st.stack)
    (h2 : st'.contexts = st.contexts) (h3 : st'.tuners = st.tuners) (h4 : ∀ t, (st'.regions t).tuner = (st.regions t).tuner) :
    Agrees l st' free where
  stack := by rw [h1]; exact ha.stack
  nodup := ha.nodup
  opened := by rw [h2, h3]; exact ha.opened
  contexts := by rw [h2]; exact ha.contexts
  tuners := by rw [h3]; intro k t c h; rw [h4]; exact ha.tuners k t c h
  absent := by rw [h3]; exact ha.absent
  distinct := by rw [h3]; exact ha.distinct

theorem Agrees.find {l : Ledger} {st st' : State} {k cids tids : List Nat} {g : Supply} {t : BitVec 64} {c : Bool}
    {free : List (BitVec 64)} (ha : Agrees l st (g.tuner :: free)) (hnd : g.tuner ∉ free)
    (h : findTuner ops mk st k cids tids g = .ok (st', t, c)) : Agrees l st' free ∧ look st'.tuners k = some (t, c) := by
  rcases findTuner_ok h with ⟨h1, rfl⟩ | ⟨h1, rfl, rfl, cs, fs, p, -, -, -, rfl⟩
  · refine ⟨{ ha with tuners := fun k t c h => ?_ }, h1⟩
    obtain ⟨h2, h3, h4⟩ := ha.tuners k t c h
    exact ⟨h2, h3, fun h5 => h4 (List.mem_cons_of_mem _ h5)⟩
  · have hne : ∀ k' t c, look st.tuners k' = some (t, c) → t ≠ g.tuner := fun k' t c h' e =>
      (ha.tuners k' t c h').2.2 (by rw [e]; simp)
    refine ⟨⟨ha.stack, ha.nodup, fun o ho => ?_, ha.contexts, fun k' t' c' h' => ?_, fun k' h' => ?_, fun k1 k2 t' c1 c2 h2 h3 => ?_⟩,
      by simp [look_put]⟩
    · obtain ⟨x, c, h2, h3, h4⟩ := ha.opened o ho
      refine ⟨x, c, h2, h3, ?_⟩
      simp only [look_put]
      rw [if_neg (fun e => by rw [e, h1] at h4; cases h4)]
      exact h4
    · simp only [look_put] at h'
      by_cases e : k' = k
      · rw [if_pos e] at h'
        cases h'
        subst e
        refine ⟨?_, by simp, hnd⟩
        simp only [store_same, ha.absent _ h1]
        rfl
      · rw [if_neg e] at h'
        obtain ⟨h2, h3, h4⟩ := ha.tuners k' t' c' h'
        refine ⟨?_, h3, fun h5 => h4 (List.mem_cons_of_mem _ h5)⟩
        rw [← h2]
        simp only [store_ne (hne k' t' c' h')]
    · simp only [look_put] at h'
      split at h'
      · cases h'
      · exact ha.absent k' h'
    · simp only [look_put] at h2 h3
      split at h2 <;> split at h3
      · next e1 e2 => rw [e1, e2]
      · cases h2; exact absurd rfl (hne _ _ _ h3)
      · cases h3; exact absurd rfl (hne _ _ _ h2)
      · exact ha.distinct _ _ _ _ _ h2 h3

theorem Agrees.test {l : Ledger} {st st' : State} {k : List Nat} {t : BitVec 64} {c c' : Bool}
    {free : List (BitVec 64)} (ha : Agrees l st free) (hk : look st.tuners k = some (t, c))
    (h : testConvergence little st k t c = .ok (st', c')) :
    Agrees l st' free ∧ look st'.tuners k = some (t, c') ∧ c' = decide (500 ≤ keyCount l.done k) := by
  obtain ⟨h1, h2⟩ := testConvergence_ok h
  obtain ⟨h3, h4, h5⟩ := ha.tuners k t c hk
  have hc : c' = decide (500 ≤ keyCount l.done k) := by
    rw [h3] at h1
    cases c' with
    | true =>
      rcases h1.1 rfl with h | h
      · simp [h4 h]
      · simp [h]
    | false =>
      have := fun h => h1.2 (.inr h)
      simp only [Bool.false_eq_true, imp_false] at this
      simp [this]
  rcases h2 with ⟨rfl, rfl⟩ | ⟨rfl, rfl⟩
  · exact ⟨ha, hk, hc⟩
  · refine ⟨⟨ha.stack, ha.nodup, fun o ho => ?_, ha.contexts, fun k' t' c' h' => ?_, fun k' h' => ?_, fun k1 k2 t' c1 c2 h2 h3 => ?_⟩,
      by simp [look_put], hc⟩
    · obtain ⟨x, c1, h6, h7, h8⟩ := ha.opened o ho
      by_cases e : uniqNat o.vars = k
      · rw [e, hk] at h8
        cases h8
        exact ⟨x, true, h6, h7, by simp [look_put, e]⟩
      · exact ⟨x, c1, h6, h7, by simp only [look_put]; rw [if_neg e]; exact h8⟩
    · simp only [look_put] at h'
      split at h'
      · next e =>
        cases h'
        subst e
        refine ⟨h3, fun _ => ?_, h5⟩
        simpa using hc
      · exact ha.tuners k' t' c' h'
    · simp only [look_put] at h'
      split at h'
      · cases h'
      · exact ha.absent k' h'
    · simp only [look_put] at h2 h3
      split at h2 <;> split at h3
      · next e1 e2 => rw [e1, e2]
      · next e1 e2 => cases h2; rw [e1]; exact ha.distinct _ _ _ _ _ hk h3
      · next e1 e2 => cases h3; rw [e2]; exact ha.distinct _ _ _ _ _ h2 hk
      · exact ha.distinct _ _ _ _ _ h2 h3

theorem Agrees.request {l : Ledger} {st st' : State} {cid : Nat} {cv tv : List Var} {g : Supply} {sent : List Raw}
    {free : List (BitVec 64)} (ha : Agrees l st (g.tuner :: free)) (hnd : g.tuner ∉ free)
    (h : requestValues ops jen little mk st cid cv tv g = .ok (st', sent)) (hid : ∀ o ∈ l.opened, o.id ≠ cid) :
    Agrees { l with opened := ⟨cid, requestVars cv tv, decide (l.count (requestVars cv tv) < 500)⟩ :: l.opened } st' free := by
  obtain ⟨st1, st2, t, c0, c, top, rest, f, s, sug, st4, cfg, vs, h1, h2, h3, -, -, h5, -, -, rfl⟩ := request_ok h
  rw [show regionId (cv.map (·.id)) (tv.map (·.id)) = uniqNat (requestVars cv tv) from rfl] at h1 h2
  obtain ⟨ha1, hk1⟩ := ha.find hnd h1
  obtain ⟨ha2, hk2, hc⟩ := ha1.test hk1 h2
  have key : st4.stack = (if top then c else false) :: st2.stack ∧ st4.contexts = st2.contexts ∧ st4.tuners = st2.tuners ∧
      ∀ t, (st4.regions t).tuner = (st2.regions t).tuner := by
    have hreg : ∀ t', (store st2.regions t { st2.regions t with space := s } t').tuner = (st2.regions t').tuner := by
      intro t'
      unfold store
      split
      · next e => rw [e]
      · rfl
    rcases keepConfiguration_ok h5 with ⟨-, rfl⟩ | ⟨vs, -, -, rfl⟩
    · exact ⟨rfl, rfl, rfl, hreg⟩
    · exact ⟨rfl, rfl, rfl, hreg⟩
  obtain ⟨k1, k2, k3, k4⟩ := key
  refine ⟨?_, ?_, fun o ho => ?_, fun c' x hx => ?_, ?_, ?_, ?_⟩
  · rw [k1, ha2.stack]
    rw [ha2.stack] at h3
    have htop : top = !l.opened.any (·.measured) := by
      cases hl : l.opened with
      | nil => rw [hl] at h3; simp only [statuses] at h3; cases h3; rfl
      | cons o os => rw [hl] at h3; simp only [statuses] at h3; cases h3; rfl
    simp only [statuses, List.any_cons, count_key]
    rw [htop, hc]
    congr 1
    by_cases h6 : keyCount l.done (uniqNat (requestVars cv tv)) < 500
    · have : ¬ 500 ≤ keyCount l.done (uniqNat (requestVars cv tv)) := by omega
      simp [h6, this]
    · have : 500 ≤ keyCount l.done (uniqNat (requestVars cv tv)) := by omega
      cases l.opened.any (·.measured) <;> simp [h6, this]
  · simp only [List.map_cons, List.nodup_cons, List.mem_map, not_exists, not_and]
    exact ⟨fun o ho => hid o ho, ha2.nodup⟩
  · rw [k2, k3]
    rcases List.mem_cons.1 ho with rfl | ho
    · refine ⟨_, c, by simp only [look_put]; rfl, ?_, hk2⟩
      rw [hc]
      simp only [count_key]
      by_cases h6 : keyCount l.done (uniqNat (requestVars cv tv)) < 500
      · simp [h6]
      · simp [h6]; omega
    · obtain ⟨x, c1, h6, h7, h8⟩ := ha2.opened o ho
      refine ⟨x, c1, ?_, h7, h8⟩
      simp only [look_put]
      rw [if_neg (hid o ho)]
      exact h6
  · rw [k2] at hx
    simp only [look_put] at hx
    split at hx
    · next e => exact ⟨_, List.mem_cons_self, e.symm⟩
    · obtain ⟨o, h6, h7⟩ := ha2.contexts c' x hx
      exact ⟨o, List.mem_cons_of_mem _ h6, h7⟩
  · simp only [k3]
    intro k' t' c' h'
    rw [k4]
    exact ha2.tuners k' t' c' h'
  · simp only [k3]; exact ha2.absent
  · simp only [k3]; exact ha2.distinct

theorem Agrees.ends {l : Ledger} {st st' : State} {o : Opened} {os : List Opened} {stop : Timespec} {e : BitVec 64}
    {free : List (BitVec 64)} (ha : Agrees l st free) (hl : l.opened = o :: os)
    (h : endContext ops jen little st o.id stop e = .ok st') :
    Agrees ⟨os, if o.measured then o.vars :: l.done else l.done⟩ st' free := by
  obtain ⟨x, c, hx, hc, hk⟩ := ha.opened o (by rw [hl]; simp)
  have hnd := ha.nodup
  rw [hl] at hnd
  simp only [List.map_cons, List.nodup_cons, List.mem_map, not_exists, not_and] at hnd
  have hst := ha.stack
  rw [hl] at hst
  simp only [statuses] at hst
  unfold endContext at h
  simp only [hx, hst] at h
  have base : Agrees ⟨os, l.done⟩ { st with stack := statuses os, contexts := drop st.contexts o.id } free := by
    refine ⟨rfl, hnd.2, fun o' ho' => ?_, fun c' x' hx' => ?_, ha.tuners, ha.absent, ha.distinct⟩
    · obtain ⟨x', c1, h6, h7, h8⟩ := ha.opened o' (by rw [hl]; exact List.mem_cons_of_mem _ ho')
      refine ⟨x', c1, ?_, h7, h8⟩
      simp only [look_drop]
      rw [if_neg (hnd.1 o' ho')]
      exact h6
    · simp only [look_drop] at hx'
      split at hx'
      · cases hx'
      · next hne =>
        obtain ⟨o', h6, h7⟩ := ha.contexts c' x' hx'
        rw [hl] at h6
        rcases List.mem_cons.1 h6 with rfl | h6
        · exact absurd h7.symm hne
        · exact ⟨o', h6, h7⟩
  split at h
  · next hcv =>
    cases h
    rw [hc] at hcv
    have : o.measured = false := by simpa using hcv
    simp only [this, Bool.false_eq_true, if_false]
    exact base
  · next hcv =>
    rw [hc] at hcv
    have : o.measured = true := by simpa using hcv
    simp only [this, if_true]
    obtain ⟨ns, b, t, -, -, -, ht, rfl⟩ := report_ok h
    have hh := learn_history ht
    have hcount : ∀ k, keyCount (o.vars :: l.done) k = keyCount l.done k + if uniqNat o.vars = k then 1 else 0 := by
      intro k
      unfold keyCount
      simp only [List.filter_cons]
      by_cases h9 : uniqNat o.vars = k <;> simp [h9]
    refine ⟨base.stack, base.nodup, base.opened, base.contexts, fun k' t' c' h' => ?_, fun k' h' => ?_, base.distinct⟩
    · obtain ⟨h1, h2, h3⟩ := base.tuners k' t' c' h'
      simp only at h1 h2 h3 h' ⊢
      rw [hcount]
      by_cases h9 : uniqNat o.vars = k'
      · rw [← h9, hk] at h'
        cases h'
        rw [store_same]
        simp only [hh, List.length_append, List.length_singleton, h9, if_true, h1]
        exact ⟨trivial, fun h => by have := h2 h; omega, h3⟩
      · have : t' ≠ x.tuner := fun e => h9 (ha.distinct _ _ _ _ _ hk (e ▸ h'))
        rw [store_ne this]
        simp only [h9, if_false, Nat.add_zero]
        exact ⟨h1, h2, h3⟩
    · rw [hcount, if_neg (fun e => ?_)]
      · exact ha.absent k' h'
      · simp only at h'
        rw [← e, hk] at h'
        cases h'

/-! ### The stack and the contexts, whatever the nesting -/

theorem request_effect {st st' : State} {cid : Nat} {cv tv : List Var} {g : Supply} {sent : List Raw}
    (h : requestValues ops jen little mk st cid cv tv g = .ok (st', sent)) :
    ∃ top rest x, st.stack = top :: rest ∧ st'.stack = (top && x.converged) :: st.stack ∧ st'.contexts = put st.contexts cid x := by
  obtain ⟨st1, st2, t, c0, c, top, rest, f, s, sug, st4, cfg, vs, h1, h2, h3, -, -, h5, -, -, rfl⟩ := request_ok h
  have e1 : st1.stack = st.stack ∧ st1.contexts = st.contexts := by
    rcases findTuner_ok h1 with ⟨-, rfl⟩ | ⟨-, -, -, cs, fs, p, -, -, -, rfl⟩ <;> exact ⟨rfl, rfl⟩
  have e2 : st2.stack = st1.stack ∧ st2.contexts = st1.contexts := by
    rcases (testConvergence_ok h2).2 with ⟨rfl, -⟩ | ⟨-, rfl⟩ <;> exact ⟨rfl, rfl⟩
  have e4 : st4.stack = (if top then c else false) :: st2.stack ∧ st4.contexts = st2.contexts := by
    rcases keepConfiguration_ok h5 with ⟨-, rfl⟩ | ⟨vs, -, -, rfl⟩ <;> exact ⟨rfl, rfl⟩
  refine ⟨top, rest, ⟨g.clock, t, g.features, cfg, c⟩, by rw [← e1.1, ← e2.1, h3], ?_, by rw [e4.2, e2.2, e1.2]⟩
  rw [e4.1, e2.1, e1.1]
  cases top <;> simp

theorem end_effect {st st' : State} {cid : Nat} {x : Open} {stop : Timespec} {e : BitVec 64} {top : Bool} {rest : List Bool}
    (h : endContext ops jen little st cid stop e = .ok st') (hx : look st.contexts cid = some x) (hs : st.stack = top :: rest) :
    st'.stack = rest ∧ st'.contexts = drop st.contexts cid := by
  unfold endContext at h
  simp only [hx, hs] at h
  split at h
  · cases h; exact ⟨rfl, rfl⟩
  · obtain ⟨ns, b, t, -, -, -, -, rfl⟩ := report_ok h
    exact ⟨rfl, rfl⟩

end

end CCS.Kokkos
