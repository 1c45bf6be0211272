import Verif.Lemmas.RunSpaces
import Verif.Props.SpaceWire
import Verif.Props.Tuner

/-! Helper lemmas about the serialization of tuners. -/

namespace CCS

open Spec

/-! ### Objectives of a copy -/

theorem objectiveValue_twin (ops : FloatOps) (jen : Bytes → BitVec 32) (little : Bool) {mem mem' : BitVec 64 → Param}
    {paramAt : Nat → BitVec 64} {s s' : ObjSpace} (hr : ObjReachable mem s) (hr' : ObjReachable mem' s') (ht : ObjTwin paramAt s s')
    {o : Objective} (ho : o ∈ s.objectives) (hh : Honest mem o.expression) {vs vs' : List Datum}
    (hv : vs'.map (·.v) = vs.map (·.v)) :
    objectiveValue ops jen little s' vs' (relabel (followIn paramAt s.ctx) o.expression) = objectiveValue ops jen little s vs o.expression := by
  have hg := grown_table (obj_grown hr)
  have hg' := grown_table (obj_grown hr')
  unfold objectiveValue
  rw [hv]
  refine (eval_relabel ops jen little _ _ (followIn paramAt s.ctx) o.expression fun h p hoc => ?_).1
  obtain ⟨i, q, hq⟩ := (Props.objectives_known hr o ho).2 h (occursAs_occurs hoc)
  rw [followIn_get paramAt hg.1 hq]
  refine ⟨?_, ?_⟩
  · rw [hh _ _ hoc]
    exact hg.2 _ (List.mem_of_getElem? hq)
  · have h1 : s.handles[i]? = some h := by unfold ObjSpace.handles; rw [List.getElem?_map, hq]; rfl
    have h2 : s'.handles[i]? = some (paramAt i) := by
      unfold ObjSpace.handles
      rw [List.getElem?_map, ht.params.params i h q hq]
      rfl
    unfold Env.lookup
    dsimp only
    rw [show paramIndex s.handles h = .ok i from paramIndex_get hg.1.handles h1,
      show paramIndex s'.handles (paramAt i) = .ok i from paramIndex_get hg'.1.handles h2]

theorem compareLoop_map (g : Objective → Objective) {f₁ f₂ f₁' f₂' : Expr → Out Value} : ∀ (os : List Objective) (acc : Comparison),
    (∀ o ∈ os, (g o).type = o.type ∧ f₁' (g o).expression = f₁ o.expression ∧ f₂' (g o).expression = f₂ o.expression) →
    compareLoop f₁' f₂' acc (os.map g) = compareLoop f₁ f₂ acc os
  | [], acc, _ => rfl
  | o :: os, acc, h => by
    obtain ⟨h1, h2, h3⟩ := h o (by simp)
    rw [List.map_cons, compareLoop, compareLoop, h1, h2, h3]
    congr 1
    funext a
    congr 1
    funext b
    cases numericCompare a b with
    | none => rfl
    | some r =>
      dsimp only
      cases mergeOne acc (orient o.type r) with
      | none => rfl
      | some acc' => exact compareLoop_map g os acc' fun x hx => h x (by simp [hx])

theorem fillObjectives_map (g : Objective → Objective) {f f' : Expr → Out Value} : ∀ (os : List Objective) (i : Nat) (a : List Value),
    (∀ o ∈ os, f' (g o).expression = f o.expression) → fillObjectives f' i (os.map g) a = fillObjectives f i os a
  | [], i, a, _ => rfl
  | o :: os, i, a, h => by
    rw [List.map_cons, fillObjectives, fillObjectives, h o (by simp)]
    congr 1
    funext v
    congr 1
    funext a'
    exact fillObjectives_map g os (i + 1) a' fun x hx => h x (by simp [hx])

/-! ### The handle map -/

theorem Handles.get_add {m m' : Handles} {h : BitVec 64} {x : Mapped} (ha : m.add h x = .ok m') (k : BitVec 64) :
    m'.get k = if k = h then some x else m.get k := by
  unfold Handles.add at ha
  split at ha
  · cases ha
  next hn =>
    obtain rfl := Out.ok.inj ha
    unfold Handles.get
    rw [List.find?_cons]
    by_cases hk : h = k
    · simp [hk]
    · rw [if_neg (Ne.symm hk)]
      simp [hk]

theorem Handles.add_ok {m : Handles} {h : BitVec 64} (hn : m.get h = none) (x : Mapped) : m.add h x = .ok ((h, x) :: m) := by
  unfold Handles.add
  rw [hn]

theorem Handles.add_err {m : Handles} {h : BitVec 64} (hn : m.get h ≠ none) (x : Mapped) : m.add h x = .err .duplicateHandle := by
  unfold Handles.add
  cases hg : m.get h with
  | none => exact absurd hg hn
  | some y => rfl

/-! ### Values that fit -/

theorem attach_fits (jen : Bytes → BitVec 32) (little : Bool) {m : Handles} {type : BitVec 32} {b : Binding} (hb : StorableBinding b)
    {a : BitVec 64} {c : Ctx} (hg : m.get b.context = some ⟨type, a, c⟩) (hc : c.params.length < 2 ^ 32) (hf : FitsSpace c b) :
    ∃ b', attach jen little m type b = .ok b' ∧ MovedTo a b b' := by
  unfold attach Handles.space
  rw [hg]
  dsimp only
  rw [if_pos rfl, Out.bind_ok]
  have hr := rebinds_attach jen little hb a hc
  cases hx : createBinding jen little a c (givenValues (readValues b)) with
  | ok b' =>
    rw [hx] at hr
    refine ⟨b', rfl, ?_⟩
    cases hr with
    | same _ _ _ h1 h2 => exact ⟨h1, h2⟩
    | blank h0 h1 h2 =>
      refine ⟨h1, ?_⟩
      have : c.params.length = 0 := by rw [← hf.1, h0]; rfl
      rw [h2, h0, this]
      rfl
  | err x =>
    rw [hx] at hr
    cases hr with
    | count _ h => exact absurd hf.1 h
    | illegal _ _ h => exact absurd hf.2 h
  | ub =>
    rw [hx] at hr
    cases hr

theorem fits_same {c c' : Ctx} (h : c'.params.map (·.2) = c.params.map (·.2)) {b : Binding} (hf : FitsSpace c b) : FitsSpace c' b := by
  have hlen : c'.params.length = c.params.length := by simpa using congrArg List.length h
  refine ⟨by rw [hlen]; exact hf.1, fun i d s hi hs => ?_⟩
  obtain ⟨x, p, hp, hl⟩ := hf.2 i d s hi hs
  have : (c'.params.map (·.2))[i]? = some p := by rw [h, List.getElem?_map, hp]; rfl
  rw [List.getElem?_map, Option.map_eq_some_iff] at this
  obtain ⟨⟨y, q⟩, hq, rfl⟩ := this
  exact ⟨y, q, hq, hl⟩

/-- What the map knows of the spaces of a tuner: they are there, with the same parameters. -/
structure KnowsSpaces (P : Places) (o : TunerObj) (m : Handles) : Prop where
  space : ∃ c, m.get o.space.handle = some ⟨configurationSpaceType, P.space, c⟩ ∧ c.params.length < 2 ^ 32 ∧
    c.params.map (·.2) = o.space.space.ctx.params.map (·.2)
  objectives : ∃ c, m.get o.objectives.handle = some ⟨objectiveSpaceType, P.objectives, c⟩ ∧ c.params.length < 2 ^ 32 ∧
    c.params.map (·.2) = o.objectives.space.ctx.params.map (·.2)
  features : ∀ s, o.features = some s → ∃ c, m.get s.handle = some ⟨featuresSpaceType, P.features, c⟩ ∧ c.params.length < 2 ^ 32 ∧
    c.params.map (·.2) = s.ctx.params.map (·.2)

theorem KnowsSpaces.add {P : Places} {o : TunerObj} {m m' : Handles} (hk : KnowsSpaces P o m) {h : BitVec 64} {x : Mapped}
    (ha : m.add h x = .ok m') : KnowsSpaces P o m' := by
  have hn : m.get h = none := by
    unfold Handles.add at ha
    split at ha
    · cases ha
    · assumption
  have keep : ∀ k y, m.get k = some y → m'.get k = some y := by
    intro k y hy
    rw [Handles.get_add ha, if_neg ?_]
    · exact hy
    · rintro rfl
      rw [hn] at hy
      cases hy
  obtain ⟨c, h1, h2⟩ := hk.space
  obtain ⟨d, h3, h4⟩ := hk.objectives
  refine ⟨⟨c, keep _ _ h1, h2⟩, ⟨d, keep _ _ h3, h4⟩, fun s hs => ?_⟩
  obtain ⟨c, h5, h6⟩ := hk.features s hs
  exact ⟨c, keep _ _ h5, h6⟩

theorem evalOutcome_belongs (jen : Bytes → BitVec 32) (little : Bool) {P : Places} {o : TunerObj} {m : Handles}
    (hk : KnowsSpaces P o m) (p : EvalPlace) {e : EvalObj} (hs : StorableEval e) (hb : Belongs o e) :
    ∃ e', SameEval P p e e' ∧ evalOutcome jen little true m p e =
      (m.add e.handle ⟨evalType e.features.isSome, p.eval, Ctx.empty⟩ >>= fun m' => .ok (m', e')) := by
  obtain ⟨c, g1, l1, s1⟩ := hk.space
  obtain ⟨d, g2, l2, s2⟩ := hk.objectives
  obtain ⟨bc, a1, v1⟩ := attach_fits jen little hs.configuration.binding (by rw [hb.configuration.1]; exact g1) l1
    (fits_same s1 hb.configuration.2)
  obtain ⟨bo, a2, v2⟩ := attach_fits jen little hs.binding (by rw [hb.objectives.1]; exact g2) l2
    (fits_same s2 hb.objectives.2)
  have hf : ∃ bf, attachFeatures jen little m e.features = .ok bf ∧ (e.features = none → placeFeatures p.feat e.features bf = none) ∧
      ∀ f, e.features = some f → ∃ f', placeFeatures p.feat e.features bf = some f' ∧ SameBound p.feat P.features f f' := by
    cases hof : o.features with
    | none =>
      rw [hb.without hof]
      exact ⟨none, rfl, fun _ => rfl, fun f hf => by cases hf⟩
    | some fs =>
      obtain ⟨f, hf, hctx, hfit⟩ := hb.features fs hof
      obtain ⟨x, g3, l3, s3⟩ := hk.features fs hof
      obtain ⟨b', a3, v3⟩ := attach_fits jen little (hs.features f hf).binding (by rw [hctx]; exact g3) l3 (fits_same s3 hfit)
      rw [hf]
      refine ⟨some b', ?_, (fun h => nomatch h), fun f' hf' => ?_⟩
      · show attach jen little m featuresSpaceType f.binding >>= (fun b => Out.ok (some b)) = _
        rw [a3]
        rfl
      · obtain rfl := Option.some.inj hf'
        exact ⟨_, rfl, rfl, v3, rfl⟩
  obtain ⟨bf, a3, w1, w2⟩ := hf
  refine ⟨⟨p.eval, bo, ⟨p.conf, bc, e.configuration.data⟩, placeFeatures p.feat e.features bf, e.result, e.data⟩,
    ⟨rfl, v2, ⟨rfl, v1, rfl⟩, w1, w2, rfl, rfl⟩, ?_⟩
  unfold evalOutcome
  rw [a1, Out.bind_ok, a3, Out.bind_ok, a2, Out.bind_ok]
  rfl

/-! ### The history -/

/-- Outcome of reading the history. -/
def historyOutcome (jen : Bytes → BitVec 32) (little : Bool) (P : Places) : Nat → Handles → List EvalObj → Out (Handles × List EvalObj)
  | _, m, [] => .ok (m, [])
  | i, m, e :: es => do
    let r ← evalOutcome jen little true m (P.evalAt i) e
    let s ← historyOutcome jen little P (i + 1) r.1 es
    .ok (s.1, r.2 :: s.2)

theorem readsAs_history (jen : Bytes → BitVec 32) (little withFeatures : Bool) (P : Places) : ∀ (es : List EvalObj) (i : Nat) (m : Handles),
    (∀ e ∈ es, StorableEval e ∧ e.features.isSome = withFeatures) →
    ReadsAs (deHistory jen little withFeatures P es.length i m) (es.flatMap evalBytes) (historyOutcome jen little P i m es)
  | [], i, m, _ => readsAs_ok (reads_pure _)
  | e :: es, i, m, h => by
    obtain ⟨hs, hw⟩ := h e (by simp)
    rw [List.length_cons, deHistory, List.flatMap_cons, historyOutcome]
    have := readsAs_eval jen little true m (P.evalAt i) hs
    rw [hw] at this
    refine readsAs_bind this fun r _ => ?_
    rw [← List.append_nil (es.flatMap evalBytes)]
    exact readsAs_bind (readsAs_history jen little withFeatures P es (i + 1) r.1 fun x hx => h x (by simp [hx])) fun s _ => readsAs_done _

/-- The map knows where the evaluations are. -/
def KnowsEvals (P : Places) (i : Nat) (hs : List (BitVec 64)) (m : Handles) : Prop :=
  ∀ (j : Nat) h, hs[j]? = some h → ∃ x, m.get h = some x ∧ x.addr = (P.evalAt (i + j)).eval

theorem history_fresh (jen : Bytes → BitVec 32) (little : Bool) {P : Places} {o : TunerObj} : ∀ (es : List EvalObj) (i : Nat) (m : Handles),
    KnowsSpaces P o m → (∀ e ∈ es, StorableEval e ∧ Belongs o e) → (∀ e ∈ es, m.get e.handle = none) → (es.map (·.handle)).Nodup →
    ∃ m' es', historyOutcome jen little P i m es = .ok (m', es') ∧ KnowsSpaces P o m' ∧ KnowsEvals P i (es.map (·.handle)) m' ∧
      (∀ k, k ∉ es.map (·.handle) → m'.get k = m.get k) ∧ es'.length = es.length ∧
      ∀ (j : Nat) e, es[j]? = some e → ∃ e', es'[j]? = some e' ∧ SameEval P (P.evalAt (i + j)) e e'
  | [], i, m, hk, _, _, _ => ⟨m, [], rfl, hk, by intro j h hj; simp at hj, fun _ _ => rfl, rfl, by intro j e he; simp at he⟩
  | e :: es, i, m, hk, hb, hn, hd => by
    obtain ⟨e', h1, h2⟩ := evalOutcome_belongs jen little hk (P.evalAt i) (hb e (by simp)).1 (hb e (by simp)).2
    rw [List.map_cons, List.nodup_cons] at hd
    have ha := Handles.add_ok (hn e (by simp)) ⟨evalType e.features.isSome, (P.evalAt i).eval, Ctx.empty⟩
    obtain ⟨m', es', h3, h4, h5, h6, h7, h8⟩ := history_fresh jen little es (i + 1) _ (hk.add ha) (fun x hx => hb x (by simp [hx]))
      (fun x hx => by
        rw [Handles.get_add ha, if_neg ?_]
        · exact hn x (by simp [hx])
        · intro he
          exact hd.1 (he ▸ List.mem_map.mpr ⟨x, hx, rfl⟩)) hd.2
    refine ⟨m', e' :: es', ?_, h4, ?_, ?_, by simp [h7], ?_⟩
    · rw [historyOutcome, h2, ha, Out.bind_ok, Out.bind_ok, h3]
      rfl
    · intro j h hj
      cases j with
      | zero =>
        simp only [List.map_cons, List.getElem?_cons_zero, Option.some.injEq] at hj
        subst hj
        refine ⟨_, by rw [h6 _ hd.1, Handles.get_add ha, if_pos rfl], rfl⟩
      | succ j =>
        rw [List.map_cons, List.getElem?_cons_succ] at hj
        obtain ⟨x, hx, hxa⟩ := h5 j h hj
        exact ⟨x, hx, by rw [hxa, show i + 1 + j = i + (j + 1) by omega]⟩
    · intro k hkn
      rw [List.map_cons, List.mem_cons, not_or] at hkn
      rw [h6 k hkn.2, Handles.get_add ha, if_neg hkn.1]
    · intro j x hx
      cases j with
      | zero =>
        obtain rfl := Option.some.inj hx
        exact ⟨e', rfl, h1⟩
      | succ j =>
        obtain ⟨x', hx', hs⟩ := h8 j x (by simpa using hx)
        exact ⟨x', by simpa using hx', by rw [show i + (j + 1) = i + 1 + j by omega]; exact hs⟩

theorem history_clash (jen : Bytes → BitVec 32) (little : Bool) {P : Places} {o : TunerObj} : ∀ (es : List EvalObj) (i : Nat) (m : Handles),
    KnowsSpaces P o m → (∀ e ∈ es, StorableEval e ∧ Belongs o e) →
    ¬ ((∀ e ∈ es, m.get e.handle = none) ∧ (es.map (·.handle)).Nodup) → historyOutcome jen little P i m es = .err .duplicateHandle
  | [], i, m, _, _, h => absurd ⟨by simp, by simp⟩ h
  | e :: es, i, m, hk, hb, hc => by
    obtain ⟨e', h1, h2⟩ := evalOutcome_belongs jen little hk (P.evalAt i) (hb e (by simp)).1 (hb e (by simp)).2
    by_cases hn : m.get e.handle = none
    · have ha := Handles.add_ok hn ⟨evalType e.features.isSome, (P.evalAt i).eval, Ctx.empty⟩
      have := history_clash jen little es (i + 1) _ (hk.add ha) (fun x hx => hb x (by simp [hx])) (by
        rintro ⟨k1, k2⟩
        refine hc ⟨?_, ?_⟩
        · intro x hx
          rcases List.mem_cons.mp hx with rfl | hx
          · exact hn
          · have := k1 x hx
            rw [Handles.get_add ha] at this
            split at this
            · cases this
            · exact this
        · rw [List.map_cons, List.nodup_cons]
          refine ⟨fun hm => ?_, k2⟩
          obtain ⟨x, hx, he⟩ := List.mem_map.mp hm
          have := k1 x hx
          rw [Handles.get_add ha, if_pos he] at this
          cases this)
      rw [historyOutcome, h2, ha, Out.bind_ok, Out.bind_ok, this]
      rfl
    · rw [historyOutcome, h2, Handles.add_err hn]
      rfl

theorem history_append (jen : Bytes → BitVec 32) (little : Bool) (P : Places) : ∀ (es fs : List EvalObj) (i : Nat) (m : Handles),
    historyOutcome jen little P i m (es ++ fs) = historyOutcome jen little P i m es >>= fun r =>
      historyOutcome jen little P (i + es.length) r.1 fs >>= fun s => .ok (s.1, r.2 ++ s.2)
  | [], fs, i, m => by
    rw [List.nil_append, historyOutcome, Out.bind_ok]
    dsimp only
    rw [show i + [].length = i from rfl]
    cases historyOutcome jen little P i m fs <;> rfl
  | e :: es, fs, i, m => by
    rw [List.cons_append, historyOutcome, historyOutcome, bind_bind]
    congr 1
    funext r
    rw [history_append jen little P es fs (i + 1) r.1, bind_bind, bind_bind]
    congr 1
    funext s
    rw [bind_bind, Out.bind_ok, show i + 1 + es.length = i + (e :: es).length by simp; omega]
    cases historyOutcome jen little P (i + (e :: es).length) s.1 fs <;> rfl

/-! ### Optima -/

theorem findOptima_known {P : Places} {t : Tuner} {m : Handles} (hk : KnowsEvals P 0 t.history m) :
    ∀ (os : List (BitVec 64)), (∀ h ∈ os, h ∈ t.history) → findOptima m os = .ok (os.map (followEval P t))
  | [], _ => rfl
  | h :: os, hm => by
    have hh := hm h (by simp)
    have hi := List.idxOf_lt_length_of_mem hh
    obtain ⟨x, hx, ha⟩ := hk (t.history.idxOf h) h (by rw [List.getElem?_eq_getElem hi, List.getElem_idxOf hi])
    rw [findOptima, findOptimum, hx]
    dsimp only
    rw [Out.bind_ok, findOptima_known hk os fun y hy => hm y (by simp [hy]), Out.bind_ok, ha]
    simp [followEval]

theorem keepLoop_sub (cmp : BitVec 64 → BitVec 64 → Out Comparison) (e : BitVec 64) : ∀ (d : Bool) (os : List (BitVec 64)) r,
    keepLoop cmp e d os = .ok r → ∀ x ∈ r.2, x ∈ os := by
  intro d os r h x hx
  obtain ⟨d', ks⟩ := r
  have key : ∀ (os : List (BitVec 64)) (d : Bool) d' ks, keepLoop cmp e d os = .ok (d', ks) → ∀ x ∈ ks, x ∈ os := by
    intro os
    induction os with
    | nil => intro d d' ks h x hx; cases d <;> (cases h; cases hx)
    | cons o os ih =>
      intro d d' ks h x hx
      have push : ∀ b, (keepLoop cmp e b os >>= fun r => Out.ok (r.1, o :: r.2)) = .ok (d', ks) → x ∈ o :: os := by
        intro b hb
        obtain ⟨⟨d2, k2⟩, h1, h2⟩ := bind_eq_ok hb
        cases h2
        rcases List.mem_cons.mp hx with rfl | hx
        · simp
        · exact List.mem_cons_of_mem _ (ih b _ _ h1 x hx)
      cases d with
      | true => exact push true h
      | false =>
        rw [keepLoop] at h
        cases hc : cmp e o with
        | ub => rw [hc] at h; cases h
        | err y => rw [hc] at h; exact List.mem_cons_of_mem _ (ih _ _ _ h x hx)
        | ok c =>
          rw [hc] at h
          cases c with
          | better => exact List.mem_cons_of_mem _ (ih _ _ _ h x hx)
          | notComparable => exact push false h
          | equivalent => exact push true h
          | worse => exact push true h
  exact key os d d' ks h x hx

theorem tell_optima (env : TunerEnv) : ∀ (es : List (BitVec 64)) (t : Tuner), (∀ x ∈ t.optima, x ∈ t.history) →
    ∀ x ∈ (t.tell env es).1.optima, x ∈ (t.tell env es).1.history
  | [], t, h => h
  | e :: es, t, h => by
    rw [Tuner.tell]
    split
    · exact h
    · split
      · exact tell_optima env es t h
      · cases hl : t.learn env e with
        | ok t' =>
          refine tell_optima env es t' ?_
          obtain ⟨r, h1, h2⟩ := bind_eq_ok hl
          obtain rfl := Out.ok.inj h2
          intro x hx
          have key : x ∈ r.2 ∨ x = e := by
            dsimp only at hx
            split at hx
            · exact .inl hx
            · simpa using hx
          rcases key with hx | rfl
          · exact List.mem_append_left _ (h x (keepLoop_sub _ _ _ _ _ h1 x hx))
          · simp
        | err y => exact h
        | ub => exact h

theorem tells_optima : ∀ (calls : List (TunerEnv × List (BitVec 64))) (t : Tuner), (∀ x ∈ t.optima, x ∈ t.history) →
    ∀ x ∈ (t.tells calls).optima, x ∈ (t.tells calls).history
  | [], _, h => h
  | c :: cs, t, h => tells_optima cs _ (tell_optima c.1 c.2 t h)

/-! ### Telling two processes -/

theorem keepLoop_moved {S : BitVec 64 → Prop} {f : BitVec 64 → BitVec 64} {env env' : TunerEnv} (hv : SameView S f env env')
    {e : BitVec 64} (he : S e) : ∀ (os : List (BitVec 64)) (d : Bool), (∀ o ∈ os, S o) →
    keepLoop env'.compare (f e) d (os.map f) = keepLoop env.compare e d os >>= fun r => .ok (r.1, r.2.map f)
  | [], d, _ => by cases d <;> rfl
  | o :: os, d, ho => by
    have ih := fun b => keepLoop_moved hv he os b fun x hx => ho x (by simp [hx])
    have push : ∀ b, (keepLoop env'.compare (f e) b (os.map f) >>= fun r => Out.ok (r.1, f o :: r.2)) =
        (keepLoop env.compare e b os >>= fun r => Out.ok (r.1, o :: r.2)) >>= fun r => .ok (r.1, r.2.map f) := by
      intro b
      rw [ih b]
      cases keepLoop env.compare e b os <;> rfl
    cases d with
    | true => exact push true
    | false =>
      rw [List.map_cons, keepLoop, keepLoop, hv.compare e o he (ho o (by simp))]
      cases env.compare e o with
      | ub => rfl
      | err y => exact ih true
      | ok c =>
        cases c with
        | better => exact ih false
        | notComparable => exact push false
        | equivalent => exact push true
        | worse => exact push true

theorem tell_moved {S : BitVec 64 → Prop} {f : BitVec 64 → BitVec 64} {env env' : TunerEnv} (hv : SameView S f env env') :
    ∀ (es : List (BitVec 64)) (t : Tuner), (∀ o ∈ t.optima, S o) → (∀ e ∈ es, S e) →
    (movedTuner f t).tell env' (es.map f) = (movedTuner f (t.tell env es).1, (t.tell env es).2) ∧ ∀ o ∈ (t.tell env es).1.optima, S o
  | [], t, ho, _ => ⟨rfl, ho⟩
  | e :: es, t, ho, hs => by
    have he := hs e (by simp)
    rw [List.map_cons, Tuner.tell, Tuner.tell]
    by_cases h0 : e = 0#64
    · rw [if_pos h0, if_pos ((hv.null e he).mpr h0)]
      exact ⟨rfl, ho⟩
    · rw [if_neg h0, if_neg (fun h => h0 ((hv.null e he).mp h)), hv.result e he]
      split
      · exact tell_moved hv es t ho fun x hx => hs x (by simp [hx])
      · have hk := keepLoop_moved hv he t.optima false ho
        have hl : (movedTuner f t).learn env' (f e) = t.learn env e >>= fun t' => .ok (movedTuner f t') := by
          unfold Tuner.learn movedTuner
          dsimp only
          rw [hk]
          cases hkl : keepLoop env.compare e false t.optima with
          | ok r =>
            simp only [Out.bind_ok, List.map_append, List.map_cons, List.map_nil]
            cases r.1 <;> simp
          | err x => rfl
          | ub => rfl
        rw [hl]
        cases hle : t.learn env e with
        | ok t' =>
          refine tell_moved hv es t' ?_ fun x hx => hs x (by simp [hx])
          obtain ⟨r, h1, h2⟩ := bind_eq_ok hle
          obtain rfl := Out.ok.inj h2
          intro x hx
          have key : x ∈ r.2 ∨ x = e := by
            dsimp only at hx
            split at hx
            · exact .inl hx
            · simpa using hx
          rcases key with hx | rfl
          · exact ho x (keepLoop_sub _ _ _ _ _ h1 x hx)
          · exact he
        | err y => exact ⟨rfl, ho⟩
        | ub => exact ⟨rfl, ho⟩

/-! ### The whole tuner -/

/-- Bytes of the features space of a tuner. -/
def featuresOfBytes (pdata : BitVec 64 → Bytes) : Option FeatSpaceObj → Bytes
  | none => []
  | some f => featSpaceBytes pdata f

theorem findOptima_unknown {m : Handles} {x : BitVec 64} : ∀ (os : List (BitVec 64)), x ∈ os → m.get x = none →
    findOptima m os = .err .invalidHandle
  | o :: os, hx, hm => by
    unfold findOptima findOptimum
    rcases List.mem_cons.mp hx with rfl | hx
    · rw [hm]
      rfl
    · cases m.get o with
      | none => rfl
      | some y =>
        dsimp only
        rw [Out.bind_ok, findOptima_unknown os hx hm]
        rfl

/-- Bytes of a tuner after its type. -/
def runBytes (ops : FloatOps) (little : Bool) (hp : Heap) (pdata : BitVec 64 → Bytes) (o : TunerObj) : Bytes :=
  strBytes o.name ++ (spaceBytes ops little hp o.space ++
    (objSpaceBytes pdata o.objectives ++ (featuresOfBytes pdata o.features ++ (lebBytes (BitVec.ofNat 64 o.tuner.history.length) ++
    (lebBytes (BitVec.ofNat 64 o.tuner.optima.length) ++ ((o.tuner.history.flatMap fun e => evalBytes (o.evals e)) ++
      o.tuner.optima.flatMap lebBytes))))))

/-- Bytes of a tuner. -/
def tunerBytes (ops : FloatOps) (little : Bool) (hp : Heap) (pdata : BitVec 64 → Bytes) (o : TunerObj) : Bytes :=
  objBytes (tunerTypeOf o.features.isSome) o.handle ++ ((lebBytes randomTuner ++ runBytes ops little hp pdata o) ++ blobBytes o.data)

section
variable {σ : Type} {H : Host σ} {P : Places} {mem mem' : BitVec 64 → Param} {mk : Nat → Param → Out Dist} {hp : Heap}
  {pdata : BitVec 64 → Bytes} {o : TunerObj}

theorem writes_run (h : StoredRun H P mem mem' mk hp pdata o) :
    WritesBytes (serRun H.M.ops H.little hp pdata o) (runBytes H.M.ops H.little hp pdata o) := by
  have hr := readable_of h.space.one h.space.reach h.space.storable
  refine writes_seq (writes_string _) (writes_seq (writes_space hr)
    (writes_seq (writes_objSpace h.objectives) (writes_seq ?_ (writes_seq (writes_size _) (writes_seq (writes_size _) (writes_seq
    (writes_all _ fun e he => writes_eval H.little (h.evals e he).2.1) (writes_all _ fun e _ => writes_handle e)))))))
  cases hf : o.features with
  | none => exact writes_nop
  | some f => exact writes_featSpace (h.features f hf).1

theorem writes_tuner (h : StoredTuner H P mem mem' mk hp pdata o) :
    WritesBytes (serTuner H.M.ops H.little hp pdata o) (tunerBytes H.M.ops H.little hp pdata o) :=
  writes_seq (writes_obj _ _) (writes_seq (writes_seq (writes_enum _) (writes_run h.toStoredRun)) (writes_userData _))

theorem length_run (h : StoredRun H P mem mem' mk hp pdata o) :
    szRun H.M.ops H.little hp pdata o = .ok (runBytes H.M.ops H.little hp pdata o).length := by
  have hr := readable_of h.space.one h.space.reach h.space.storable
  have hf : szFeaturesOf pdata o.features = .ok (featuresOfBytes pdata o.features).length := by
    cases hf : o.features with
    | none => rfl
    | some f => exact length_featSpace (h.features f hf).1
  have ho : (o.tuner.optima.flatMap lebBytes).length = (o.tuner.optima.map szHandle).sum := by
    rw [List.length_flatMap]
    congr 1
    exact List.map_congr_left fun x _ => length_leb x
  rw [szRun, length_space hr, Out.bind_ok, length_objSpace h.objectives, Out.bind_ok, hf, Out.bind_ok,
    szAll_eq (g := fun e => evalBytes (o.evals e)) fun e he => length_eval (h.evals e he).2.1, Out.bind_ok, runBytes]
  simp only [List.length_append, length_string, length_size, ho]
  congr 1
  omega

theorem length_tuner (h : StoredTuner H P mem mem' mk hp pdata o) :
    szTuner H.M.ops H.little hp pdata o = .ok (tunerBytes H.M.ops H.little hp pdata o).length := by
  rw [szTuner, length_run h.toStoredRun, Out.bind_ok, tunerBytes]
  simp only [List.length_append, length_obj, length_userData, show (lebBytes randomTuner).length = szEnum randomTuner from length_leb _]
  congr 1
  omega

theorem twin_params {paramAt : Nat → BitVec 64} {ds : List Dist} {s s' : Space} (h : Twin paramAt ds s s') :
    s'.ctx.params.map (·.2) = s.ctx.params.map (·.2) := by
  refine List.ext_getElem? fun i => ?_
  simp only [Space.ctx, List.getElem?_map]
  cases hi : s.params[i]? with
  | none =>
    have : s'.params[i]? = none := by
      rw [List.getElem?_eq_none_iff] at hi ⊢
      rw [h.length]
      exact hi
    rw [this]
  | some w =>
    obtain ⟨w', h1, -, h2, -⟩ := h.params i w hi
    rw [h1]
    simp [h2]

/-- Outcome of reading the features space of a tuner. -/
theorem readsAs_featuresOf (little : Bool) {pd : BitVec 64 → Bytes} {f : Option FeatSpaceObj}
    (hf : ∀ s, f = some s → StoredFeatSpace H.M.ops H.jen little mem pd s ∧ Lays P.featParamAt mem' s.ctx) (m : Handles)
    (hn : ∀ s, f = some s → m.get s.handle = none) :
    ∃ m' fs, ReadsBack (deFeaturesOf H.M.ops H.jen H.little f.isSome P m) (featuresOfBytes pd f) (m', fs) ∧
      (f = none → fs = none ∧ m' = m) ∧
      ∀ s, f = some s → ∃ s', fs = some s' ∧ SameParams P.featParamAt s.ctx s'.1.ctx ∧ Grown mem' s'.1.ctx ∧
        s'.1.name = s.name ∧ s'.1.data = s.data ∧ s'.1.handle = P.features ∧ (s'.2 = s.ctx.params.map fun x => pd x.1) ∧
        m.add s.handle ⟨featuresSpaceType, P.features, s'.1.ctx⟩ = .ok m' := by
  cases f with
  | none => exact ⟨m, none, reads_pure _, fun _ => ⟨rfl, rfl⟩, fun s hs => nomatch hs⟩
  | some f =>
    obtain ⟨h1, h2⟩ := hf f rfl
    obtain ⟨c', h3, h4, h5⟩ := readsAs_featSpace H.little h1 h2 m P.features
    have ha := Handles.add_ok (hn f rfl) ⟨featuresSpaceType, P.features, c'⟩
    rw [ha, Out.bind_ok] at h5
    refine ⟨(f.handle, ⟨featuresSpaceType, P.features, c'⟩) :: m, some (⟨P.features, f.name, c', f.data⟩, f.ctx.params.map fun x => pd x.1), ?_, (fun h => nomatch h), fun s hs => ?_⟩
    · show ReadsBack (deFeatSpace H.M.ops H.jen H.little P.featParamAt m P.features >>= fun f => pure (f.1, some f.2)) _ _
      exact reads_bind_pure h5 rfl
    · obtain rfl := Option.some.inj hs
      exact ⟨_, rfl, h4, h3, rfl, rfl, rfl, rfl, ha⟩

theorem readsAs_run (h : StoredRun H P mem mem' mk hp pdata o) {rs : ReadSpace} (hrs : rebuilt H mem' H.little hp o.space = .ok rs) :
    ∃ (s' : ObjSpace) (fs : Option (FeatSpaceObj × List Bytes)) (m : Handles),
      ObjTwin P.objParamAt o.objectives.space s' ∧ ObjReachable mem' s' ∧ (o.features = none → fs = none) ∧
      (∀ s, o.features = some s → ∃ x, fs = some x ∧ SameParams P.featParamAt s.ctx x.1.ctx ∧ Grown mem' x.1.ctx ∧
        x.1.name = s.name ∧ x.1.data = s.data ∧ x.1.handle = P.features ∧ x.2 = s.ctx.params.map fun x => pdata x.1) ∧
      KnowsSpaces P o m ∧ (∀ k, m.get k = none ↔ k ∉ spacesOf o) ∧
      ReadsAs (deRun H o.features.isSome P) (runBytes H.M.ops H.little hp pdata o) (do
        let es ← historyOutcome H.jen H.little P 0 m (o.tuner.history.map o.evals)
        let optima ← findOptima es.1 o.tuner.optima
        .ok ⟨o.name, rs, (⟨P.objectives, o.objectives.name, s', o.objectives.data⟩,
          o.objectives.space.ctx.params.map fun x => pdata x.1), fs, es.2, optima⟩) := by
  obtain ⟨bs, w1, -, w3⟩ := Props.C87_reads_as_rebuilt h.space h.spaceAddrs
  obtain ⟨t1, -, -, -, -, -, -, t2, -, -⟩ := (Props.C87_rebuilt_exactly h.space).2 rs hrs
  have hr := readable_of h.space.one h.space.reach h.space.storable
  obtain rfl := writes_unique w1 (writes_space hr)
  rw [hrs] at w3
  have hdist := h.spaces
  unfold spacesOf at hdist
  have hne : o.objectives.handle ≠ o.space.handle := by
    rw [List.nodup_cons] at hdist
    intro he
    exact hdist.1 (by simp [he])
  -- the objective space
  obtain ⟨s', r1, r2, r3⟩ := readsAs_objSpace H.little h.objectives h.objPlaces [(o.space.handle, ⟨configurationSpaceType, P.space, rs.space.ctx⟩)]
    P.objectives
  have hg1 : ∀ k, Handles.get [(o.space.handle, ⟨configurationSpaceType, P.space, rs.space.ctx⟩)] k =
      if k = o.space.handle then some ⟨configurationSpaceType, P.space, rs.space.ctx⟩ else none := by
    intro k
    unfold Handles.get
    by_cases hk : o.space.handle = k
    · simp [hk]
    · rw [if_neg (Ne.symm hk)]
      simp [hk]
  have ha1 := Handles.add_ok (m := [(o.space.handle, ⟨configurationSpaceType, P.space, rs.space.ctx⟩)]) (by rw [hg1, if_neg hne])
    ⟨objectiveSpaceType, P.objectives, s'.ctx⟩
  rw [claimAll_ok (by simp) h.objAddrs, Out.bind_ok, ha1, Out.bind_ok] at r3
  have hg2 := Handles.get_add ha1
  -- the features space
  obtain ⟨m, fs, f1, f2, f3⟩ := readsAs_featuresOf (P := P) (H := H) H.little h.features _ (fun s hs => by
    rw [hs] at hdist
    rw [hg2, if_neg, hg1, if_neg]
    · intro he
      exact (List.nodup_cons.mp hdist).1 (by simp [he])
    · intro he
      exact (List.nodup_cons.mp (List.nodup_cons.mp hdist).2).1 (by simp [he]))
  have hlen : rs.space.ctx.params.length < 2 ^ 32 := by
    have := t2.length
    have hs := h.space.small
    simp only [Space.ctx, List.length_map]
    omega
  have hk1 : ∀ (m₂ : Handles), (∀ k, k = o.space.handle ∨ k = o.objectives.handle → m₂.get k = Handles.get
      ((o.objectives.handle, ⟨objectiveSpaceType, P.objectives, s'.ctx⟩) :: [(o.space.handle, ⟨configurationSpaceType, P.space, rs.space.ctx⟩)]) k) →
      (∃ c, m₂.get o.space.handle = some ⟨configurationSpaceType, P.space, c⟩ ∧ c.params.length < 2 ^ 32 ∧
        c.params.map (·.2) = o.space.space.ctx.params.map (·.2)) ∧
      (∃ c, m₂.get o.objectives.handle = some ⟨objectiveSpaceType, P.objectives, c⟩ ∧ c.params.length < 2 ^ 32 ∧
        c.params.map (·.2) = o.objectives.space.ctx.params.map (·.2)) := by
    intro m₂ hm
    refine ⟨⟨rs.space.ctx, ?_, hlen, twin_params t2⟩, ⟨s'.ctx, ?_, ?_, SameParams_params r2.params⟩⟩
    · rw [hm _ (.inl rfl), hg2, if_neg (Ne.symm hne), hg1, if_pos rfl]
    · rw [hm _ (.inr rfl), hg2, if_pos rfl]
    · rw [r2.params.length]
      exact h.objectives.small
  have hknow : KnowsSpaces P o m ∧ ∀ k, m.get k = none ↔ k ∉ spacesOf o := by
    cases hof : o.features with
    | none =>
      obtain ⟨-, rfl⟩ := f2 hof
      obtain ⟨k1, k2⟩ := hk1 _ fun _ _ => rfl
      refine ⟨⟨k1, k2, fun s hs => by rw [hof] at hs; cases hs⟩, fun k => ?_⟩
      rw [hg2, hg1, spacesOf, hof]
      by_cases h1 : k = o.objectives.handle
      · simp [h1]
      · by_cases h2 : k = o.space.handle
        · rw [if_neg h1]; simp [h2]
        · simp [h1, h2]
    | some s =>
      obtain ⟨x, -, x2, -, -, -, -, -, x3⟩ := f3 s hof
      have hg3 := Handles.get_add x3
      rw [hof] at hdist
      have hs1 : o.space.handle ≠ s.handle := fun he => (List.nodup_cons.mp hdist).1 (by simp [he])
      have hs2 : o.objectives.handle ≠ s.handle := fun he => (List.nodup_cons.mp (List.nodup_cons.mp hdist).2).1 (by simp [he])
      obtain ⟨k1, k2⟩ := hk1 m fun k hk => by
        rw [hg3, if_neg]
        rintro rfl
        rcases hk with hk | hk
        · exact hs1 hk.symm
        · exact hs2 hk.symm
      refine ⟨⟨k1, k2, fun s2 hs => ?_⟩, fun k => ?_⟩
      · rw [hof] at hs
        obtain rfl := Option.some.inj hs
        refine ⟨x.1.ctx, by rw [hg3, if_pos rfl], ?_, SameParams_params x2⟩
        rw [x2.length]
        exact (h.features s hof).1.size
      · rw [hg3, hg2, hg1, spacesOf, hof]
        by_cases h3 : k = s.handle
        · simp [h3]
        · by_cases h1 : k = o.objectives.handle
          · rw [if_neg h3]; simp [h1]
          · by_cases h2 : k = o.space.handle
            · rw [if_neg h3, if_neg h1]; simp [h2]
            · simp [h1, h2, h3]
  refine ⟨s', fs, m, r2, r1, fun hn => (f2 hn).1, fun s hs => ?_, hknow.1, hknow.2, ?_⟩
  · obtain ⟨x, x1, x2, x3, x4, x5, x6, x7, -⟩ := f3 s hs
    exact ⟨x, x1, x2, x3, x4, x5, x6, x7⟩
  · unfold deRun runBytes
    have hsz := h.size
    refine readsAs_step (decodes_string h.name.1 h.name.2).1 (readsAs_step w3 ?_)
    rw [t1]
    refine readsAs_step r3 (readsAs_step f1 (readsAs_step (decodes_size (by omega)).1 (readsAs_step (decodes_size (by omega)).1 ?_)))
    rw [if_neg (by omega)]
    have hh := readsAs_history H.jen H.little o.features.isSome P (o.tuner.history.map o.evals) 0 m (by
      intro e he
      obtain ⟨x, hx, rfl⟩ := List.mem_map.mp he
      exact (h.evals x hx).2)
    rw [List.length_map, List.flatMap_map] at hh
    refine readsAs_bind hh fun es _ => ?_
    have ht : ReadsBack (deHandle.times o.tuner.optima.length) (o.tuner.optima.flatMap lebBytes) o.tuner.optima :=
      reads_times _ fun x _ => (decodes_handle x).1
    rw [← List.append_nil (o.tuner.optima.flatMap lebBytes)]
    exact readsAs_step ht (readsAs_lift_bind fun os _ => readsAs_ok (reads_pure _))

theorem readsAs_run_refused (h : StoredRun H P mem mem' mk hp pdata o) {e : Err} (hrs : rebuilt H mem' H.little hp o.space = .err e) :
    ReadsAs (deRun H o.features.isSome P) (runBytes H.M.ops H.little hp pdata o) (.err e) := by
  obtain ⟨bs, w1, -, w3⟩ := Props.C87_reads_as_rebuilt h.space h.spaceAddrs
  have hr := readable_of h.space.one h.space.reach h.space.storable
  obtain rfl := writes_unique w1 (writes_space hr)
  rw [hrs] at w3
  unfold deRun runBytes
  exact readsAs_step (decodes_string h.name.1 h.name.2).1
    (readsAs_bind (g := fun _ : ReadSpace => (.err e : Out ReadRun)) w3 (fun x hx => nomatch hx))

theorem readsAs_tuner (h : StoredTuner H P mem mem' mk hp pdata o) {rs : ReadSpace} (hrs : rebuilt H mem' H.little hp o.space = .ok rs) :
    ∃ (s' : ObjSpace) (fs : Option (FeatSpaceObj × List Bytes)) (m : Handles),
      ObjTwin P.objParamAt o.objectives.space s' ∧ ObjReachable mem' s' ∧ (o.features = none → fs = none) ∧
      (∀ s, o.features = some s → ∃ x, fs = some x ∧ SameParams P.featParamAt s.ctx x.1.ctx ∧ Grown mem' x.1.ctx ∧
        x.1.name = s.name ∧ x.1.data = s.data ∧ x.1.handle = P.features ∧ x.2 = s.ctx.params.map fun x => pdata x.1) ∧
      KnowsSpaces P o m ∧ (∀ k, m.get k = none ↔ k ∉ spacesOf o) ∧
      ReadsAs (deTuner H o.features.isSome P) (tunerBytes H.M.ops H.little hp pdata o) (do
        let es ← historyOutcome H.jen H.little P 0 m (o.tuner.history.map o.evals)
        let optima ← findOptima es.1 o.tuner.optima
        .ok ⟨o.handle, o.name, rs, (⟨P.objectives, o.objectives.name, s', o.objectives.data⟩,
          o.objectives.space.ctx.params.map fun x => pdata x.1), fs, es.2, ⟨es.2.map (·.handle), optima⟩, o.data⟩) := by
  obtain ⟨s', fs, m, h1, h2, h3, h4, h5, h6, h7⟩ := readsAs_run h.toStoredRun hrs
  refine ⟨s', fs, m, h1, h2, h3, h4, h5, h6, ?_⟩
  unfold deTuner tunerBytes
  refine readsAs_step (decodes_obj _ _).1 (readsAs_pass (by simp) ?_)
  rw [List.append_assoc]
  refine readsAs_step (decodes_enum _).1 (readsAs_pass (by simp) ?_)
  have := readsAs_bind h7 (b₂ := blobBytes o.data) fun r _ => readsAs_ok (reads_bind_pure
    (f := fun data => (pure ⟨o.handle, r.name, r.space, r.objectives, r.features, r.history, ⟨r.history.map (·.handle), r.optima⟩,
      data⟩ : Rd ReadTuner)) (reads_userData h.data) rfl)
  simp only [bind_bind, Out.bind_ok] at this
  exact this

/-- What is written of a tuner comes back. -/
theorem run_back (h : StoredRun H P mem mem' mk hp pdata o) {rs : ReadSpace}
    (hrs : rebuilt H mem' H.little hp o.space = .ok rs) (hb : ∀ x ∈ o.tuner.history, Belongs o (o.evals x))
    (hn : (spacesOf o ++ o.tuner.history).Nodup)
    (hopt : ∀ x ∈ o.tuner.optima, x ∈ o.tuner.history) :
    ∃ r, ReadsBack (deRun H o.features.isSome P) (runBytes H.M.ops H.little hp pdata o) r ∧
      SameTuner P mem' pdata o rs ⟨o.handle, r.name, r.space, r.objectives, r.features, r.history, ⟨r.history.map (·.handle), r.optima⟩, o.data⟩ := by
  obtain ⟨s', fs, m, h1, h2, h3, h4, h5, h6, h7⟩ := readsAs_run h hrs
  have hmap : (o.tuner.history.map o.evals).map (·.handle) = o.tuner.history := by
    rw [List.map_map]
    conv => rhs; rw [← List.map_id o.tuner.history]
    exact List.map_congr_left fun x hx => (h.evals x hx).1
  rw [List.nodup_append] at hn
  obtain ⟨m', es', e1, e2, e3, e4, e5, e6⟩ := history_fresh H.jen H.little (P := P) (o := o) (o.tuner.history.map o.evals) 0 m h5
    (fun e he => by
      obtain ⟨x, hx, rfl⟩ := List.mem_map.mp he
      exact ⟨(h.evals x hx).2.1, hb x hx⟩)
    (fun e he => by
      obtain ⟨x, hx, rfl⟩ := List.mem_map.mp he
      rw [h6, (h.evals x hx).1]
      intro hs
      exact hn.2.2 x hs x hx rfl)
    (by rw [hmap]; exact hn.2.1)
  rw [hmap] at e3
  rw [e1, Out.bind_ok, findOptima_known e3 o.tuner.optima hopt, Out.bind_ok] at h7
  rw [List.length_map] at e5
  have hev : ∀ (i : Nat) x, o.tuner.history[i]? = some x → ∃ e, es'[i]? = some e ∧ SameEval P (P.evalAt i) (o.evals x) e := by
    intro i x hi
    obtain ⟨e, k1, k2⟩ := e6 i (o.evals x) (by rw [List.getElem?_map, hi]; rfl)
    rw [Nat.zero_add] at k2
    exact ⟨e, k1, k2⟩
  refine ⟨_, fun tail => h7 tail, ⟨rfl, rfl, rfl, ⟨h1, h2, rfl, rfl, rfl, rfl⟩, h3, h4, e5, hev, ?_, rfl⟩⟩
  refine List.ext_getElem? fun i => ?_
  show (es'.map (·.handle))[i]? = (o.tuner.history.map (followEval P o.tuner))[i]?
  rw [List.getElem?_map, List.getElem?_map]
  cases hi : o.tuner.history[i]? with
  | none =>
    have : es'[i]? = none := by
      rw [List.getElem?_eq_none_iff] at hi ⊢
      omega
    rw [this]
    rfl
  | some x =>
    obtain ⟨e, k1, k2⟩ := hev i x hi
    rw [k1]
    show some e.handle = some (followEval P o.tuner x)
    have hil := (List.getElem?_eq_some_iff.mp hi).1
    have hx : o.tuner.history.idxOf x = i := by
      have hm := List.mem_of_getElem? hi
      have hl := List.idxOf_lt_length_of_mem hm
      have := List.getElem_idxOf hl
      have h1 : o.tuner.history[o.tuner.history.idxOf x]? = some x := by rw [List.getElem?_eq_getElem hl, this]
      exact (List.getElem?_inj hl hn.2.1).mp (h1.trans hi.symm)
    rw [k2.handle, followEval, hx]

theorem run_clash (h : StoredRun H P mem mem' mk hp pdata o) {rs : ReadSpace}
    (hrs : rebuilt H mem' H.little hp o.space = .ok rs) (hb : ∀ x ∈ o.tuner.history, Belongs o (o.evals x))
    (hn : ¬ (spacesOf o ++ o.tuner.history).Nodup) :
    ReadsAs (deRun H o.features.isSome P) (runBytes H.M.ops H.little hp pdata o) (.err .duplicateHandle) := by
  obtain ⟨s', fs, m, h1, h2, h3, h4, h5, h6, h7⟩ := readsAs_run h hrs
  have hmap : (o.tuner.history.map o.evals).map (·.handle) = o.tuner.history := by
    rw [List.map_map]
    conv => rhs; rw [← List.map_id o.tuner.history]
    exact List.map_congr_left fun x hx => (h.evals x hx).1
  have hc := history_clash H.jen H.little (P := P) (o := o) (o.tuner.history.map o.evals) 0 m h5
    (fun e he => by
      obtain ⟨x, hx, rfl⟩ := List.mem_map.mp he
      exact ⟨(h.evals x hx).2.1, hb x hx⟩)
    (by
      rintro ⟨k1, k2⟩
      rw [hmap] at k2
      refine hn (List.nodup_append.mpr ⟨h.spaces, k2, fun a ha b hb' hab => ?_⟩)
      subst hab
      have := k1 (o.evals a) (List.mem_map.mpr ⟨a, hb', rfl⟩)
      rw [(h.evals a hb').1, h6] at this
      exact this ha)
  rwa [hc, Out.bind_err] at h7

theorem run_foreign (h : StoredRun H P mem mem' mk hp pdata o) {rs : ReadSpace}
    (hrs : rebuilt H mem' H.little hp o.space = .ok rs) {pre post : List (BitVec 64)} {x : BitVec 64}
    (he : o.tuner.history = pre ++ x :: post) (hb : ∀ y ∈ pre, Belongs o (o.evals y)) (hn : (spacesOf o ++ pre).Nodup)
    (hf : (o.evals x).configuration.binding.context ∉ spacesOf o ++ pre) :
    ReadsAs (deRun H o.features.isSome P) (runBytes H.M.ops H.little hp pdata o) (.err .invalidHandle) := by
  obtain ⟨s', fs, m, h1, h2, h3, h4, h5, h6, h7⟩ := readsAs_run h hrs
  have hin : ∀ y ∈ pre, y ∈ o.tuner.history := fun y hy => by rw [he]; simp [hy]
  have hmap : (pre.map o.evals).map (·.handle) = pre := by
    rw [List.map_map]
    conv => rhs; rw [← List.map_id pre]
    exact List.map_congr_left fun y hy => (h.evals y (hin y hy)).1
  rw [List.nodup_append] at hn
  obtain ⟨m', es', e1, e2, e3, e4, e5, e6⟩ := history_fresh H.jen H.little (P := P) (o := o) (pre.map o.evals) 0 m h5
    (fun e he => by
      obtain ⟨y, hy, rfl⟩ := List.mem_map.mp he
      exact ⟨(h.evals y (hin y hy)).2.1, hb y hy⟩)
    (fun e he => by
      obtain ⟨y, hy, rfl⟩ := List.mem_map.mp he
      rw [h6, (h.evals y (hin y hy)).1]
      intro hs
      exact hn.2.2 y hs y hy rfl)
    (by rw [hmap]; exact hn.2.1)
  rw [hmap] at e4
  rw [List.mem_append, not_or] at hf
  have hnone : m'.get (o.evals x).configuration.binding.context = none := by
    rw [e4 _ hf.2, h6]
    exact hf.1
  have hx : ∀ i, evalOutcome H.jen H.little true m' (P.evalAt i) (o.evals x) = .err .invalidHandle := by
    intro i
    unfold evalOutcome attach Handles.space
    rw [hnone]
    rfl
  have hc : historyOutcome H.jen H.little P 0 m (o.tuner.history.map o.evals) = .err .invalidHandle := by
    rw [he, List.map_append, List.map_cons, history_append, e1, Out.bind_ok, historyOutcome, hx, Out.bind_err, Out.bind_err]
  rwa [hc, Out.bind_err] at h7

theorem run_grown (h : StoredRun H P mem mem' mk hp pdata o) {rs : ReadSpace}
    (hrs : rebuilt H mem' H.little hp o.space = .ok rs) {pre post : List (BitVec 64)} {x : BitVec 64}
    (he : o.tuner.history = pre ++ x :: post) (hb : ∀ y ∈ pre, Belongs o (o.evals y)) (hn : (spacesOf o ++ pre).Nodup)
    (hf : (o.evals x).configuration.binding.context = o.space.handle) (hv : (o.evals x).configuration.binding.values ≠ [])
    (hl : (o.evals x).configuration.binding.values.length ≠ o.space.space.params.length) :
    ReadsAs (deRun H o.features.isSome P) (runBytes H.M.ops H.little hp pdata o) (.err .invalidValue) := by
  obtain ⟨s', fs, m, h1, h2, h3, h4, h5, h6, h7⟩ := readsAs_run h hrs
  have hin : ∀ y ∈ pre, y ∈ o.tuner.history := fun y hy => by rw [he]; simp [hy]
  have hmap : (pre.map o.evals).map (·.handle) = pre := by
    rw [List.map_map]
    conv => rhs; rw [← List.map_id pre]
    exact List.map_congr_left fun y hy => (h.evals y (hin y hy)).1
  rw [List.nodup_append] at hn
  obtain ⟨m', es', e1, e2, e3, e4, e5, e6⟩ := history_fresh H.jen H.little (P := P) (o := o) (pre.map o.evals) 0 m h5
    (fun e he => by
      obtain ⟨y, hy, rfl⟩ := List.mem_map.mp he
      exact ⟨(h.evals y (hin y hy)).2.1, hb y hy⟩)
    (fun e he => by
      obtain ⟨y, hy, rfl⟩ := List.mem_map.mp he
      rw [h6, (h.evals y (hin y hy)).1]
      intro hs
      exact hn.2.2 y hs y hy rfl)
    (by rw [hmap]; exact hn.2.1)
  obtain ⟨c, c1, c2, c3⟩ := e2.space
  have hst := (h.evals x (by rw [he]; simp)).2.1
  have hlen : c.params.length = o.space.space.params.length := by simpa [Space.ctx] using congrArg List.length c3
  have hx : ∀ i, evalOutcome H.jen H.little true m' (P.evalAt i) (o.evals x) = .err .invalidValue := by
    intro i
    have ha : attach H.jen H.little m' configurationSpaceType (o.evals x).configuration.binding = .err .invalidValue := by
      unfold attach Handles.space
      rw [hf, c1]
      dsimp only
      rw [if_pos rfl, Out.bind_ok]
      have hb := rebinds_attach H.jen H.little hst.configuration.binding P.space c2
      revert hb
      generalize createBinding H.jen H.little P.space c (givenValues (readValues (o.evals x).configuration.binding)) = r
      intro hb
      cases hb with
      | same _ k => exact absurd (k.trans hlen) hl
      | blank k => exact absurd k hv
      | count => rfl
      | illegal _ k => exact absurd (k.trans hlen) hl
    unfold evalOutcome
    rw [ha, Out.bind_err]
  have hc : historyOutcome H.jen H.little P 0 m (o.tuner.history.map o.evals) = .err .invalidValue := by
    rw [he, List.map_append, List.map_cons, history_append, e1, Out.bind_ok, historyOutcome, hx, Out.bind_err, Out.bind_err]
  rwa [hc, Out.bind_err] at h7

/-- When reading a tuner fails after its type, reading the tuner fails. -/
theorem tuner_err {e : Err} (h : ReadsAs (deRun H o.features.isSome P) (runBytes H.M.ops H.little hp pdata o) (.err e)) :
    ReadsAs (deTuner H o.features.isSome P) (tunerBytes H.M.ops H.little hp pdata o) (.err e) := by
  unfold deTuner tunerBytes
  refine readsAs_step (decodes_obj _ _).1 (readsAs_pass (by simp) ?_)
  rw [List.append_assoc]
  refine readsAs_step (decodes_enum _).1 (readsAs_pass (by simp) ?_)
  exact readsAs_bind (g := fun _ : ReadRun => (.err e : Out ReadTuner)) h (fun x hx => nomatch hx)

/-- An optimum that is neither an evaluation of the history nor a space makes the message unreadable. -/
theorem run_optimum (h : StoredRun H P mem mem' mk hp pdata o) {rs : ReadSpace}
    (hrs : rebuilt H mem' H.little hp o.space = .ok rs) (hb : ∀ x ∈ o.tuner.history, Belongs o (o.evals x))
    (hn : (spacesOf o ++ o.tuner.history).Nodup) {x : BitVec 64} (hx : x ∈ o.tuner.optima) (hx' : x ∉ spacesOf o ++ o.tuner.history) :
    ReadsAs (deRun H o.features.isSome P) (runBytes H.M.ops H.little hp pdata o) (.err .invalidHandle) := by
  obtain ⟨s', fs, m, h1, h2, h3, h4, h5, h6, h7⟩ := readsAs_run h hrs
  have hmap : (o.tuner.history.map o.evals).map (·.handle) = o.tuner.history := by
    rw [List.map_map]
    conv => rhs; rw [← List.map_id o.tuner.history]
    exact List.map_congr_left fun x hx => (h.evals x hx).1
  rw [List.nodup_append] at hn
  obtain ⟨m', es', e1, e2, e3, e4, e5, e6⟩ := history_fresh H.jen H.little (P := P) (o := o) (o.tuner.history.map o.evals) 0 m h5
    (fun e he => by
      obtain ⟨x, hx, rfl⟩ := List.mem_map.mp he
      exact ⟨(h.evals x hx).2.1, hb x hx⟩)
    (fun e he => by
      obtain ⟨x, hx, rfl⟩ := List.mem_map.mp he
      rw [h6, (h.evals x hx).1]
      intro hs
      exact hn.2.2 x hs x hx rfl)
    (by rw [hmap]; exact hn.2.1)
  rw [hmap] at e4
  rw [List.mem_append, not_or] at hx'
  rwa [e1, Out.bind_ok, findOptima_unknown o.tuner.optima hx (by rw [e4 _ hx'.2, h6]; exact hx'.1), Out.bind_err] at h7

end

end CCS
