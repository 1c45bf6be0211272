import Verif.Lemmas.SpaceSample
import Verif.Props.Expr

/-!
# Clauses, distributions and orders over histories
-/

namespace CCS

open Spec

section
variable {ops : FloatOps} {jen : Bytes → BitVec 32} {little : Bool} {mem : BitVec 64 → Param}
  {mk : Nat → Param → Out Dist}

/-! ## Clauses keep a witness -/

/-- Values on which the clause is not true, made of default values and of parameters switched off by their
condition. -/
def Witnessed (ops : FloatOps) (jen : Bytes → BitVec 32) (little : Bool) (s : Space) (c : Expr) : Prop :=
  (∀ x, Occurs x c → x ∈ s.handles) ∧ ∃ d0 : List Value, d0.length = s.params.length ∧
    (∀ (i : Nat) w, s.params[i]? = some w → d0[i]? = some w.param.default ∨
      d0[i]? = some .inactive ∧ ∃ e r, w.condition = some e ∧ evalOn ops jen little s d0 e = .ok r ∧ r ≠ .bool 1#64) ∧
    ∃ r, evalOn ops jen little s d0 c = .ok r ∧ r ≠ .bool 1#64

/-- Same addresses, same defaults, and conditions kept. -/
theorem Witnessed.keep {s s' : Space} (hh : s'.handles = s.handles) (hl : s'.params.length = s.params.length)
    (hw : ∀ (i : Nat) w', s'.params[i]? = some w' → ∃ w, s.params[i]? = some w ∧
      w'.param = w.param ∧ (w.condition = none ∨ w'.condition = w.condition)) {c : Expr}
    (h : Witnessed ops jen little s c) : Witnessed ops jen little s' c := by
  obtain ⟨h1, d0, h2, h3, r, hr, hne⟩ := h
  have hev : ∀ vals e, evalOn ops jen little s' vals e = evalOn ops jen little s vals e := by
    intro vals e; unfold evalOn; rw [hh]
  refine ⟨by rw [hh]; exact h1, d0, by rw [hl]; exact h2, ?_, r, by rw [hev]; exact hr, hne⟩
  intro i w' hw'
  obtain ⟨w, hwi, hp, hc⟩ := hw i w' hw'
  rcases h3 i w hwi with hd | ⟨hd, e, r, he, hr, hne⟩
  · exact .inl (by rw [hp]; exact hd)
  · rcases hc with hc | hc
    · rw [hc] at he; cases he
    · exact .inr ⟨hd, e, r, by rw [hc]; exact he, by rw [hev]; exact hr, hne⟩

theorem SameSpace.witnessed {s s' : Space} (h : SameSpace s s') {c : Expr} (hw : Witnessed ops jen little s c) :
    Witnessed ops jen little s' c := by
  refine hw.keep h.handles h.length fun i w' hw' => ?_
  obtain ⟨w, hwi, hcore⟩ := core_some h.params hw'
  obtain ⟨-, h2, -, -, h5⟩ := core_fields hcore
  exact ⟨w, hwi, h2, .inr h5⟩

theorem checkContext_known {e : Expr} (hb : Built e) {hs : List (BitVec 64)}
    (h : checkContext e (some hs) = .ok ()) : ∀ x, Occurs x e → x ∈ hs := by
  apply Classical.byContradiction
  intro hno
  rw [(Props.C40_check_context hb hs).2 hno] at h
  cases h

theorem known_handles {s : Space} {e : Expr} (h : Known (Spec.conditions s) e) :
    ∀ x, Occurs x e → x ∈ s.handles := by
  intro x hx
  obtain ⟨j, c, hj⟩ := h x hx
  obtain ⟨w, hw, rfl, -⟩ := conditions_some hj
  exact List.mem_of_getElem? (handles_get hw)

theorem push_handles (s : Space) (h : BitVec 64) (p : Param) (d : Dist) :
    (s.pushParameter h p d).handles = s.handles ++ [h] := by
  simp [Space.pushParameter, Space.handles]

theorem push_witnessed {s : Space} (hk : CondKnown s) {h : BitVec 64} {p : Param} {d : Dist} {c : Expr}
    (hw : Witnessed ops jen little s c) : Witnessed ops jen little (s.pushParameter h p d) c := by
  obtain ⟨h1, d0, h2, h3, r, hr, hne⟩ := hw
  have hlen : d0.length = s.handles.length := by simp [Space.handles, h2]
  refine ⟨fun x hx => by rw [push_handles]; simp [h1 x hx], d0 ++ [p.default], by simp [Space.pushParameter, h2], ?_,
    r, by rw [evalOn_append (push_handles s h p d) hlen h1]; exact hr, hne⟩
  intro i w hwi
  simp only [Space.pushParameter] at hwi
  by_cases hi : i < s.params.length
  · rw [List.getElem?_append_left hi] at hwi
    rw [List.getElem?_append_left (by omega)]
    rcases h3 i w hwi with hd | ⟨hd, e, r, he, hr, hne⟩
    · exact .inl hd
    · refine .inr ⟨hd, e, r, he, ?_, hne⟩
      rw [evalOn_append (push_handles s h p d) hlen (known_handles (hk w (List.mem_of_getElem? hwi) e he))]
      exact hr
  · have hil := (List.getElem?_eq_some_iff.1 hwi).1
    simp at hil
    have hie : i = s.params.length := by omega
    subst hie
    simp at hwi
    subst hwi
    refine .inl ?_
    rw [← h2]
    simp

theorem claused_witnessed {s : Space} (hg : Good mem s) {e : Expr} (hb : Built e)
    (h : clauseTest ops jen little s e = .ok ()) : Witnessed ops jen little s e := by
  obtain ⟨h1, d0, r, hd, hr, hne⟩ := clauseTest_context h
  obtain ⟨a1, a2, a3⟩ := setActives_spec s.sorted _ d0 hg.graph.order.nodup hg.graph.order.noForward (by simp) hd
  refine ⟨checkContext_known hb h1, d0, by rw [a1]; simp, ?_, r, hr, hne⟩
  intro i w hw
  by_cases hi : i ∈ s.sorted
  · obtain ⟨w', hw', hn, hs⟩ := a3 i hi
    rw [hw] at hw'; cases hw'
    cases hc : w.condition with
    | none => exact .inl (by rw [hn hc]; simp [hw])
    | some c =>
      obtain ⟨r', hr', hv⟩ := hs c hc
      by_cases ht : isTrue r' = true
      · rw [if_pos ht] at hv
        exact .inl (by rw [hv]; simp [hw])
      · rw [if_neg ht] at hv
        exact .inr ⟨hv, c, r', rfl, hr', fun h => ht ((isTrue_iff r').2 h)⟩
  · exact .inl (by rw [a2 i hi]; simp [hw])

/-- Every clause keeps a witness. -/
def ClausesWitnessed (ops : FloatOps) (jen : Bytes → BitVec 32) (little : Bool) (s : Space) : Prop :=
  ∀ c ∈ s.clauses, Witnessed ops jen little s c

theorem effect_witnessed {s s' : Space} (hg : Good mem s) {op : SpaceOp} (hw : WellCalled op)
    (he : Effect ops jen little mem s s' op) (h : ClausesWitnessed ops jen little s) :
    ClausesWitnessed ops jen little s' := by
  cases he with
  | same hs => exact fun c hc => hs.witnessed (h c (by rw [← hs.clauses]; exact hc))
  | fresh hs => exact fun c hc => hs.witnessed (h c (by rw [← hs.clauses]; exact hc))
  | refused hs => exact fun c hc => hs.witnessed (h c (by rw [← hs.clauses]; exact hc))
  | pushed hs =>
    subst hs
    exact fun c hc => push_witnessed hg.graph.known (h c hc)
  | redistributed hl hent hcl hgo hso hpar =>
    intro c hc
    have hback : ∀ (i : Nat) w', s'.params[i]? = some w' → ∃ w, s.params[i]? = some w ∧ SameParam w w' := by
      intro i w' hw'
      have hi := (List.getElem?_eq_some_iff.1 hw').1
      have hi2 : i < s.params.length := by omega
      obtain ⟨w'', hw'', hsp⟩ := hpar i _ (List.getElem?_eq_getElem hi2)
      rw [hw'] at hw''
      cases hw''
      exact ⟨_, List.getElem?_eq_getElem hi2, hsp⟩
    refine (h c (by rw [← hcl]; exact hc)).keep ?_ hl ?_
    · apply List.ext_getElem?
      intro i
      simp only [Space.handles, List.getElem?_map]
      cases hw' : s'.params[i]? with
      | none =>
        have : s'.params.length ≤ i := List.getElem?_eq_none_iff.1 hw'
        rw [List.getElem?_eq_none (by omega)]
      | some w' =>
        obtain ⟨w, hwi, hsp⟩ := hback i w' hw'
        rw [hwi]
        simp [hsp.1]
    · intro i w' hw'
      obtain ⟨w, hwi, hsp⟩ := hback i w' hw'
      exact ⟨w, hwi, hsp.2.1, .inr hsp.2.2.1⟩
  | @conditioned i e w hwi hwc hs hok =>
    intro c hc
    refine hs.witnessed ((h c (by rw [hs.clauses] at hc; exact hc)).keep (withCondition_handles _ _ _) (by simp [Space.withCondition]) ?_)
    intro j w' hw'
    rw [withCondition_get, Option.map_eq_some_iff] at hw'
    obtain ⟨v, hv, rfl⟩ := hw'
    refine ⟨v, hv, by split <;> rfl, ?_⟩
    by_cases hij : toUint i = j
    · subst hij
      rw [hwi] at hv
      cases hv
      exact .inl hwc
    · rw [if_neg hij]
      exact .inr rfl
  | @claused e hs ht =>
    subst hs
    intro c hc
    have hold : ∀ c, Witnessed ops jen little s c → Witnessed ops jen little { s with clauses := s.clauses ++ [e] } c :=
      fun c hc => hc.keep rfl rfl fun i w' hw' => ⟨w', hw', rfl, .inr rfl⟩
    rcases List.mem_append.1 hc with hc | hc
    · exact hold c (h c hc)
    · simp at hc
      subst hc
      exact hold _ (claused_witnessed hg hw ht)

theorem run_witnessed (hmk : OneDimensional mk) : ∀ (history : List SpaceOp) (s : Space), Good mem s →
    (∀ op ∈ history, WellCalled op) → ClausesWitnessed ops jen little s →
    ClausesWitnessed ops jen little (Space.run ops jen little mem mk s history)
  | [], s, _, _, h => h
  | op :: rest, s, hg, hw, h =>
    have hs := step_good hmk hg (hw op (by simp))
    run_witnessed hmk rest _ hs.1 (fun x hx => hw x (by simp [hx])) (effect_witnessed hg (hw op (by simp)) hs.2 h)

theorem reachable_witnessed (hmk : OneDimensional mk) {s : Space} (h : Reachable ops jen little mem mk s) :
    ClausesWitnessed ops jen little s := by
  obtain ⟨history, hw, rfl⟩ := h
  exact run_witnessed hmk history _ (good_empty mem) hw (by simp [ClausesWitnessed, Space.empty])

/-- On a complete order the default configuration makes no clause true. -/
theorem default_not_forbidden {s : Space} (ho : EvalOrder (Spec.conditions s) s.sorted)
    (hw : ClausesWitnessed ops jen little s) {d : List Value} (hd : getDefault ops jen little s = .ok d) :
    ∀ c ∈ s.clauses, evalOn ops jen little s d c ≠ .ok (.bool 1#64) := by
  intro c hc htrue
  obtain ⟨-, d0, h2, h3, r, hr, hne⟩ := hw c hc
  have hsol := setActives_solves ho (by simp) hd
  have key : ∀ k, k ≤ s.sorted.length → ∀ j ∈ s.sorted.take k, ∀ v, d[j]? = some v → v = .inactive ∨ d0[j]? = some v := by
    intro k
    induction k with
    | zero => intro _ i hi; simp at hi
    | succ k ih =>
      intro hk i hi v hv
      have hkl : k < s.sorted.length := hk
      rw [List.take_succ_eq_append_getElem hkl, List.mem_append] at hi
      rcases hi with hi | hi
      · exact ih (by omega) i hi v hv
      simp at hi
      have hsplit : s.sorted = s.sorted.take k ++ i :: s.sorted.drop (k + 1) := by
        rw [hi, List.getElem_cons_drop, List.take_append_drop]
      have hil : i < s.params.length := by
        have : i ∈ s.sorted := by rw [hsplit]; simp
        have := List.mem_range.1 (ho.1.mem_iff.1 this)
        rwa [conditions_length] at this
      have hwi : s.params[i]? = some s.params[i] := List.getElem?_eq_getElem hil
      generalize s.params[i] = w at hwi
      obtain ⟨hn, hs⟩ := hsol.2 i w hwi
      have hraw : (s.params.map (·.param.default))[i]? = some w.param.default := by simp [hwi]
      rw [hraw] at hn hs
      cases hc : w.condition with
      | none =>
        have hdv := hn hc
        rcases h3 i w hwi with h0 | ⟨-, e, -, he, -⟩
        · rw [hv] at hdv; rw [hdv]; exact .inr h0
        · rw [hc] at he; cases he
      | some e =>
        obtain ⟨r', hr', hdv⟩ := hs e hc
        by_cases ht : isTrue r' = true
        · rw [if_pos ht] at hdv
          rw [(isTrue_iff r').1 ht] at hr'
          rcases h3 i w hwi with h0 | ⟨-, e', r0, he', hr0, hne0⟩
          · rw [hv] at hdv; rw [hdv]; exact .inr h0
          · rw [hc] at he'
            cases he'
            exfalso
            apply hne0
            refine evalOn_mono ?_ hr' (by simp) hr0
            intro j x v hj hx hvj
            have hjl : j < s.params.length := by
              have := (List.getElem?_eq_some_iff.1 hj).1
              simpa [Space.handles] using this
            have hjw : s.params[j]? = some s.params[j] := List.getElem?_eq_getElem hjl
            have hxh : x = s.params[j].handle := Option.some.inj (hj.symm.trans (handles_get hjw))
            have hdep : DependsOn (Spec.conditions s) i j := ⟨w.handle, e, x, _, by rw [conditions_get hwi, hc],
              by rw [conditions_get hjw, ← hxh], hx⟩
            exact ih (by omega) j (ho.2 _ _ _ hsplit j hdep) v hvj
        · rw [if_neg ht] at hdv
          rw [hv] at hdv
          exact .inl (Option.some.inj hdv)
  apply hne
  refine evalOn_mono ?_ htrue (by simp) hr
  intro j x v hj hx hvj
  have hjl : j < s.params.length := by
    have := (List.getElem?_eq_some_iff.1 hj).1
    simpa [Space.handles] using this
  refine key s.sorted.length (Nat.le_refl _) j ?_ v hvj
  rw [List.take_length]
  exact ho.1.mem_iff.2 (List.mem_range.2 (by rw [conditions_length]; exact hjl))

/-! ## The order is up to date -/

theorem step_settled (hmk : OneDimensional mk) {s : Space} (hg : Good mem s) {op : SpaceOp} (hw : WellCalled op)
    {p : Prop} (hp : p → s.graphOk = true)
    (h : settles op (Space.step ops jen little mem mk s op).2 p) : (Space.step ops jen little mem mk s op).1.graphOk = true := by
  cases op with
  | addParameter h' d =>
    have hok := hp (by simpa [settles] using h)
    simp only [Space.step]
    rcases addParameter_outcomes hmk hg h' d with ⟨e, he⟩ | ⟨he, -⟩ | ⟨d', he, -⟩
    · rw [he]; exact hok
    · rw [he]; exact hok
    · rw [he]; exact hok
  | setDistribution d is =>
    have hok := hp (by simpa [settles] using h)
    simp only [Space.step]
    rcases setDistribution_spec hmk hg.parts hw.1 hw.2 with
      ⟨s', he, -, -, -, -, -, -, hgo, -⟩ | ⟨he, -⟩ | ⟨e, is', he, -⟩ | ⟨is', he, -⟩
    · rw [he]; exact hgo.trans hok
    all_goals rw [he]; exact hok
  | setCondition i e =>
    simp only [Space.step] at h ⊢
    unfold settles at h
    rcases setCondition_outcomes hg.tables hg.graph i hw with ⟨-, he⟩ | ⟨w, c, -, -, he⟩ | ⟨w, s', r, hwi, hwc, he, hr⟩
    · rw [he] at h; exact h.elim
    · rw [he] at h; exact h.elim
    · rw [he] at h ⊢
      rcases hr with ⟨-, -, -, -, -, -, hok⟩ | ⟨hr, -⟩ | ⟨hr, -⟩
      · exact hok
      · rw [hr] at h; exact h.elim
      · rw [hr] at h; exact h.elim
  | addClause e =>
    have hok := hp (by simpa [settles] using h)
    simp only [Space.step, CCS.addClause]
    split <;> exact hok
  | check vals =>
    obtain ⟨s', h1, h2, h3, h4⟩ := ensure_effect hg
    simp only [Space.step, checkSpace, h1]
    exact h4
  | sample t =>
    obtain ⟨s', h1, h2, h3, h4⟩ := ensure_effect hg
    simp only [Space.step, sampleOne, h1]
    exact h4
  | samples t n =>
    have hok := hp (by simpa [settles] using h)
    obtain ⟨s', h1, h2, h3, h4⟩ := ensure_effect hg
    simp only [Space.step, sampleMany, h1]
    split
    · exact hok
    · exact h4

theorem run_settled (hmk : OneDimensional mk) : ∀ (history : List SpaceOp) (s : Space) (p : Prop), Good mem s →
    (∀ op ∈ history, WellCalled op) → (p → s.graphOk = true) → Settled ops jen little mem mk s p history →
    (Space.run ops jen little mem mk s history).graphOk = true
  | [], s, p, _, _, hp, h => hp h
  | op :: rest, s, p, hg, hw, hp, h =>
    run_settled hmk rest _ _ (step_good hmk hg (hw op (by simp))).1 (fun x hx => hw x (by simp [hx]))
      (step_settled hmk hg (hw op (by simp)) hp) h

/-! ## The distributions of a space -/

theorem step_dists (hmk : OneDimensional mk) {Q : Dist → Prop} (hq : ∀ id p d, mk id p = .ok d → Q d) {s : Space}
    (hg : Good mem s) {op : SpaceOp} (hw : WellCalled op) (hop : ∀ d ∈ SpaceOp.given op, Q d)
    (h : ∀ d ∈ s.dists, Q d.dist) : ∀ d ∈ (Space.step ops jen little mem mk s op).1.dists, Q d.dist := by
  cases op with
  | addParameter h' d =>
    simp only [Space.step]
    rcases addParameter_outcomes hmk hg h' d with ⟨e, he⟩ | ⟨he, -⟩ | ⟨d', he, -, -, hc, -⟩
    · rw [he]; exact h
    · rw [he]; exact h
    · rw [he]
      intro x hx
      simp only [Space.pushParameter, List.mem_append, List.mem_singleton] at hx
      rcases hx with hx | rfl
      · exact h x hx
      · cases d with
        | none => exact hq _ _ _ hc
        | some d =>
          simp only [chooseDistribution] at hc
          split at hc
          · cases hc
          · cases hc
            exact hop d' (by simp [SpaceOp.given])
  | setDistribution d is =>
    simp only [Space.step]
    rcases setDistribution_spec hmk hg.parts hw.1 hw.2 with
      ⟨s', he, -, -, -, -, -, -, -, -, -, -, hall⟩ | ⟨he, -⟩ | ⟨e, is', he, -⟩ | ⟨is', he, -⟩
    · rw [he]
      intro x hx
      rcases hall x hx with hx | ⟨hx, -⟩ | ⟨i, w, -, -, hx⟩
      · exact h x hx
      · rw [hx]; exact hop d (by simp [SpaceOp.given])
      · exact hq _ _ _ hx
    all_goals rw [he]; exact h
  | setCondition i e =>
    simp only [Space.step]
    rcases setCondition_outcomes hg.tables hg.graph i hw with ⟨-, he⟩ | ⟨w, c, -, -, he⟩ | ⟨w, s', r, hwi, hwc, he, hr⟩
    · rw [he]; exact h
    · rw [he]; exact h
    · rw [he]
      rcases hr with ⟨-, -, -, hs, -⟩ | ⟨-, -, -, hs, -⟩ | ⟨-, -, hs, -⟩
      · simp only [hs.dists]; exact h
      · simp only [hs.dists]; exact h
      · simp only [hs.dists]; exact h
  | addClause e =>
    simp only [Space.step, CCS.addClause]
    split <;> exact h
  | check vals =>
    obtain ⟨s', h1, h2, h3, h4⟩ := ensure_effect hg
    simp only [Space.step, checkSpace, h1, h3.dists]
    exact h
  | sample t =>
    obtain ⟨s', h1, h2, h3, h4⟩ := ensure_effect hg
    simp only [Space.step, sampleOne, h1, h3.dists]
    exact h
  | samples t n =>
    obtain ⟨s', h1, h2, h3, h4⟩ := ensure_effect hg
    simp only [Space.step, sampleMany, h1]
    split
    · exact h
    · simp only [h3.dists]; exact h

theorem run_dists (hmk : OneDimensional mk) {Q : Dist → Prop} (hq : ∀ id p d, mk id p = .ok d → Q d) :
    ∀ (history : List SpaceOp) (s : Space), Good mem s → (∀ op ∈ history, WellCalled op) →
    (∀ op ∈ history, ∀ d ∈ SpaceOp.given op, Q d) → (∀ d ∈ s.dists, Q d.dist) →
    ∀ d ∈ (Space.run ops jen little mem mk s history).dists, Q d.dist
  | [], s, _, _, _, h => h
  | op :: rest, s, hg, hw, hgiven, h =>
    run_dists hmk hq rest _ (step_good hmk hg (hw op (by simp))).1 (fun x hx => hw x (by simp [hx]))
      (fun x hx => hgiven x (by simp [hx])) (step_dists hmk hq hg (hw op (by simp)) (hgiven op (by simp)) h)

/-! ## Drawing from spaces that differ by their graph -/

theorem SameSpace.drawAll {s s' : Space} (h : SameSpace s s') (t : Nat) : ∀ (ds : List DWrap) (k : Nat)
    (vals : List Value), CCS.drawAll s' t k ds vals = CCS.drawAll s t k ds vals
  | [], k, vals => rfl
  | d :: ds, k, vals => by
    unfold CCS.drawAll
    rw [h.length, h.dists, paramsAt_congr (core_map (f := fun w => w.param) (fun _ => rfl) h.params)]
    simp only [SameSpace.drawAll h t ds (k + 1)]

theorem SameSpace.blank {s s' : Space} (h : SameSpace s s') : s'.blank = s.blank := by
  unfold Space.blank; rw [h.length]

theorem SameSpace.testForbidden {s s' : Space} (h : SameSpace s s') (vals : List Value) : ∀ (cs : List Expr),
    CCS.testForbidden ops jen little s' vals cs = CCS.testForbidden ops jen little s vals cs
  | [] => rfl
  | c :: cs => by
    unfold CCS.testForbidden
    rw [SameSpace.testForbidden h vals cs]
    unfold Space.env
    rw [h.handles]

theorem SameSpace.symm {a b : Space} (h : SameSpace a b) : SameSpace b a :=
  ⟨h.params.symm, h.entries.symm, h.dists.symm, h.nextId.symm, h.clauses.symm⟩

theorem SameSpace.activityRight {s s' : Space} (h : SameSpace s s') {vals : List Value} :
    ActivityRight ops jen little s' vals ↔ ActivityRight ops jen little s vals := by
  unfold ActivityRight ShouldBeActive
  simp only [h.conditions, h.evalOn]

theorem SameSpace.setActives {s s' : Space} (h : SameSpace s s') : ∀ (l : List Nat) (vals : List Value),
    CCS.setActives ops jen little s' l vals = CCS.setActives ops jen little s l vals
  | [], vals => rfl
  | i :: is, vals => by
    unfold CCS.setActives
    cases hw : s'.params[i]? with
    | none =>
      rw [List.getElem?_eq_none_iff.2 (by rw [← h.length]; exact List.getElem?_eq_none_iff.1 hw)]
    | some w =>
      obtain ⟨w0, hw0, hc⟩ := core_some h.params hw
      rw [hw0]
      simp only [(core_fields hc).2.2.2.2]
      cases w0.condition with
      | none => exact SameSpace.setActives h is vals
      | some e =>
        unfold Space.env
        rw [h.handles]
        simp only [SameSpace.setActives h is]

/-- Successful attempts do not depend on which evaluation order was computed. -/
theorem SameSpace.attempt {s s' : Space} (h : SameSpace s s') (ho : EvalOrder (Spec.conditions s) s.sorted)
    (ho' : EvalOrder (Spec.conditions s') s'.sorted) (t : Nat) (r : Bool × List Value) :
    CCS.attempt ops jen little s' t s'.blank = .ok r ↔ CCS.attempt ops jen little s t s.blank = .ok r := by
  unfold CCS.attempt
  rw [h.dists, h.drawAll, h.blank]
  cases hd : CCS.drawAll s t 0 s.dists s.blank with
  | err e => rfl
  | ub => rfl
  | ok raw =>
    rw [Out.bind_ok, Out.bind_ok]
    have hl : raw.length = s.params.length := by rw [drawAll_length t _ _ _ _ hd]; simp [Space.blank]
    have hiff : ∀ a, CCS.setActives ops jen little s' s'.sorted raw = .ok a ↔ CCS.setActives ops jen little s s.sorted raw = .ok a := by
      intro a
      rw [setActives_iff ho' (by rw [h.length]; exact hl), setActives_iff ho hl, h.solves]
    constructor
    · intro hh
      obtain ⟨a, ha, hh⟩ := bind_eq_ok hh
      rw [(hiff a).1 ha, Out.bind_ok]
      rw [h.clauses, h.testForbidden] at hh
      exact hh
    · intro hh
      obtain ⟨a, ha, hh⟩ := bind_eq_ok hh
      rw [(hiff a).2 ha, Out.bind_ok, h.clauses, h.testForbidden]
      exact hh

end

end CCS
