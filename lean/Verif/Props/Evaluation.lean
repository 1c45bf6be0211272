import Verif.Lemmas.Evaluation
import Verif.Props.Binding

/-!
# C60–C62, C81: objectives and the comparison of evaluations

`Spec.Dominates`, `Spec.Tied`, `Spec.Rated` and `Spec.NoNaN` are in `Verif/Spec/Evaluation.lean`.
-/

namespace CCS.Props

open CCS Spec

section
variable (ops : FloatOps) (jen : Bytes → BitVec 32) (little : Bool)
variable (spaces : BitVec 64 → ObjSpace) (evals : BitVec 64 → Evaluation)

/-- Two distinct evaluations that may be compared: successful, of the same objective space. -/
structure Pair (evals : BitVec 64 → Evaluation) (x y : BitVec 64) : Prop where
  distinct : x ≠ y
  first : (evals x).result = 0#32
  second : (evals y).result = 0#32
  space : (evals x).binding.context = (evals y).binding.context

theorem pair_compare {x y : BitVec 64} (h : Pair evals x y) :
    compareEvaluations ops jen little spaces evals x y =
      compareLoop (objectiveValue ops jen little (spaces (evals x).binding.context) (evals x).binding.values)
        (objectiveValue ops jen little (spaces (evals x).binding.context) (evals y).binding.values) .equivalent
        (spaces (evals x).binding.context).objectives := by
  unfold compareEvaluations
  rw [if_neg h.distinct, if_neg (by simp [h.first, h.second]), if_neg (by simpa using h.space)]

/-! ## C60: Pareto dominance -/

/-- **C60** (partial) Comparing two successful evaluations of one objective space, whose objective values are numbers of the
same types, answers BETTER exactly when the first dominates, WORSE exactly when the second does, EQUIVALENT exactly
when they tie, and NOT_COMPARABLE in the other cases.
Missing for the full claim: NaN objective values, for which it is false (below). -/
theorem C60_pareto_partial {x y : BitVec 64} (h : Pair evals x y) {s : ObjSpace}
    (hs : s = spaces (evals x).binding.context) {vs ws : List Value}
    (hv : Rated ops jen little s (evals x).binding.values vs) (hw : Rated ops jen little s (evals y).binding.values ws)
    (hc : Commensurable vs ws) :
    ∃ r, compareEvaluations ops jen little spaces evals x y = .ok r ∧
      (r = .better ↔ Dominates s.objectives vs ws) ∧ (r = .worse ↔ Dominates s.objectives ws vs) ∧
      (r = .equivalent ↔ Tied vs ws) ∧
      (r = .notComparable ↔ ¬ Dominates s.objectives vs ws ∧ ¬ Dominates s.objectives ws vs ∧ ¬ Tied vs ws) := by
  rw [pair_compare ops jen little spaces evals h, ← hs]
  obtain ⟨r, he, h1, h2, h3⟩ := compareLoop_pareto (objectiveValue ops jen little s (evals x).binding.values)
    (objectiveValue ops jen little s (evals y).binding.values) s.objectives vs ws hv.1 hw.1 hv.2 hw.2 hc
  refine ⟨r, he, h1, h2, h3, ?_⟩
  rw [← h1, ← h2, ← h3]
  cases r <;> simp

/-- **C60** Evaluations with an objective that is not a number, or a number of another type, are NOT_COMPARABLE. -/
theorem C60_not_numbers {x y : BitVec 64} (h : Pair evals x y) {s : ObjSpace}
    (hs : s = spaces (evals x).binding.context) {vs ws : List Value}
    (hv : Rated ops jen little s (evals x).binding.values vs) (hw : Rated ops jen little s (evals y).binding.values ws)
    {i : Nat} {a b : Value} (ha : vs[i]? = some a) (hb : ws[i]? = some b) (hn : ¬ SameNumericType a b) :
    compareEvaluations ops jen little spaces evals x y = .ok .notComparable := by
  rw [pair_compare ops jen little spaces evals h, ← hs]
  refine compareLoop_mismatch _ _ _ _ (fun o ho => ?_) ?_
  · obtain ⟨j, hj, rfl⟩ := List.mem_iff_getElem.1 ho
    have h1 : j < vs.length := by rw [hv.1]; exact hj
    have h2 : j < ws.length := by rw [hw.1]; exact hj
    exact ⟨_, _, hv.2 j _ vs[j] (List.getElem?_eq_getElem hj) (List.getElem?_eq_getElem h1),
      hw.2 j _ ws[j] (List.getElem?_eq_getElem hj) (List.getElem?_eq_getElem h2)⟩
  · have hi : i < s.objectives.length := by rw [← hv.1]; exact (List.getElem?_eq_some_iff.1 ha).1
    exact ⟨s.objectives[i], List.getElem_mem hi, a, b, hv.2 i _ a (List.getElem?_eq_getElem hi) ha,
      hw.2 i _ b (List.getElem?_eq_getElem hi) hb, hn⟩

/-- **C60** An evaluation is EQUIVALENT to itself; failed evaluations and evaluations of different spaces are refused. -/
theorem C60_refusals (x y : BitVec 64) :
    compareEvaluations ops jen little spaces evals x x = .ok .equivalent ∧
    (x ≠ y → (evals x).result ≠ 0#32 ∨ (evals y).result ≠ 0#32 ∨
        (evals x).binding.context ≠ (evals y).binding.context →
      compareEvaluations ops jen little spaces evals x y = .err .invalidObject) := by
  unfold compareEvaluations
  refine ⟨by rw [if_pos rfl], fun hne h => ?_⟩
  rw [if_neg hne]
  by_cases h' : (evals x).result ≠ 0#32 ∨ (evals y).result ≠ 0#32
  · rw [if_pos h']
  · rw [if_neg h', if_pos]
    rcases h with h | h | h
    · exact absurd (.inl h) h'
    · exact absurd (.inr h) h'
    · exact h

/-- **C60, violated for NaN** With one objective, a NaN value is EQUIVALENT to every double. -/
theorem C60_nan {x y : BitVec 64} (h : Pair evals x y) {s : ObjSpace} (hs : s = spaces (evals x).binding.context)
    {f g : F64} (hf : num .float f = none) (hv : Rated ops jen little s (evals x).binding.values [.float f])
    (hw : Rated ops jen little s (evals y).binding.values [.float g]) :
    compareEvaluations ops jen little spaces evals x y = .ok .equivalent := by
  rw [pair_compare ops jen little spaces evals h, ← hs]
  obtain ⟨rs, he, hrs⟩ := compareLoop_values (objectiveValue ops jen little s (evals x).binding.values)
    (objectiveValue ops jen little s (evals y).binding.values) s.objectives [.float f] [.float g] .equivalent
    hv.1 hw.1 hv.2 hw.2 (fun i a b ha hb => by
      cases i with
      | zero => simp only [List.getElem?_cons_zero, Option.some.injEq] at ha hb; subst ha hb; trivial
      | succ i => simp at ha)
  rw [he]
  have hall : ∀ r ∈ rs, r = .eq := by
    intro r hr
    obtain ⟨i, o, a, b, c, -, q2, q3, q4, rfl⟩ := (hrs r).1 hr
    cases i with
    | succ i => simp at q2
    | zero =>
      simp only [List.getElem?_cons_zero, Option.some.injEq] at q2 q3
      subst q2 q3
      have h1 : ¬ F64.lt f g = true := fun hlt => by
        obtain ⟨a, b, ha, -⟩ := (lt_iff .float f g).1 hlt
        rw [hf] at ha; cases ha
      have h2 : ¬ F64.lt g f = true := fun hlt => by
        obtain ⟨a, b, -, hb, -⟩ := (lt_iff .float g f).1 hlt
        rw [hf] at hb; cases hb
      simp only [numericCompare, floatCmp, Option.some.injEq] at q4
      rw [if_neg h1, if_neg h2] at q4
      subst q4
      unfold orient; split <;> rfl
  rw [((mergeAll_spec rs .equivalent (by decide)).2.2).2
    ⟨rfl, (fun h => by cases hall _ h), (fun h => by cases hall _ h)⟩]

/-- **C60** Evaluations with features compare like evaluations when the features are the same, and are NOT_COMPARABLE
otherwise. -/
theorem C60_features (feats : BitVec 64 → Binding) (fevals : BitVec 64 → FeaturesEvaluation) {x y : BitVec 64} :
    (SameBinding (feats (fevals x).features) (feats (fevals y).features) →
      compareFeaturesEvaluations ops jen little spaces feats fevals x y =
        compareEvaluations ops jen little spaces (fun a => (fevals a).evaluation) x y) ∧
    (Pair (fun a => (fevals a).evaluation) x y →
      ¬ SameBinding (feats (fevals x).features) (feats (fevals y).features) →
      compareFeaturesEvaluations ops jen little spaces feats fevals x y = .ok .notComparable) := by
  have hb := (bindingCmp_total little feats).eq_iff (fevals x).features (fevals y).features
  constructor
  · intro h
    unfold compareFeaturesEvaluations compareEvaluations
    rw [if_neg (c := _ ≠ Ordering.eq) (by simpa using hb.2 h)]
  · intro hp h
    unfold compareFeaturesEvaluations
    rw [if_neg hp.distinct, if_neg (by simp [hp.first, hp.second]), if_neg (by simpa using hp.space),
      if_pos (fun e => h (hb.1 e))]

/-! ## C61: better-than is a strict partial order -/

/-- **C61** Swapping the operands swaps BETTER and WORSE and keeps the other answers, NaN or not. -/
theorem C61_swap {x y : BitVec 64} {r : Comparison} (h : compareEvaluations ops jen little spaces evals x y = .ok r) :
    compareEvaluations ops jen little spaces evals y x = .ok r.swap := by
  unfold compareEvaluations at h ⊢
  by_cases hxy : x = y
  · rw [if_pos hxy] at h; cases h; rw [if_pos hxy.symm]; rfl
  · rw [if_neg hxy] at h
    rw [if_neg (fun e => hxy e.symm)]
    by_cases h1 : (evals x).result ≠ 0#32 ∨ (evals y).result ≠ 0#32
    · rw [if_pos h1] at h; cases h
    · rw [if_neg h1] at h
      rw [if_neg (fun e => h1 e.symm)]
      by_cases h2 : (evals x).binding.context ≠ (evals y).binding.context
      · rw [if_pos h2] at h; cases h
      · rw [if_neg h2] at h
        rw [if_neg (fun e => h2 e.symm)]
        rw [show (evals y).binding.context = (evals x).binding.context from (Classical.not_not.1 h2).symm]
        exact compareLoop_swap _ _ _ _ _ (by decide) h

/-- **C61** BETTER is asymmetric and irreflexive. -/
theorem C61_asymmetric {x y : BitVec 64} (h : compareEvaluations ops jen little spaces evals x y = .ok .better) :
    compareEvaluations ops jen little spaces evals y x ≠ .ok .better ∧ x ≠ y := by
  refine ⟨fun h' => ?_, ?_⟩
  · have := C61_swap ops jen little spaces evals h
    rw [h'] at this; cases this
  · rintro rfl
    rw [(C60_refusals ops jen little spaces evals x x).1] at h; cases h

theorem compared_pair {x y : BitVec 64} (hxy : x ≠ y) {r : Comparison}
    (h : compareEvaluations ops jen little spaces evals x y = .ok r) : Pair evals x y := by
  unfold compareEvaluations at h
  rw [if_neg hxy] at h
  by_cases h1 : (evals x).result ≠ 0#32 ∨ (evals y).result ≠ 0#32
  · rw [if_pos h1] at h; cases h
  · rw [if_neg h1] at h
    by_cases h2 : (evals x).binding.context ≠ (evals y).binding.context
    · rw [if_pos h2] at h; cases h
    · exact ⟨hxy, Classical.byContradiction fun e => h1 (.inl e), Classical.byContradiction fun e => h1 (.inr e),
        Classical.not_not.1 h2⟩

theorem rated_exists {s : ObjSpace} {ds : List Datum} (h : ∀ o ∈ s.objectives, ∃ a,
    objectiveValue ops jen little s ds o.expression = .ok a) : ∃ vs, Rated ops jen little s ds vs := by
  have key : ∀ os : List Objective, (∀ o ∈ os, ∃ a, objectiveValue ops jen little s ds o.expression = .ok a) →
      ∃ vs : List Value, vs.length = os.length ∧ ∀ (i : Nat) o v, os[i]? = some o → vs[i]? = some v →
        objectiveValue ops jen little s ds o.expression = .ok v := by
    intro os
    induction os with
    | nil => exact fun _ => ⟨[], rfl, by simp⟩
    | cons o os ih =>
      intro h
      obtain ⟨a, ha⟩ := h o List.mem_cons_self
      obtain ⟨vs, hl, hvs⟩ := ih fun o ho => h o (List.mem_cons_of_mem _ ho)
      refine ⟨a :: vs, by simp [hl], fun i o' v ho hv => ?_⟩
      cases i with
      | zero => simp only [List.getElem?_cons_zero, Option.some.injEq] at ho hv; subst ho hv; exact ha
      | succ i => exact hvs i o' v (by simpa using ho) (by simpa using hv)
  exact key s.objectives h

/-- What an answer other than NOT_COMPARABLE says, without NaN. -/
theorem compared {x y : BitVec 64} (hxy : x ≠ y) {r : Comparison}
    (h : compareEvaluations ops jen little spaces evals x y = .ok r) (hr : r ≠ .notComparable) {s : ObjSpace}
    (hs : s = spaces (evals x).binding.context)
    (nx : NoNaN ops jen little s (evals x).binding.values) (ny : NoNaN ops jen little s (evals y).binding.values) :
    ∃ vs ws, Rated ops jen little s (evals x).binding.values vs ∧ Rated ops jen little s (evals y).binding.values ws ∧
      Commensurable vs ws := by
  have hp := compared_pair ops jen little spaces evals hxy h
  rw [pair_compare ops jen little spaces evals hp, ← hs] at h
  have hall := compareLoop_all _ _ _ _ _ (by decide) h hr
  obtain ⟨vs, hv⟩ := rated_exists ops jen little (s := s) (ds := (evals x).binding.values)
    fun o ho => by obtain ⟨a, b, ha, -⟩ := hall o ho; exact ⟨a, ha⟩
  obtain ⟨ws, hw⟩ := rated_exists ops jen little (s := s) (ds := (evals y).binding.values)
    fun o ho => by obtain ⟨a, b, -, hb, -⟩ := hall o ho; exact ⟨b, hb⟩
  refine ⟨vs, ws, hv, hw, fun i a b ha hb => ?_⟩
  have hi : i < s.objectives.length := by rw [← hv.1]; exact (List.getElem?_eq_some_iff.1 ha).1
  have ea := hv.2 i _ a (List.getElem?_eq_getElem hi) ha
  have eb := hw.2 i _ b (List.getElem?_eq_getElem hi) hb
  obtain ⟨a', b', ha', hb', hsame⟩ := hall _ (List.getElem_mem hi)
  cases Out.ok.inj (ea.symm.trans ha')
  cases Out.ok.inj (eb.symm.trans hb')
  have fa := nx _ (List.getElem_mem hi)
  have fb := ny _ (List.getElem_mem hi)
  cases a <;> cases b <;> simp only [SameNumericType] at hsame
  · exact ⟨.int, _, _, rfl, rfl⟩
  · rename_i f g
    cases e1 : num .float f with
    | none => exact absurd e1 (fa f ea)
    | some p =>
      cases e2 : num .float g with
      | none => exact absurd e2 (fb g eb)
      | some q => exact ⟨.float, p, q, by simp [score, e1], by simp [score, e2]⟩

end

/-! ### Dominance itself -/

theorem beats_trans {o : Objective} {a b c : Value} :
    (Beats o a b → Beats o b c → Beats o a c) ∧ (Beats o a b → Level b c → Beats o a c) ∧
    (Level a b → Beats o b c → Beats o a c) ∧ (Level a b → Level b c → Level a c) := by
  refine ⟨?_, ?_, ?_, ?_⟩
  · rintro ⟨t, x, y, h1, h2, h3⟩ ⟨t', y', z, h4, h5, h6⟩
    rw [h2] at h4; cases h4
    refine ⟨t, x, z, h1, h5, ?_⟩
    split at h3 <;> rename_i ho
    · rw [if_pos ho] at h6 ⊢; omega
    · rw [if_neg ho] at h6 ⊢; omega
  · rintro ⟨t, x, y, h1, h2, h3⟩ ⟨t', y', h4, h5⟩
    rw [h2] at h4; cases h4
    exact ⟨t, x, y, h1, h5, h3⟩
  · rintro ⟨t', y', h4, h5⟩ ⟨t, x, y, h1, h2, h3⟩
    rw [h1] at h5; cases h5
    exact ⟨_, _, y, h4, h2, h3⟩
  · rintro ⟨t, x, h1, h2⟩ ⟨t', x', h3, h4⟩
    rw [h2] at h3; cases h3
    exact ⟨t, x, h1, h4⟩

/-- At least as good on all objectives. -/
def Weakly (os : List Objective) (vs ws : List Value) : Prop :=
  ∀ (i : Nat) o a b, os[i]? = some o → vs[i]? = some a → ws[i]? = some b → Beats o a b ∨ Level a b

theorem weakly_trans {os : List Objective} {us vs ws : List Value} (hv : vs.length = os.length)
    (h1 : Weakly os us vs) (h2 : Weakly os vs ws) : Weakly os us ws := by
  intro i o a c ho ha hc
  have hi := (List.getElem?_eq_some_iff.1 ho).1
  have hb : vs[i]? = some vs[i] := List.getElem?_eq_getElem (by omega)
  obtain ⟨t1, t2, t3, t4⟩ := beats_trans (o := o) (a := a) (b := vs[i]) (c := c)
  rcases h1 i o a _ ho ha hb with p | p <;> rcases h2 i o _ c ho hb hc with q | q
  · exact .inl (t1 p q)
  · exact .inl (t2 p q)
  · exact .inl (t3 p q)
  · exact .inr (t4 p q)

theorem dominates_weakly {os : List Objective} {us vs ws : List Value} (hu : us.length = os.length)
    (hv : vs.length = os.length) (hw : ws.length = os.length) :
    (Dominates os us vs → Weakly os vs ws → Dominates os us ws) ∧
    (Weakly os us vs → Dominates os vs ws → Dominates os us ws) := by
  constructor
  · rintro ⟨h1, i, o, a, b, ho, ha, hb, hab⟩ h2
    refine ⟨weakly_trans hv h1 h2, i, o, a, ws[i]'(by have := (List.getElem?_eq_some_iff.1 ho).1; omega), ho, ha,
      List.getElem?_eq_getElem _, ?_⟩
    obtain ⟨t1, t2, -, -⟩ := beats_trans (o := o) (a := a) (b := b)
      (c := ws[i]'(by have := (List.getElem?_eq_some_iff.1 ho).1; omega))
    rcases h2 i o b _ ho hb (List.getElem?_eq_getElem _) with q | q
    · exact t1 hab q
    · exact t2 hab q
  · rintro h1 ⟨h2, i, o, b, c, ho, hb, hc, hbc⟩
    refine ⟨weakly_trans hv h1 h2, i, o, us[i]'(by have := (List.getElem?_eq_some_iff.1 ho).1; omega), c, ho,
      List.getElem?_eq_getElem _, hc, ?_⟩
    obtain ⟨t1, -, t3, -⟩ := beats_trans (o := o)
      (a := us[i]'(by have := (List.getElem?_eq_some_iff.1 ho).1; omega)) (b := b) (c := c)
    rcases h1 i o _ b ho (List.getElem?_eq_getElem _) hb with q | q
    · exact t1 q hbc
    · exact t3 q hbc

theorem tied_weakly {os : List Objective} {vs ws : List Value} (h : Tied vs ws) : Weakly os vs ws :=
  fun i _ a b _ ha hb => .inr (h i a b ha hb)

theorem rated_unique {ops : FloatOps} {jen : Bytes → BitVec 32} {little : Bool} {s : ObjSpace} {ds : List Datum}
    {vs ws : List Value} (h1 : Rated ops jen little s ds vs) (h2 : Rated ops jen little s ds ws) : vs = ws := by
  refine List.ext_getElem (h1.1.trans h2.1.symm) fun i hi hj => ?_
  have ho : i < s.objectives.length := by rw [← h1.1]; exact hi
  exact Out.ok.inj ((h1.2 i _ _ (List.getElem?_eq_getElem ho) (List.getElem?_eq_getElem hi)).symm.trans
    (h2.2 i _ _ (List.getElem?_eq_getElem ho) (List.getElem?_eq_getElem hj)))

section
variable (ops : FloatOps) (jen : Bytes → BitVec 32) (little : Bool)
variable (spaces : BitVec 64 → ObjSpace) (evals : BitVec 64 → Evaluation)

/-- **C61** (partial) Without NaN objective values BETTER is transitive, also through EQUIVALENT, and EQUIVALENT is
transitive.  Missing for the full claim: NaN, for which it is false (below). -/
theorem C61_transitive_partial {x y z : BitVec 64} {r q : Comparison}
    (nx : NoNaN ops jen little (spaces (evals x).binding.context) (evals x).binding.values)
    (ny : NoNaN ops jen little (spaces (evals y).binding.context) (evals y).binding.values)
    (nz : NoNaN ops jen little (spaces (evals z).binding.context) (evals z).binding.values)
    (hr : r = .better ∨ r = .equivalent) (hq : q = .better ∨ q = .equivalent)
    (hxy : compareEvaluations ops jen little spaces evals x y = .ok r)
    (hyz : compareEvaluations ops jen little spaces evals y z = .ok q) :
    compareEvaluations ops jen little spaces evals x z =
      .ok (if r = .better ∨ q = .better then .better else .equivalent) := by
  have self := fun a => (C60_refusals ops jen little spaces evals a a).1
  by_cases e1 : x = y
  · subst e1
    rw [self x] at hxy
    cases hxy
    rw [hyz]; rcases hq with rfl | rfl <;> rfl
  by_cases e2 : y = z
  · subst e2
    rw [self y] at hyz
    cases hyz
    rw [hxy]; rcases hr with rfl | rfl <;> rfl
  by_cases e3 : x = z
  · subst e3
    have := C61_swap ops jen little spaces evals hxy
    rw [hyz] at this
    rcases hr with rfl | rfl <;> rcases hq with rfl | rfl <;> first | cases this | skip
    simp [self x]
  · have p1 := compared_pair ops jen little spaces evals e1 hxy
    have p2 := compared_pair ops jen little spaces evals e2 hyz
    have p3 : Pair evals x z := ⟨e3, p1.first, p2.second, p1.space.trans p2.space⟩
    rw [← p1.space] at ny
    rw [← p2.space, ← p1.space] at nz
    obtain ⟨us, vs, hu, hv, hc1⟩ := compared ops jen little spaces evals e1 hxy
      (by rcases hr with rfl | rfl <;> decide) rfl nx ny
    obtain ⟨vs', ws, hv', hw, hc2⟩ := compared ops jen little spaces evals e2 hyz
      (by rcases hq with rfl | rfl <;> decide) (congrArg spaces p1.space) ny nz
    cases rated_unique hv hv'
    have hc3 : Commensurable us ws := fun i a c ha hc => by
      have hi : i < vs.length := by
        have := (List.getElem?_eq_some_iff.1 ha).1
        rw [hv.1, ← hu.1]; exact this
      obtain ⟨t, p, q, h1, h2⟩ := hc1 i a _ ha (List.getElem?_eq_getElem hi)
      obtain ⟨t', p', q', h3, h4⟩ := hc2 i _ c (List.getElem?_eq_getElem hi) hc
      rw [h2] at h3; cases h3
      exact ⟨t, p, q', h1, h4⟩
    obtain ⟨r1, er1, b1, -, t1, -⟩ := C60_pareto_partial ops jen little spaces evals p1 rfl hu hv hc1
    obtain ⟨r2, er2, b2, -, t2, -⟩ := C60_pareto_partial ops jen little spaces evals p2
      (congrArg spaces p1.space) hv hw hc2
    obtain ⟨r3, er3, b3, -, t3, -⟩ := C60_pareto_partial ops jen little spaces evals p3 rfl hu hw hc3
    rw [hxy] at er1; cases er1
    rw [hyz] at er2; cases er2
    rw [er3]
    obtain ⟨d1, d2⟩ := dominates_weakly (os := (spaces (evals x).binding.context).objectives) hu.1 hv.1 hw.1
    congr 1
    rcases hr with rfl | rfl <;> rcases hq with rfl | rfl
    · simp only [true_or, if_true]
      exact b3.2 (d1 (b1.1 rfl) (b2.1 rfl).1)
    · simp only [true_or, if_true]
      exact b3.2 (d1 (b1.1 rfl) (tied_weakly (t2.1 rfl)))
    · simp only [or_true, if_true]
      exact b3.2 (d2 (tied_weakly (t1.1 rfl)) (b2.1 rfl))
    · simp only [reduceCtorEq, or_self, if_false]
      refine t3.2 fun i a c ha hc => ?_
      have hi : i < vs.length := by
        have := (List.getElem?_eq_some_iff.1 ha).1
        rw [hv.1, ← hu.1]; exact this
      exact (beats_trans (o := ⟨.literal ⟨0#64, []⟩ .none, 0#32⟩)).2.2.2
        (t1.1 rfl i a _ ha (List.getElem?_eq_getElem hi)) (t2.1 rfl i _ c (List.getElem?_eq_getElem hi) hc)

/-- **C61** EQUIVALENT is reflexive and symmetric, NaN or not. -/
theorem C61_equivalent_symmetric {x y : BitVec 64} :
    compareEvaluations ops jen little spaces evals x x = .ok .equivalent ∧
    (compareEvaluations ops jen little spaces evals x y = .ok .equivalent →
      compareEvaluations ops jen little spaces evals y x = .ok .equivalent) :=
  ⟨(C60_refusals ops jen little spaces evals x x).1, fun h => C61_swap ops jen little spaces evals h⟩

/-! ## C62: objective values in an array -/

theorem fillObjectives_ok (f : Expr → Out Value) : ∀ (os : List Objective) (i : Nat) (a : List Value) (vs : List Value),
    vs.length = os.length → (∀ (j : Nat) o v, os[j]? = some o → vs[j]? = some v → f o.expression = .ok v) →
    i + os.length = a.length → fillObjectives f i os a = .ok (a.take i ++ vs)
  | [], i, a, [], _, _, h => by
    simp only [List.length_nil, Nat.add_zero] at h
    simp [fillObjectives, h]
  | o :: os, i, a, v :: vs, hl, hf, h => by
    simp only [List.length_cons] at h hl
    unfold fillObjectives storeAt
    rw [hf 0 o v rfl rfl, Out.bind_ok, if_pos (by omega), Out.bind_ok,
      fillObjectives_ok f os (i + 1) _ vs (by omega) (fun j o' v' a b => hf (j + 1) o' v' (by simpa using a) (by simpa using b))
        (by rw [List.length_set]; omega)]
    rw [List.take_add_one, List.getElem?_set_self (by omega), List.take_set_of_le (Nat.le_refl i)]
    simp

theorem fillObjectives_over (f : Expr → Out Value) : ∀ (os : List Objective) (i : Nat) (a : List Value),
    (∀ o ∈ os, ∃ v, f o.expression = .ok v) → a.length < i + os.length → i ≤ a.length → fillObjectives f i os a = .ub
  | [], i, a, _, h, h' => by simp at h; omega
  | o :: os, i, a, hf, h, h' => by
    simp only [List.length_cons] at h
    unfold fillObjectives storeAt
    obtain ⟨v, hv⟩ := hf o List.mem_cons_self
    rw [hv, Out.bind_ok]
    by_cases hi : i < a.length
    · rw [if_pos hi, Out.bind_ok]
      exact fillObjectives_over f os (i + 1) _ (fun o ho => hf o (List.mem_cons_of_mem _ ho))
        (by rw [List.length_set]; omega) (by rw [List.length_set]; omega)
    · rw [if_neg hi]; rfl

/-- **C62** (partial) An array with exactly one cell per objective receives all objective values in order; without an array
the number of objectives is returned.  Missing for the full claim: other sizes, for which it is false (below). -/
theorem C62_exact_size_partial (s : ObjSpace) (ds : List Datum) (a vs : List Value) (count : Bool)
    (hv : Rated ops jen little s ds vs) (ha : a.length = s.objectives.length) :
    getObjectiveValues ops jen little s ds (some a) count =
      .ok (some vs, if count then some s.objectives.length else none) ∧
    getObjectiveValues ops jen little s ds none true = .ok (none, some s.objectives.length) := by
  refine ⟨?_, rfl⟩
  unfold getObjectiveValues
  simp only
  rw [if_neg (by omega), fillObjectives_ok (objectiveValue ops jen little s ds) _ _ _ vs hv.1 hv.2 (by omega), Out.bind_ok]
  simp [hv.1, List.take_of_length_le]

/-- **C62, violated** An array with more cells than there are objectives is always refused. -/
theorem C62_larger_refused (s : ObjSpace) (ds : List Datum) (a : List Value) (count : Bool)
    (ha : s.objectives.length < a.length) :
    getObjectiveValues ops jen little s ds (some a) count = .err .invalidValue := by
  unfold getObjectiveValues
  simp only
  rw [if_pos ha]

/-- **C62, violated** An array with fewer cells than there are objectives is not refused: the call writes past its end. -/
theorem C62_smaller_overflows (s : ObjSpace) (ds : List Datum) (a vs : List Value) (count : Bool)
    (hv : Rated ops jen little s ds vs) (ha : a.length < s.objectives.length) :
    getObjectiveValues ops jen little s ds (some a) count = .ub := by
  unfold getObjectiveValues
  simp only
  rw [if_neg (by omega), fillObjectives_over _ _ _ _ (fun o ho => ?_) (by omega) (by omega)]
  · rfl
  · obtain ⟨i, hi, rfl⟩ := List.mem_iff_getElem.1 ho
    have h1 : i < vs.length := by rw [hv.1]; exact hi
    exact ⟨_, hv.2 i _ vs[i] (List.getElem?_eq_getElem hi) (List.getElem?_eq_getElem h1)⟩

end

/-! ## C81: objectives -/

theorem objKnown_iff {s : ObjSpace} {o : Objective} : ObjKnown s o ↔ ∀ h, Occurs h o.expression → h ∈ s.handles := by
  unfold ObjKnown Holds ObjSpace.handles
  refine forall_congr' fun h => imp_congr_right fun _ => ?_
  rw [List.mem_map]
  constructor
  · rintro ⟨i, p, hp⟩; exact ⟨(h, p), List.mem_of_getElem? hp, rfl⟩
  · rintro ⟨⟨h', p⟩, hm, rfl⟩
    obtain ⟨i, hi⟩ := List.mem_iff_getElem?.1 hm
    exact ⟨i, p, hi⟩

/-- **C81** An objective is accepted exactly when it only mentions parameters of the space, and then comes last; refused
ones change nothing. -/
theorem C81_add_objective (s : ObjSpace) (o : Objective) (hb : Built o.expression) :
    (ObjKnown s o → s.addObjective o = ({ s with objectives := s.objectives ++ [o] }, .ok ())) ∧
    (¬ ObjKnown s o → s.addObjective o = (s, .err .invalidParameter)) := by
  have h := C40_check_context hb s.handles
  rw [objKnown_iff]
  unfold ObjSpace.addObjective
  exact ⟨fun hk => by rw [h.1 hk], fun hk => by rw [h.2 hk]⟩

/-- **C81** Adding several objectives adds, in order, those before the first refused one. -/
theorem C81_add_objectives (s : ObjSpace) (os : List Objective) (hb : ∀ o ∈ os, Built o.expression) :
    ((∀ o ∈ os, ObjKnown s o) → s.addObjectives os = ({ s with objectives := s.objectives ++ os }, .ok ())) ∧
    (∀ good bad rest, os = good ++ bad :: rest → (∀ o ∈ good, ObjKnown s o) → ¬ ObjKnown s bad →
      s.addObjectives os = ({ s with objectives := s.objectives ++ good }, .err .invalidParameter)) := by
  induction os generalizing s with
  | nil => exact ⟨fun _ => by simp [ObjSpace.addObjectives], fun good bad rest h => by simp at h⟩
  | cons o os ih =>
    obtain ⟨h1, h2⟩ := C81_add_objective s o (hb o List.mem_cons_self)
    have hk : ∀ o', ObjKnown { s with objectives := s.objectives ++ [o] } o' ↔ ObjKnown s o' := fun _ => Iff.rfl
    obtain ⟨i1, i2⟩ := ih { s with objectives := s.objectives ++ [o] } fun o ho => hb o (List.mem_cons_of_mem _ ho)
    constructor
    · intro hall
      unfold ObjSpace.addObjectives
      rw [h1 (hall o List.mem_cons_self)]
      simp only
      rw [i1 fun o ho => hall o (List.mem_cons_of_mem _ ho)]
      simp
    · intro good bad rest he hg hbad
      unfold ObjSpace.addObjectives
      cases good with
      | nil =>
        simp only [List.nil_append, List.cons.injEq] at he
        rw [he.1, (C81_add_objective s bad (hb _ (by rw [he.1]; exact List.mem_cons_self))).2 hbad]
        simp
      | cons g good =>
        simp only [List.cons_append, List.cons.injEq] at he
        obtain ⟨rfl, he⟩ := he
        rw [h1 (hg o List.mem_cons_self)]
        simp only
        rw [i2 good bad rest he (fun x hx => hg x (List.mem_cons_of_mem _ hx)) hbad]
        simp

/-- In every reachable objective space, objectives only mention its parameters. -/
theorem objectives_known {mem : BitVec 64 → Param} {s : ObjSpace} (h : ObjReachable mem s) :
    ∀ o ∈ s.objectives, Built o.expression ∧ ObjKnown s o := by
  have one : ∀ (s : ObjSpace) (o : Objective), Built o.expression → (∀ o ∈ s.objectives, Built o.expression ∧ ObjKnown s o) →
      ∀ o' ∈ (s.addObjective o).1.objectives, Built o'.expression ∧ ObjKnown (s.addObjective o).1 o' := by
    intro s o hb hs o' ho'
    by_cases hk : ObjKnown s o
    · rw [(C81_add_objective s o hb).1 hk] at ho' ⊢
      rcases List.mem_append.1 ho' with h | h
      · exact hs o' h
      · rw [List.mem_singleton.1 h]; exact ⟨hb, hk⟩
    · rw [(C81_add_objective s o hb).2 hk] at ho' ⊢
      exact hs o' ho'
  induction h with
  | empty => intro o ho; simp [ObjSpace.empty] at ho
  | @parameter s h _ ih =>
    intro o ho
    obtain ⟨hb, hk⟩ := ih o ho
    refine ⟨hb, fun x hx => ?_⟩
    obtain ⟨i, p, hp⟩ := hk x hx
    refine ⟨i, p, ?_⟩
    unfold Holds at hp ⊢
    simp only [ObjSpace.addParameter, Ctx.add]
    split
    · exact hp
    · simp only
      rw [List.getElem?_append_left (List.getElem?_eq_some_iff.1 hp).1]
      exact hp
  | objective _ hb ih => exact one _ _ hb ih
  | @objectives s os _ hb ih =>
    induction os generalizing s with
    | nil => simpa [ObjSpace.addObjectives] using ih
    | cons o os ih' =>
      rename_i hr
      have hbo := hb o List.mem_cons_self
      have h1 := one s o hbo ih
      unfold ObjSpace.addObjectives
      by_cases hk : ObjKnown s o
      · rw [(C81_add_objective s o hbo).1 hk] at h1 ⊢
        have hr' : ObjReachable mem { s with objectives := s.objectives ++ [o] } := by
          have := ObjReachable.objective hr hbo
          rwa [(C81_add_objective s o hbo).1 hk] at this
        exact ih' hr' (fun o ho => hb o (List.mem_cons_of_mem _ ho)) h1
      · rw [(C81_add_objective s o hbo).2 hk]
        exact ih

/-- **C81** (partial) Computing an objective of an evaluation that has one value per parameter of the space finds every variable
inside the array of values.  Missing: evaluations created before parameters were added (below). -/
theorem C81_variables_found_partial {mem : BitVec 64 → Param} {s : ObjSpace} (h : ObjReachable mem s) {ds : List Datum}
    (hl : ds.length = s.ctx.params.length) {o : Objective} (ho : o ∈ s.objectives) {x : BitVec 64}
    (hx : Occurs x o.expression) :
    ∃ (i : Nat) (p : Param) (d : Datum), Holds s.ctx i x p ∧ ds[i]? = some d ∧
      Env.lookup ⟨some (s.ctx.params.map (·.1)), some (ds.map (·.v))⟩ x = .ok d.v := by
  obtain ⟨hb, hk⟩ := objectives_known h o ho
  have hc := (C40_check_context hb s.handles).1 (objKnown_iff.1 hk)
  obtain ⟨i, v, h1, h2, h3⟩ := C40_checked_variables_found hb hc (values := ds.map (·.v))
    (by simp [ObjSpace.handles, hl]) hx
  simp only [ObjSpace.handles, List.getElem?_map, Option.map_eq_some_iff] at h1 h2
  obtain ⟨⟨x', p⟩, hp, rfl⟩ := h1
  obtain ⟨d, hd, rfl⟩ := h2
  exact ⟨i, p, d, hp, hd, h3⟩

/-! ## A concrete objective space -/

/-- A variable, as an expression. -/
def exVar (h : BitVec 64) : Expr := .var anObj h (exParam h)

theorem exVar_built {h : BitVec 64} (hh : h ≠ 0#64) : Built (exVar h) :=
  .var (o := anObj) (h := h) (p := exParam h) (by simp [createVariable, hh, exVar])

/-- Minimize the first parameter, maximize the second. -/
def exObj : ObjSpace :=
  ((((ObjSpace.empty.addParameter exParam 1#64).1.addParameter exParam 2#64).1.addObjective ⟨exVar 1#64, 0#32⟩).1.addObjective
    ⟨exVar 2#64, 1#32⟩).1

theorem exObj_reachable : ObjReachable exParam exObj :=
  .objective (.objective (.parameter 2#64 (.parameter 1#64 .empty)) (exVar_built (by decide))) (exVar_built (by decide))

/-- Evaluation of the values `a` and `b`. -/
def exEval (a b : Value) : Evaluation := ⟨⟨7#64, [⟨a, false, false, false⟩, ⟨b, false, false, false⟩]⟩, 0#64, 0#32⟩

/-- 0: (1, 5); 1: (1, 6); 2: (2, 6); 3: (1, "x"). -/
def exEvals : BitVec 64 → Evaluation := fun x =>
  if x = 0#64 then exEval (.int 1#64) (.int 5#64) else if x = 1#64 then exEval (.int 1#64) (.int 6#64)
  else if x = 2#64 then exEval (.int 2#64) (.int 6#64) else exEval (.int 1#64) (.str (some [120#8]))

example : compareEvaluations exOps exJen true (fun _ => exObj) exEvals 1#64 0#64 = .ok .better ∧
    compareEvaluations exOps exJen true (fun _ => exObj) exEvals 1#64 2#64 = .ok .better ∧
    compareEvaluations exOps exJen true (fun _ => exObj) exEvals 0#64 2#64 = .ok .notComparable ∧
    compareEvaluations exOps exJen true (fun _ => exObj) exEvals 0#64 3#64 = .ok .notComparable := by decide +kernel

theorem exRated (a b : Value) :
    Rated exOps exJen true exObj (exEval a b).binding.values [a, b] := by
  have h0 : exObj.objectives = [⟨exVar 1#64, 0#32⟩, ⟨exVar 2#64, 1#32⟩] := rfl
  have hc : exObj.ctx.params.map (·.1) = [1#64, 2#64] := by decide +kernel
  unfold Rated
  rw [h0, hc]
  refine ⟨rfl, fun i o v ho hv => ?_⟩
  match i with
  | 0 => cases ho; cases hv; rfl
  | 1 => cases ho; cases hv; rfl
  | i + 2 => simp at ho

/-- The hypotheses of `C60_pareto_partial` and `C61_transitive_partial`. -/
example : Pair exEvals 1#64 0#64 ∧ Rated exOps exJen true exObj (exEvals 1#64).binding.values [.int 1#64, .int 6#64] ∧
    Rated exOps exJen true exObj (exEvals 0#64).binding.values [.int 1#64, .int 5#64] ∧
    Commensurable [.int 1#64, .int 6#64] [.int 1#64, .int 5#64] := by
  refine ⟨⟨by decide, by decide, by decide, by decide⟩, exRated _ _, exRated _ _, fun i a b ha hb => ?_⟩
  match i with
  | 0 => cases ha; cases hb; exact ⟨.int, _, _, rfl, rfl⟩
  | 1 => cases ha; cases hb; exact ⟨.int, _, _, rfl, rfl⟩
  | i + 2 => simp at ha

/-- Doubles: 0: (1, 3); 1: (NaN, 2); otherwise (0, 1). -/
def exNaN : BitVec 64 → Evaluation := fun x =>
  if x = 0#64 then exEval (.float 0x3ff0000000000000#64) (.float 0x4008000000000000#64)
  else if x = 1#64 then exEval (.float 0x7ff8000000000000#64) (.float 0x4000000000000000#64)
  else exEval (.float 0#64) (.float 0x3ff0000000000000#64)

/-- **C61, violated for NaN** BETTER is not transitive: (1, 3) is better than (NaN, 2), which is better than (0, 1), but
(1, 3) is not better than (0, 1); first minimized, second maximized. -/
theorem C61_nan_better :
    compareEvaluations exOps exJen true (fun _ => exObj) exNaN 0#64 1#64 = .ok .better ∧
    compareEvaluations exOps exJen true (fun _ => exObj) exNaN 1#64 2#64 = .ok .better ∧
    compareEvaluations exOps exJen true (fun _ => exObj) exNaN 0#64 2#64 = .ok .notComparable := by decide +kernel

/-- One objective, minimized. -/
def exObj1 : ObjSpace :=
  ((ObjSpace.empty.addParameter exParam 1#64).1.addObjective ⟨exVar 1#64, 0#32⟩).1

/-- **C61, violated for NaN** EQUIVALENT is not transitive: 1.0 and 0.0 are both EQUIVALENT to NaN, but 0.0 is better. -/
theorem C61_nan_equivalent :
    compareEvaluations exOps exJen true (fun _ => exObj1) exNaN 0#64 1#64 = .ok .equivalent ∧
    compareEvaluations exOps exJen true (fun _ => exObj1) exNaN 1#64 2#64 = .ok .equivalent ∧
    compareEvaluations exOps exJen true (fun _ => exObj1) exNaN 0#64 2#64 = .ok .worse := by decide +kernel

/-- The three answers of C62 on the same evaluation. -/
example : getObjectiveValues exOps exJen true exObj (exEvals 0#64).binding.values (some [.none, .none]) true =
      .ok (some [.int 1#64, .int 5#64], some 2) ∧
    getObjectiveValues exOps exJen true exObj (exEvals 0#64).binding.values (some [.none, .none, .none]) true =
      .err .invalidValue ∧
    getObjectiveValues exOps exJen true exObj (exEvals 0#64).binding.values (some [.none]) true = .ub := by decide +kernel

/-- **C81, violated** An evaluation of a space with one parameter, then a second parameter and an objective on it: computing this
objective reads past the values of the evaluation. -/
theorem C81_reads_past :
    ∃ s, ObjReachable exParam s ∧ ∃ b, createBinding exJen true 7#64 s.ctx (some [exInt 3#64 false]) = .ok b ∧
      ∃ s', s' = ((s.addParameter exParam 2#64).1.addObjective ⟨exVar 2#64, 0#32⟩).1 ∧ ObjReachable exParam s' ∧
        getObjectiveValue exOps exJen true s' b.values 0 = .ub := by
  refine ⟨(ObjSpace.empty.addParameter exParam 1#64).1, .parameter 1#64 .empty, ⟨7#64, [exInt 3#64 false]⟩, by decide +kernel,
    _, rfl, .objective (.parameter 2#64 (.parameter 1#64 .empty)) (exVar_built (by decide)), by decide +kernel⟩

end CCS.Props
