import Verif.Lemmas.Tuner
import Verif.Props.Evaluation
import Verif.Props.SpaceConfig

/-!
# C63–C66: tuners

`Spec.IsFront` (the Pareto front of a history, in order of arrival) is in `Verif/Spec/Tuner.lean`.
-/

namespace CCS.Props

open CCS Spec

section
variable (ops : FloatOps) (jen : Bytes → BitVec 32) (little : Bool)
variable (spaces : BitVec 64 → ObjSpace) (evals : BitVec 64 → Evaluation)

/-- What a tuner sees of evaluations. -/
def evalEnv : TunerEnv := ⟨fun e => (evals e).result, compareEvaluations ops jen little spaces evals⟩

/-- What a features tuner sees of evaluations. -/
def featuresEnv (feats : BitVec 64 → Binding) (fevals : BitVec 64 → FeaturesEvaluation) : TunerEnv :=
  ⟨fun e => (fevals e).evaluation.result, compareFeaturesEvaluations ops jen little spaces feats fevals⟩

theorem tied_symm {vs ws : List Value} (h : Tied vs ws) : Tied ws vs := fun i a b ha hb => by
  obtain ⟨t, x, h1, h2⟩ := h i b a hb ha
  exact ⟨t, x, h2, h1⟩

theorem dominates_irrefl {os : List Objective} {vs : List Value} : ¬ Dominates os vs vs := by
  rintro ⟨-, i, o, a, b, -, ha, hb, t, x, y, hx, hy, h⟩
  rw [ha] at hb; cases hb
  rw [hx] at hy; cases hy
  split at h <;> omega

/-- Dominance between rated evaluations behaves as the theory of fronts wants. -/
theorem ranks_of {cmp : Compare} {S : BitVec 64 → Prop} {os : List Objective} {vals : BitVec 64 → List Value}
    (hl : ∀ x, S x → (vals x).length = os.length) (hn : ∀ x, S x → Commensurable (vals x) (vals x))
    (ha : ∀ x y, S x → S y → ∃ r, cmp x y = .ok r ∧ (r = .better ↔ Dominates os (vals x) (vals y)) ∧
      (r = .worse ↔ Dominates os (vals y) (vals x)) ∧ (r = .equivalent ↔ Tied (vals x) (vals y))) :
    Ranks cmp S (fun x y => Dominates os (vals x) (vals y)) (fun x y => Tied (vals x) (vals y)) where
  answers := ha
  tie_refl x hx i a b h1 h2 := by
    obtain ⟨t, p, q, h3, h4⟩ := hn x hx i a b h1 h2
    rw [h1] at h2; cases h2
    exact ⟨t, p, h3, h3⟩
  tie_symm x y _ _ h := tied_symm h
  dom_dom x y z hx hy hz h1 h2 := (dominates_weakly (hl x hx) (hl y hy) (hl z hz)).1 h1 h2.1
  dom_tie x y z hx hy hz h1 h2 := (dominates_weakly (hl x hx) (hl y hy) (hl z hz)).1 h1 (tied_weakly h2)
  tie_dom x y z hx hy hz h1 h2 := (dominates_weakly (hl x hx) (hl y hy) (hl z hz)).2 (tied_weakly h1) h2
  tie_tie x y z hx hy hz h1 h2 i a c h3 h4 := by
    have hi : i < (vals y).length := by
      rw [hl y hy, ← hl x hx]; exact (List.getElem?_eq_some_iff.1 h3).1
    exact (beats_trans (o := ⟨.literal ⟨0#64, []⟩ .none, 0#32⟩)).2.2.2
      (h1 i a _ h3 (List.getElem?_eq_getElem hi)) (h2 i _ c (List.getElem?_eq_getElem hi) h4)

theorem compare_answers {sp : BitVec 64} {x y : BitVec 64} {vs ws : List Value}
    (rx : (evals x).result = 0#32) (ry : (evals y).result = 0#32)
    (hx : (evals x).binding.context = sp) (hy : (evals y).binding.context = sp)
    (hv : Rated ops jen little (spaces sp) (evals x).binding.values vs)
    (hw : Rated ops jen little (spaces sp) (evals y).binding.values ws) (hc : Commensurable vs ws) :
    ∃ r, compareEvaluations ops jen little spaces evals x y = .ok r ∧
      (r = .better ↔ Dominates (spaces sp).objectives vs ws) ∧ (r = .worse ↔ Dominates (spaces sp).objectives ws vs) ∧
      (r = .equivalent ↔ Tied vs ws) := by
  by_cases hxy : x = y
  · subst hxy
    cases rated_unique hv hw
    refine ⟨.equivalent, (C60_refusals ops jen little spaces evals x x).1, ?_, ?_, ?_⟩
    · simp [dominates_irrefl]
    · simp [dominates_irrefl]
    · simp only [true_iff]
      intro i a b h1 h2
      obtain ⟨t, p, q, h3, h4⟩ := hc i a b h1 h2
      rw [h1] at h2; cases h2
      exact ⟨t, p, h3, h3⟩
  · obtain ⟨r, h1, h2, h3, h4, -⟩ := C60_pareto_partial ops jen little spaces evals ⟨hxy, rx, ry, hx.trans hy.symm⟩
      (congrArg spaces hx.symm) hv hw hc
    exact ⟨r, h1, h2, h3, h4⟩

/-! ## C63: the optima are the Pareto front of the history -/

/-- **C63** (partial) After any sequence of calls, telling any evaluations of one objective space in any batches, the history is the
list of the successful ones and the optima are its Pareto front, in order of arrival and with the earliest of tied
evaluations.  The objective values have to be numbers of the same types and evaluations must not change between
calls.  Missing for the full claim: NaN, for which it is false (below). -/
theorem C63_pareto_front_partial (sp : BitVec 64) (vals : BitVec 64 → List Value) (batches : List (List (BitVec 64)))
    (h : AllRated ops jen little (spaces sp) sp evals vals batches.flatten) :
    let t := Tuner.empty.tells (batches.map fun es => (evalEnv ops jen little spaces evals, es))
    t.history = batches.flatten.filter (fun e => (evals e).result == 0#32) ∧
    IsFront (fun x y => Dominates (spaces sp).objectives (vals x) (vals y)) (fun x y => Tied (vals x) (vals y))
      t.history t.optima := by
  have hr := ranks_of (cmp := compareEvaluations ops jen little spaces evals)
    (S := fun e => e ∈ batches.flatten ∧ (evals e).result = 0#32) (os := (spaces sp).objectives) (vals := vals)
    (fun x hx => (h.rated x hx.1 hx.2).1) (fun x hx => h.numbers x hx.1 hx.2 x hx.1 hx.2)
    (fun x y hx hy => compare_answers ops jen little spaces evals hx.2 hy.2 (h.space x hx.1 hx.2) (h.space y hy.1 hy.2)
      (h.rated x hx.1 hx.2) (h.rated y hy.1 hy.2) (h.numbers x hx.1 hx.2 y hy.1 hy.2))
  obtain ⟨h1, h2⟩ := ranked_tells hr (fun e => (evals e).result) batches (ranked_empty _ _ _)
    fun e he => ⟨h.notNull e he, fun hres => ⟨he, hres⟩⟩
  refine ⟨?_, h2.front⟩
  simpa [Tuner.empty, evalEnv] using h1

/-- **C63** Every entry of the history is dominated by or tied with one of the optima. -/
theorem C63_covered_partial (sp : BitVec 64) (vals : BitVec 64 → List Value) (batches : List (List (BitVec 64)))
    (h : AllRated ops jen little (spaces sp) sp evals vals batches.flatten) :
    let t := Tuner.empty.tells (batches.map fun es => (evalEnv ops jen little spaces evals, es))
    ∀ e ∈ t.history, ∃ o ∈ t.optima, Dominates (spaces sp).objectives (vals o) (vals e) ∨ Tied (vals o) (vals e) := by
  have hr := ranks_of (cmp := compareEvaluations ops jen little spaces evals)
    (S := fun e => e ∈ batches.flatten ∧ (evals e).result = 0#32) (os := (spaces sp).objectives) (vals := vals)
    (fun x hx => (h.rated x hx.1 hx.2).1) (fun x hx => h.numbers x hx.1 hx.2 x hx.1 hx.2)
    (fun x y hx hy => compare_answers ops jen little spaces evals hx.2 hy.2 (h.space x hx.1 hx.2) (h.space y hy.1 hy.2)
      (h.rated x hx.1 hx.2) (h.rated y hy.1 hy.2) (h.numbers x hx.1 hx.2 y hy.1 hy.2))
  exact (ranked_tells hr (fun e => (evals e).result) batches (ranked_empty _ _ _)
    fun e he => ⟨h.notNull e he, fun hres => ⟨he, hres⟩⟩).2.cover

/-- **C63** Reading the optima or the history into an array: refused when it is too small, otherwise all of them followed by NULL. -/
theorem C63_listing (t : Tuner) (n : Nat) (count : Bool) :
    (n < t.optima.length → t.getOptima (some n) count = .err .invalidValue) ∧
    (t.optima.length ≤ n → ∃ a c, t.getOptima (some n) count = .ok (some a, c) ∧ a.length = n ∧
      a.take t.optima.length = t.optima ∧ (∀ i, t.optima.length ≤ i → i < n → a[i]? = some 0#64) ∧
      (count = true → c = some t.optima.length)) ∧
    (n < t.history.length → t.getHistory (some n) count = .err .invalidValue) ∧
    (t.history.length ≤ n → ∃ a c, t.getHistory (some n) count = .ok (some a, c) ∧ a.length = n ∧
      a.take t.history.length = t.history ∧ (∀ i, t.history.length ≤ i → i < n → a[i]? = some 0#64) ∧
      (count = true → c = some t.history.length)) ∧
    t.getOptima none true = .ok (none, some t.optima.length) ∧
    t.getHistory none true = .ok (none, some t.history.length) := by
  have key : ∀ l : List (BitVec 64), (n < l.length → listing l (some n) count = .err .invalidValue) ∧
      (l.length ≤ n → ∃ a c, listing l (some n) count = .ok (some a, c) ∧ a.length = n ∧ a.take l.length = l ∧
        (∀ i, l.length ≤ i → i < n → a[i]? = some 0#64) ∧ (count = true → c = some l.length)) := by
    intro l
    unfold listing
    constructor
    · intro hl
      simp only
      rw [if_pos hl]
    · intro hl
      simp only
      rw [if_neg (by omega)]
      refine ⟨_, _, rfl, ?_, ?_, ?_, ?_⟩
      · simp; omega
      · simp
      · intro i h1 h2
        rw [List.getElem?_append_right h1, List.getElem?_replicate, if_pos (by omega)]
      · intro hc; rw [if_pos hc]
  exact ⟨(key _).1, (key _).2, (key _).1, (key _).2, rfl, rfl⟩

/-- **C63, violated for NaN** With one objective, an evaluation whose value is NaN, told first, stays the only optimum whatever
doubles are told afterwards. -/
theorem C63_nan_blocks (sp : BitVec 64) (val : BitVec 64 → F64) (n : BitVec 64) (hn : num .float (val n) = none)
    (es : List (BitVec 64)) (h : ∀ e ∈ n :: es, e ≠ 0#64 ∧ (evals e).result = 0#32 ∧ (evals e).binding.context = sp ∧
      Rated ops jen little (spaces sp) (evals e).binding.values [.float (val e)]) :
    (Tuner.empty.tell (evalEnv ops jen little spaces evals) (n :: es)).1 = ⟨n :: es, [n]⟩ := by
  obtain ⟨n0, nr, nsp, nv⟩ := h n List.mem_cons_self
  have hcmp : ∀ e ∈ es, compareEvaluations ops jen little spaces evals e n = .ok .equivalent := fun e he => by
    obtain ⟨-, er, esp, ev⟩ := h e (List.mem_cons_of_mem _ he)
    by_cases hen : e = n
    · subst hen; exact (C60_refusals ops jen little spaces evals e e).1
    · exact C61_swap ops jen little spaces evals (C60_nan ops jen little spaces evals
        ⟨fun e' => hen e'.symm, nr, er, nsp.trans esp.symm⟩ (congrArg spaces nsp.symm) hn nv ev)
  have hrest : ∀ (l hist : List (BitVec 64)), (∀ e ∈ l, e ∈ es) →
      ((⟨hist, [n]⟩ : Tuner).tell (evalEnv ops jen little spaces evals) l).1 = ⟨hist ++ l, [n]⟩ := by
    intro l
    induction l with
    | nil => intro hist _; simp [Tuner.tell]
    | cons e l ih =>
      intro hist hl
      have he := hl e List.mem_cons_self
      obtain ⟨e0, er, -⟩ := h e (List.mem_cons_of_mem _ he)
      have hlearn : (⟨hist, [n]⟩ : Tuner).learn (evalEnv ops jen little spaces evals) e = .ok ⟨hist ++ [e], [n]⟩ := by
        unfold Tuner.learn keepLoop evalEnv
        simp only [hcmp e he]
        rfl
      unfold Tuner.tell
      rw [if_neg e0, if_neg (by simpa [evalEnv] using er), hlearn]
      simp only
      rw [ih _ fun x hx => hl x (List.mem_cons_of_mem _ hx)]
      simp
  have hfirst : Tuner.empty.learn (evalEnv ops jen little spaces evals) n = .ok ⟨[n], [n]⟩ := rfl
  unfold Tuner.tell
  rw [if_neg n0, if_neg (by simpa [evalEnv] using nr), hfirst]
  simp only
  rw [hrest es [n] fun _ h => h]
  rfl

/-! ## C66: one front per features -/

/-- **C66** The optima and the history reported for some features are those of a tuner that was only told the evaluations with
these features, whatever their objective values (NaN, errors and changes excluded from the comparison with other
features since evaluations with other features are never compared). -/
theorem C66_independent (feats : BitVec 64 → Binding) (fevals : BitVec 64 → FeaturesEvaluation) (sp f : BitVec 64)
    (hf : f ≠ 0#64) (batches : List (List (BitVec 64)))
    (h0 : ∀ e ∈ batches.flatten, e ≠ 0#64 ∧
      ((fevals e).evaluation.result = 0#32 → (fevals e).evaluation.binding.context = sp))
    (hub : ∀ x ∈ batches.flatten, ∀ y ∈ batches.flatten,
      compareFeaturesEvaluations ops jen little spaces feats fevals x y ≠ .ub) :
    let env := featuresEnv ops jen little spaces feats fevals
    let t := Tuner.empty.tells (batches.map fun es => (env, es))
    let t' := Tuner.empty.tells ((batches.map (·.filter (sameFeatures little feats fevals f))).map fun es => (env, es))
    selected little feats fevals f t.optima = t'.optima ∧ selected little feats fevals f t.history = t'.history := by
  intro env t t'
  have htot := bindingCmp_total little feats
  have hc := tells_class env (sameFeatures little feats fevals f)
    (fun e => e ∈ batches.flatten ∧ (fevals e).evaluation.result = 0#32) (fun e o he ho => by
      refine ⟨hub e he.1 o ho.1, fun hne => ?_⟩
      have hns : ¬ SameBinding (feats (fevals e).features) (feats (fevals o).features) := fun hs => hne (by
        unfold sameFeatures
        have h1 := htot.eq_iff f (fevals e).features
        have h2 := htot.eq_iff f (fevals o).features
        rw [Bool.eq_iff_iff, beq_iff_eq, beq_iff_eq, h1, h2]
        unfold SameBinding at hs ⊢
        rw [hs.1, hs.2])
      refine (C60_features ops jen little spaces feats fevals).2 ⟨fun e' => ?_, he.2, ho.2, ?_⟩ hns
      · subst e'; exact hne rfl
      · exact ((h0 e he.1).2 he.2).trans ((h0 o ho.1).2 ho.2).symm)
    batches Tuner.empty (by simp [Tuner.empty]) fun e he => ⟨(h0 e he).1, fun hres => ⟨he, hres⟩⟩
  have e1 : Tuner.empty.only (sameFeatures little feats fevals f) = Tuner.empty := rfl
  rw [e1] at hc
  unfold selected
  rw [if_neg hf, if_neg hf]
  exact ⟨congrArg Tuner.optima hc, congrArg Tuner.history hc⟩

/-- **C66** (partial) For every features value, the optima reported are the Pareto front of the history reported, which is the list of
the successful evaluations told with these features.  Missing for the full claim: NaN, as in C63. -/
theorem C66_front_partial (feats : BitVec 64 → Binding) (fevals : BitVec 64 → FeaturesEvaluation) (sp f : BitVec 64)
    (hf : f ≠ 0#64) (vals : BitVec 64 → List Value) (batches : List (List (BitVec 64)))
    (h : AllRatedFor ops jen little (spaces sp) sp feats fevals vals batches.flatten) :
    let t := Tuner.empty.tells (batches.map fun es => (featuresEnv ops jen little spaces feats fevals, es))
    (∃ a n, t.getFeaturesHistory little feats fevals f none true = .ok (none, some n) ∧
      t.getFeaturesHistory little feats fevals f (some n) true = .ok (some a, some n) ∧
      (∀ e, e ∈ a ↔ e ∈ batches.flatten ∧ (fevals e).evaluation.result = 0#32 ∧
        SameBinding (feats f) (feats (fevals e).features)) ∧
      a.Sublist batches.flatten ∧
      ∃ b m, t.getFeaturesOptima little feats fevals f none true = .ok (none, some m) ∧
        t.getFeaturesOptima little feats fevals f (some m) true = .ok (some b, some m) ∧
        IsFront (fun x y => Dominates (spaces sp).objectives (vals x) (vals y)) (fun x y => Tied (vals x) (vals y))
          a b) := by
  intro t
  have htot := bindingCmp_total little feats
  have hsame : ∀ x y, SameBinding (feats (fevals x).features) (feats (fevals y).features) →
      compareFeaturesEvaluations ops jen little spaces feats fevals x y =
        compareEvaluations ops jen little spaces (fun a => (fevals a).evaluation) x y :=
    fun x y hs => (C60_features ops jen little spaces feats fevals).1 hs
  have hans : ∀ x y, x ∈ batches.flatten → y ∈ batches.flatten → (fevals x).evaluation.result = 0#32 →
      (fevals y).evaluation.result = 0#32 → SameBinding (feats (fevals x).features) (feats (fevals y).features) →
      ∃ r, compareFeaturesEvaluations ops jen little spaces feats fevals x y = .ok r ∧
        (r = .better ↔ Dominates (spaces sp).objectives (vals x) (vals y)) ∧
        (r = .worse ↔ Dominates (spaces sp).objectives (vals y) (vals x)) ∧
        (r = .equivalent ↔ Tied (vals x) (vals y)) := by
    intro x y hx hy rx ry hs
    rw [hsame x y hs]
    exact compare_answers ops jen little spaces (fun a => (fevals a).evaluation) rx ry (h.space x hx rx) (h.space y hy ry)
      (h.rated x hx rx) (h.rated y hy ry) (h.numbers x hx rx y hy ry hs)
  have hub : ∀ x ∈ batches.flatten, ∀ y ∈ batches.flatten,
      compareFeaturesEvaluations ops jen little spaces feats fevals x y ≠ .ub := by
    intro x hx y hy
    by_cases hxy : x = y
    · unfold compareFeaturesEvaluations; rw [if_pos hxy]; simp
    by_cases hres : (fevals x).evaluation.result ≠ 0#32 ∨ (fevals y).evaluation.result ≠ 0#32
    · unfold compareFeaturesEvaluations; rw [if_neg hxy, if_pos hres]; simp
    · have rx : (fevals x).evaluation.result = 0#32 := Classical.byContradiction fun e => hres (.inl e)
      have ry : (fevals y).evaluation.result = 0#32 := Classical.byContradiction fun e => hres (.inr e)
      by_cases hs : SameBinding (feats (fevals x).features) (feats (fevals y).features)
      · obtain ⟨r, hr, -⟩ := hans x y hx hy rx ry hs
        rw [hr]; simp
      · rw [(C60_features ops jen little spaces feats fevals).2
          ⟨hxy, rx, ry, (h.space x hx rx).trans (h.space y hy ry).symm⟩ hs]
        simp
  obtain ⟨ho, hh⟩ := C66_independent ops jen little spaces feats fevals sp f hf batches
    (fun e he => ⟨h.notNull e he, h.space e he⟩) hub
  have hp : ∀ e, sameFeatures little feats fevals f e = true ↔ SameBinding (feats f) (feats (fevals e).features) := by
    intro e
    unfold sameFeatures
    rw [beq_iff_eq]
    exact htot.eq_iff f (fevals e).features
  have hmem : ∀ e ∈ (batches.map (·.filter (sameFeatures little feats fevals f))).flatten,
      e ∈ batches.flatten ∧ SameBinding (feats f) (feats (fevals e).features) := by
    intro e he
    rw [← List.filter_flatten] at he
    obtain ⟨h1, h2⟩ := List.mem_filter.1 he
    exact ⟨h1, (hp e).1 h2⟩
  have hcls : ∀ x y, SameBinding (feats f) (feats (fevals x).features) → SameBinding (feats f) (feats (fevals y).features) →
      SameBinding (feats (fevals x).features) (feats (fevals y).features) := by
    intro x y h1 h2
    exact ⟨h1.1.symm.trans h2.1, h1.2.symm.trans h2.2⟩
  have hr := ranks_of (cmp := compareFeaturesEvaluations ops jen little spaces feats fevals)
    (S := fun e => e ∈ batches.flatten ∧ (fevals e).evaluation.result = 0#32 ∧
      SameBinding (feats f) (feats (fevals e).features)) (os := (spaces sp).objectives) (vals := vals)
    (fun x hx => (h.rated x hx.1 hx.2.1).1)
    (fun x hx => h.numbers x hx.1 hx.2.1 x hx.1 hx.2.1 (hcls x x hx.2.2 hx.2.2))
    (fun x y hx hy => hans x y hx.1 hy.1 hx.2.1 hy.2.1 (hcls x y hx.2.2 hy.2.2))
  obtain ⟨h1, h2⟩ := ranked_tells hr (fun e => (fevals e).evaluation.result)
    (batches.map (·.filter (sameFeatures little feats fevals f))) (ranked_empty _ _ _)
    fun e he => ⟨h.notNull e (hmem e he).1, fun hres => ⟨(hmem e he).1, hres, (hmem e he).2⟩⟩
  have hlist : ∀ l : List (BitVec 64), listing l (some l.length) true = .ok (some l, some l.length) := by
    intro l; simp [listing]
  have h1' : (Tuner.empty.tells ((batches.map (·.filter (sameFeatures little feats fevals f))).map fun es =>
      (featuresEnv ops jen little spaces feats fevals, es))).history =
      (batches.flatten.filter (sameFeatures little feats fevals f)).filter
        (fun e => (fevals e).evaluation.result == 0#32) := by
    rw [List.filter_flatten]
    simpa [Tuner.empty, featuresEnv] using h1
  refine ⟨_, _, rfl, hlist _, fun e => ?_, ?_, _, _, rfl, hlist _, ?_⟩
  · rw [hh, h1', List.mem_filter, List.mem_filter, beq_iff_eq, hp]
    constructor
    · rintro ⟨⟨a, b⟩, c⟩; exact ⟨a, c, b⟩
    · rintro ⟨a, c, b⟩; exact ⟨⟨a, b⟩, c⟩
  · rw [hh, h1']
    exact List.filter_sublist.trans List.filter_sublist
  · rw [hh, ho]
    exact h2.front

end

/-! ## C64: nothing is lost -/

/-- **C64** The history is the list of the successful evaluations told, in order, whatever the comparisons answer and even when
evaluations change between calls; a call stops at a NULL evaluation. -/
theorem C64_history (calls : List (TunerEnv × List (BitVec 64))) (t : Tuner)
    (hub : ∀ c ∈ calls, ∀ x y, c.1.compare x y ≠ .ub) :
    (t.tells calls).history = t.history ++ calls.flatMap fun c =>
      (c.2.takeWhile (· != 0#64)).filter fun e => c.1.result e == 0#32 := by
  have one : ∀ (env : TunerEnv) (es : List (BitVec 64)) (t : Tuner), (∀ x y, env.compare x y ≠ .ub) →
      (t.tell env es).1.history = t.history ++ (es.takeWhile (· != 0#64)).filter fun e => env.result e == 0#32 := by
    intro env es
    induction es with
    | nil => intro t _; simp [Tuner.tell]
    | cons e es ih =>
      intro t hub
      unfold Tuner.tell
      by_cases h0 : e = 0#64
      · rw [if_pos h0]; simp [h0]
      · rw [if_neg h0]
        have htw : (e :: es).takeWhile (· != 0#64) = e :: es.takeWhile (· != 0#64) := by simp [h0]
        rw [htw]
        by_cases hres : env.result e = 0#32
        · obtain ⟨r, hk⟩ := keepLoop_defined env.compare e false t.optima fun o _ => hub e o
          have hl : t.learn env e = .ok ⟨t.history ++ [e], if r.1 then r.2 else r.2 ++ [e]⟩ := by
            unfold Tuner.learn; rw [hk]; rfl
          rw [if_neg (by simpa using hres), hl]
          simp only
          rw [ih _ hub]
          simp [hres]
        · rw [if_pos (by simpa using hres), ih _ hub, List.filter_cons, if_neg (by simpa using hres)]
  induction calls generalizing t with
  | nil => simp [Tuner.tells]
  | cons c cs ih =>
    unfold Tuner.tells
    rw [ih _ fun c' h => hub c' (List.mem_cons_of_mem _ h), one c.1 c.2 t (hub c List.mem_cons_self),
      List.flatMap_cons, List.append_assoc]

/-- **C64** (partial) When no comparison fails, an evaluation stops being an optimum only if one compared BETTER was told.
Missing for the full claim: failing comparisons, for which it is false (below). -/
theorem C64_optima_kept_partial (env : TunerEnv) :
    ∀ (es : List (BitVec 64)) (t : Tuner), (∀ x ∈ es, ∀ y, y ∈ t.optima ∨ y ∈ es → ∃ r, env.compare x y = .ok r) →
      ∀ o ∈ t.optima,
        o ∈ (t.tell env es).1.optima ∨ ∃ e ∈ es, env.result e = 0#32 ∧ env.compare e o = .ok .better
  | [], t, _, o, ho => .inl ho
  | e :: es, t, hc, o, ho => by
    unfold Tuner.tell
    by_cases h0 : e = 0#64
    · rw [if_pos h0]; exact .inl ho
    · rw [if_neg h0]
      by_cases hres : env.result e = 0#32
      · obtain ⟨⟨d, ks⟩, hk⟩ := keepLoop_defined env.compare e false t.optima fun o ho => by
          obtain ⟨r, hr⟩ := hc e List.mem_cons_self o (.inl ho); rw [hr]; simp
        have hl : t.learn env e = .ok ⟨t.history ++ [e], if d then ks else ks ++ [e]⟩ := by
          unfold Tuner.learn; rw [hk]; rfl
        rw [if_neg (by simpa using hres), hl]
        simp only
        obtain ⟨hsub, hfate, -⟩ := keepLoop_fate env.compare e false t.optima d ks hk
        have hc' : ∀ x ∈ es, ∀ y, y ∈ (if d then ks else ks ++ [e]) ∨ y ∈ es → ∃ r, env.compare x y = .ok r := by
          intro x hx y hy
          refine hc x (List.mem_cons_of_mem _ hx) y ?_
          rcases hy with hy | hy
          · cases d
            · rcases List.mem_append.1 hy with h | h
              · exact .inl (hsub.subset h)
              · rw [List.mem_singleton.1 h]; exact .inr List.mem_cons_self
            · exact .inl (hsub.subset hy)
          · exact .inr (List.mem_cons_of_mem _ hy)
        rcases hfate o ho with h | h | ⟨x, h⟩
        · have hm : o ∈ (if d then ks else ks ++ [e]) := by cases d <;> simp [h]
          rcases C64_optima_kept_partial env es ⟨t.history ++ [e], if d then ks else ks ++ [e]⟩ hc' o hm with
            h | ⟨e', h1, h2⟩
          · exact .inl h
          · exact .inr ⟨e', List.mem_cons_of_mem _ h1, h2⟩
        · exact .inr ⟨e, List.mem_cons_self, hres, h⟩
        · obtain ⟨r, hr⟩ := hc e List.mem_cons_self o (.inl ho); rw [hr] at h; cases h
      · rw [if_pos (by simpa using hres)]
        rcases C64_optima_kept_partial env es t (fun x hx y hy => hc x (List.mem_cons_of_mem _ hx) y
            (hy.imp_right (List.mem_cons_of_mem _))) o ho with h | ⟨e', h1, h2⟩
        · exact .inl h
        · exact .inr ⟨e', List.mem_cons_of_mem _ h1, h2⟩

/-- **C64** (partial) A successful evaluation told becomes an optimum unless it is EQUIVALENT to or WORSE than one, when no
comparison fails. -/
theorem C64_becomes_optimum_partial (env : TunerEnv) (t : Tuner) (e : BitVec 64) (h0 : e ≠ 0#64)
    (hres : env.result e = 0#32) (hc : ∀ o ∈ t.optima, ∃ r, env.compare e o = .ok r) :
    e ∈ (t.tell env [e]).1.optima ∨ ∃ o ∈ t.optima, env.compare e o = .ok .equivalent ∨ env.compare e o = .ok .worse := by
  obtain ⟨⟨d, ks⟩, hk⟩ := keepLoop_defined env.compare e false t.optima fun o ho => by
    obtain ⟨r, hr⟩ := hc o ho; rw [hr]; simp
  have hl : t.learn env e = .ok ⟨t.history ++ [e], if d then ks else ks ++ [e]⟩ := by
    unfold Tuner.learn; rw [hk]; rfl
  unfold Tuner.tell
  rw [if_neg h0, if_neg (by simpa using hres), hl]
  simp only [Tuner.tell]
  cases d with
  | false => exact .inl (by simp)
  | true =>
    rcases (keepLoop_fate env.compare e false t.optima true ks hk).2.2 rfl with h | ⟨o, ho, h | h | ⟨x, h⟩⟩
    · cases h
    · exact .inr ⟨o, ho, .inl h⟩
    · exact .inr ⟨o, ho, .inr h⟩
    · obtain ⟨r, hr⟩ := hc o ho; rw [hr] at h; cases h

/-- **C64, violated** A failing comparison with an optimum removes this optimum, without adding the evaluation told. -/
theorem C64_failure_removes (env : TunerEnv) (h o : List (BitVec 64)) (x e : BitVec 64) (he : e ≠ 0#64)
    (hr : env.result e = 0#32) {err : Err} (hc : env.compare e x = .err err) :
    (⟨h, x :: o⟩ : Tuner).tell env [e] = (⟨h ++ [e], o⟩, .ok ()) := by
  have hl : (⟨h, x :: o⟩ : Tuner).learn env e = .ok ⟨h ++ [e], o⟩ := by
    unfold Tuner.learn keepLoop
    simp only [hc]
    rw [keepLoop_true]
    rfl
  unfold Tuner.tell
  rw [if_neg he, if_neg (by simpa using hr), hl]
  rfl

/-! ## C65: suggestions -/

section
variable (ops : FloatOps) (jen : Bytes → BitVec 32) (little : Bool)

/-- **C65** With optima, the suggestion is the configuration of one of them, and each of them is suggested for some draw; nothing is
sampled. -/
theorem C65_from_optima (configuration : BitVec 64 → BitVec 64) (t : Tuner) (s : Space) (time : Nat)
    (h : t.optima ≠ []) :
    (∀ draw, ∃ o ∈ t.optima, t.suggest ops jen little configuration s draw time = (s, .ok (.known (configuration o)))) ∧
    (t.optima.length < 4294967296 → ∀ o ∈ t.optima, ∃ draw,
      t.suggest ops jen little configuration s draw time = (s, .ok (.known (configuration o)))) := by
  have hl : 0 < t.optima.length := List.length_pos_iff.2 h
  constructor
  · intro draw
    have hi := Nat.mod_lt draw.toNat hl
    refine ⟨_, List.getElem_mem hi, ?_⟩
    unfold Tuner.suggest
    rw [if_pos hl, List.getElem?_eq_getElem hi]
  · intro hs o ho
    obtain ⟨i, hi, rfl⟩ := List.mem_iff_getElem.1 ho
    refine ⟨BitVec.ofNat 64 i, ?_⟩
    unfold Tuner.suggest
    have : (BitVec.ofNat 64 i).toNat % t.optima.length = i := by
      rw [BitVec.toNat_ofNat, Nat.mod_eq_of_lt (a := i) (by omega), Nat.mod_eq_of_lt hi]
    rw [if_pos hl, this, List.getElem?_eq_getElem hi]

variable (mem : BitVec 64 → Param) (mk : Nat → Param → Out Dist)

/-- **C65** Without optima, on any configuration space obtained with the API, the suggestion is what sampling one configuration gives. -/
theorem C65_fresh (configuration : BitVec 64 → BitVec 64) (t : Tuner) {s : Space} (hmk : OneDimensional mk)
    (hr : Reachable ops jen little mem mk s) (draw : BitVec 64) (time : Nat) (h : t.optima = [])
    {s' : Space} {vs : List (List Value)} {r : Out Unit} (hs : sampleMany ops jen little s time 1 = (s', vs, r)) :
    (r = .ok () → ∃ v, vs = [v] ∧ t.suggest ops jen little configuration s draw time = (s', .ok (.fresh v))) ∧
    (∀ e, r = .err e → t.suggest ops jen little configuration s draw time = (s', .err e)) ∧
    (r = .ub → t.suggest ops jen little configuration s draw time = (s', .ub)) := by
  have e0 : t.suggest ops jen little configuration s draw time = askOne ops jen little s time := by
    unfold Tuner.suggest; rw [h]; rfl
  rw [e0]
  unfold askOne
  rw [hs]
  refine ⟨?_, ?_, ?_⟩
  · rintro rfl
    obtain ⟨m, -, -, -, h1 | h1 | h1⟩ := C56_many_samples ops jen little mem mk hmk hr time 1 (by decide) (by decide) hs
    · obtain ⟨v, rfl⟩ := List.length_eq_one_iff.1 h1.2
      exact ⟨v, rfl, rfl⟩
    · cases h1.2.2
    · rcases h1.2.2 with ⟨e, -, h2⟩ | ⟨-, h2⟩ <;> cases h2
  · rintro e rfl
    cases vs <;> rfl
  · rintro rfl
    cases vs <;> rfl

/-- **C65** The same for features tuners, among the optima with the features given. -/
theorem C65_features (feats : BitVec 64 → Binding) (evals : BitVec 64 → FeaturesEvaluation) (t : Tuner) (f : BitVec 64)
    (hf : f ≠ 0#64) (s : Space) (time : Nat) (draw : BitVec 64) :
    ((∃ o ∈ t.optima, SameBinding (feats f) (feats (evals o).features)) →
      ∃ o ∈ t.optima, SameBinding (feats f) (feats (evals o).features) ∧
        t.suggestFor ops jen little feats evals (.ok true) f s draw time =
          (s, .ok (.known (evals o).evaluation.configuration))) ∧
    ((∀ o ∈ t.optima, ¬ SameBinding (feats f) (feats (evals o).features)) →
      t.suggestFor ops jen little feats evals (.ok true) f s draw time = askOne ops jen little s time) ∧
    t.suggestFor ops jen little feats evals (.ok false) f s draw time = (s, .err .invalidFeatures) := by
  have hp : ∀ e, sameFeatures little feats evals f e = true ↔ SameBinding (feats f) (feats (evals e).features) := by
    intro e
    unfold sameFeatures
    rw [beq_iff_eq]
    exact (bindingCmp_total little feats).eq_iff f (evals e).features
  refine ⟨?_, ?_, ?_⟩
  · rintro ⟨o, ho, hs⟩
    have hl : 0 < (t.optima.filter (sameFeatures little feats evals f)).length :=
      List.length_pos_of_mem (List.mem_filter.2 ⟨ho, (hp o).2 hs⟩)
    have hi := Nat.mod_lt draw.toNat hl
    obtain ⟨h1, h2⟩ := List.mem_filter.1 (List.getElem_mem hi)
    refine ⟨_, h1, (hp _).1 h2, ?_⟩
    unfold Tuner.suggestFor
    rw [if_neg hf]
    simp only
    rw [if_pos hl, pickLoop_filter, List.getElem?_eq_getElem hi]
  · intro hno
    have hl : (t.optima.filter (sameFeatures little feats evals f)) = [] :=
      List.filter_eq_nil_iff.2 fun o ho hs => hno o ho ((hp o).1 hs)
    unfold Tuner.suggestFor
    rw [if_neg hf]
    simp only
    rw [hl]
    rfl
  · unfold Tuner.suggestFor
    rw [if_neg hf]

end

/-! ## Concrete cases -/

/-- 1: (1, 5); 2: (1, 6), better than 1; 3: (0, 1), not comparable; otherwise as 2. -/
def exPair : BitVec 64 → BitVec 64 × BitVec 64 := fun x =>
  if x = 1#64 then (1#64, 5#64) else if x = 3#64 then (0#64, 1#64) else (1#64, 6#64)

/-- Evaluations of these values; 5 failed. -/
def exTold : BitVec 64 → Evaluation := fun x =>
  ⟨(exEval (.int (exPair x).1) (.int (exPair x).2)).binding, 0#64, if x = 5#64 then 1#32 else 0#32⟩

def exVals : BitVec 64 → List Value := fun x => [.int (exPair x).1, .int (exPair x).2]

/-- The hypotheses of `C63_pareto_front_partial`. -/
theorem exTold_rated : AllRated exOps exJen true exObj 7#64 exTold exVals [1#64, 5#64, 3#64, 2#64, 4#64] := by
  refine ⟨by simp, fun e _ _ => rfl, fun e _ _ => exRated _ _, fun e _ _ f _ _ => ?_⟩
  intro i x y hx hy
  match i with
  | 0 => cases hx; cases hy; exact ⟨.int, _, _, rfl, rfl⟩
  | 1 => cases hx; cases hy; exact ⟨.int, _, _, rfl, rfl⟩
  | i + 2 => simp [exVals] at hx

example : Tuner.empty.tells ([[1#64, 5#64], [3#64, 2#64, 4#64]].map fun es =>
    (evalEnv exOps exJen true (fun _ => exObj) exTold, es)) = ⟨[1#64, 3#64, 2#64, 4#64], [3#64, 2#64]⟩ := by decide +kernel

/-- Doubles: 1: (1, 3); 2: (0, 1); otherwise (NaN, 2). -/
def exNaNTold : BitVec 64 → Evaluation := fun x =>
  if x = 1#64 then exEval (.float 0x3ff0000000000000#64) (.float 0x4008000000000000#64)
  else if x = 2#64 then exEval (.float 0#64) (.float 0x3ff0000000000000#64)
  else exEval (.float 0x7ff8000000000000#64) (.float 0x4000000000000000#64)

/-- **C63, violated for NaN** After (1, 3), (0, 1) and (NaN, 2), minimizing the first and maximizing the second value, (0, 1) is
still an optimum although the third evaluation, in the history, is BETTER. -/
theorem C63_nan_front :
    Tuner.empty.tell (evalEnv exOps exJen true (fun _ => exObj) exNaNTold) [1#64, 2#64, 3#64] =
      (⟨[1#64, 2#64, 3#64], [1#64, 2#64]⟩, .ok ()) ∧
    compareEvaluations exOps exJen true (fun _ => exObj) exNaNTold 3#64 2#64 = .ok .better := by decide +kernel

/-- **C64, violated** An evaluation of another objective space makes the comparison fail: the tuner is left without any optimum. -/
theorem C64_witness :
    Tuner.empty.tell (evalEnv exOps exJen true (fun _ => exObj)
      (fun x => { exTold 1#64 with binding := { (exTold 1#64).binding with context := x } })) [1#64, 2#64] =
      (⟨[1#64, 2#64], []⟩, .ok ()) := by decide +kernel

/-- The hypotheses of `C66_front_partial`, with two features values. -/
example : AllRatedFor exOps exJen true exObj 7#64 (fun f => ⟨8#64, [⟨.int f, false, false, false⟩]⟩)
    (fun e => ⟨exTold e, e &&& 1#64⟩) exVals [1#64, 5#64, 3#64, 2#64, 4#64] :=
  ⟨exTold_rated.notNull, exTold_rated.space, exTold_rated.rated,
    fun e he re f hf rf _ => exTold_rated.numbers e he re f hf rf⟩

end CCS.Props
