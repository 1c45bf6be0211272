import Verif.Spec.Kinds
import Verif.Lemmas.Binding
import Verif.Props.TreeRun

/-!
# C148: comparing and hashing bindings of any kind
-/

namespace CCS.Props.Kinds

open CCS CCS.Kinds CCS.Spec CCS.Kinds.Spec

variable (little : Bool) (heap : BitVec 64 → Item)

/-- The result code of evaluations, the addresses of their configuration, features and tree configuration; 0 otherwise. -/
def codeKey : Item → BitVec 32
  | .evaluation e => e.result
  | .featuresEvaluation e => e.evaluation.result
  | .treeEvaluation e => e.result
  | _ => 0

@[inherit_doc codeKey]
def configurationKey : Item → BitVec 64
  | .evaluation e => e.configuration
  | .featuresEvaluation e => e.evaluation.configuration
  | _ => 0

@[inherit_doc codeKey]
def featuresKey : Item → BitVec 64
  | .featuresEvaluation e => e.features
  | _ => 0

@[inherit_doc codeKey]
def treeKey : Item → BitVec 64
  | .treeEvaluation e => e.configuration
  | _ => 0

/-- One order for all objects. -/
def keyCmp : BitVec 64 → BitVec 64 → Ordering :=
  thenCmp (bindingCmp little fun a => (heap a).binding)
    (thenCmp (fun x y => codeCmp (codeKey (heap x)) (codeKey (heap y)))
      (thenCmp (fun x y => bindingCmp little (fun a => (heap a).binding) (configurationKey (heap x)) (configurationKey (heap y)))
        (thenCmp (fun x y => bindingCmp little (fun a => (heap a).binding) (featuresKey (heap x)) (featuresKey (heap y)))
          (fun x y => signOf (TreeConfig.cmp (treeKey (heap x)) (treeKey (heap y)) (heap (treeKey (heap x))).tree
            (heap (treeKey (heap y))).tree)))))

theorem keyCmp_total : TotalOrder (BitVec 64) (keyCmp little heap) (fun x y =>
    SameBinding (heap x).binding (heap y).binding ∧ codeKey (heap x) = codeKey (heap y) ∧
      SameBinding (heap (configurationKey (heap x))).binding (heap (configurationKey (heap y))).binding ∧
      SameBinding (heap (featuresKey (heap x))).binding (heap (featuresKey (heap y))).binding ∧
      (heap (treeKey (heap x))).tree = (heap (treeKey (heap y))).tree) :=
  thenCmp_both (bindingCmp_total little fun a => (heap a).binding)
    (thenCmp_both (resultCmp_total.comap fun x => codeKey (heap x))
      (thenCmp_both ((bindingCmp_total little fun a => (heap a).binding).comap fun x => configurationKey (heap x))
        (thenCmp_both ((bindingCmp_total little fun a => (heap a).binding).comap fun x => featuresKey (heap x))
          ((treeConfigCmp_total fun a => (heap a).tree).comap fun x => treeKey (heap x)))))

theorem binding_self (x : BitVec 64) : bindingCmp little (fun a => (heap a).binding) x x = .eq := by
  unfold bindingCmp; rw [if_pos rfl]

theorem tree_self (x : BitVec 64) (c : TreeConfig) : signOf (TreeConfig.cmp x x c c) = .eq := by
  unfold TreeConfig.cmp; rw [if_pos rfl]; rfl

theorem isBinding_iff {x : BitVec 64} : IsBinding heap x ↔ (heap x).binding? = some (heap x).binding := by
  unfold IsBinding Item.binding
  cases heap x <;> simp [Item.kind, spaceOf, Item.binding?]

theorem after_lt (f : Out Ordering) : after .lt f = .ok .lt := rfl
theorem after_gt (f : Out Ordering) : after .gt f = .ok .gt := rfl
theorem after_eq (f : Out Ordering) : after .eq f = f := rfl

/-- The comparison of two bindings that are not the same object. -/
theorem compare_bindings {x y : BitVec 64} (hx : IsBinding heap x) (hy : IsBinding heap y) (hne : x ≠ y) :
    compareAny little heap x y = after (bindingCmp little (fun a => (heap a).binding) x y) (restCmp little heap x y) := by
  unfold compareAny
  rw [if_neg hne, (isBinding_iff heap).1 hx, (isBinding_iff heap).1 hy]

theorem after_ok (o p : Ordering) : after o (.ok p) = .ok (match o with | .eq => p | r => r) := by
  cases o <;> rfl

/-- Bindings of one kind. -/
theorem rest_kind (ht : Typed heap) {x y : BitVec 64} (hx : IsBinding heap x) (hk : (heap x).kind = (heap y).kind) :
    after (bindingCmp little (fun a => (heap a).binding) x y) (restCmp little heap x y) = .ok (keyCmp little heap x y) := by
  have key : restCmp little heap x y = .ok (thenCmp (fun x y => codeCmp (codeKey (heap x)) (codeKey (heap y)))
      (thenCmp (fun x y => bindingCmp little (fun a => (heap a).binding) (configurationKey (heap x)) (configurationKey (heap y)))
        (thenCmp (fun x y => bindingCmp little (fun a => (heap a).binding) (featuresKey (heap x)) (featuresKey (heap y)))
          (fun x y => signOf (TreeConfig.cmp (treeKey (heap x)) (treeKey (heap y)) (heap (treeKey (heap x))).tree
            (heap (treeKey (heap y))).tree)))) x y) := by
    unfold restCmp thenCmp
    unfold IsBinding at hx
    cases ex : heap x with
    | configuration b =>
      rw [ex] at hk; cases ey : heap y <;> rw [ey] at hk <;> try (cases hk)
      simp only [ex, ey, codeKey, configurationKey, featuresKey, treeKey, binding_self, tree_self]; simp [codeCmp]
    | features b =>
      rw [ex] at hk; cases ey : heap y <;> rw [ey] at hk <;> try (cases hk)
      simp only [ex, ey, codeKey, configurationKey, featuresKey, treeKey, binding_self, tree_self]; simp [codeCmp]
    | evaluation e =>
      rw [ex] at hk; cases ey : heap y <;> rw [ey] at hk <;> try (cases hk)
      rename_i f
      simp only [ex, ey, codeKey, configurationKey, featuresKey, treeKey, binding_self, tree_self, configurationCmp,
        ht.evaluation x e ex, ht.evaluation y f ey, and_self, if_true]
      rw [after_ok]
      cases codeCmp e.result f.result <;> try rfl
      cases bindingCmp little (fun a => (heap a).binding) e.configuration f.configuration <;> rfl
    | featuresEvaluation e =>
      rw [ex] at hk; cases ey : heap y <;> rw [ey] at hk <;> try (cases hk)
      rename_i f
      simp only [ex, ey, codeKey, configurationKey, featuresKey, treeKey, tree_self, configurationCmp, featuresCmp,
        (ht.featuresEvaluation x e ex).1, (ht.featuresEvaluation y f ey).1, (ht.featuresEvaluation x e ex).2,
        (ht.featuresEvaluation y f ey).2, and_self, if_true]
      rw [after_ok, after_ok]
      cases codeCmp e.evaluation.result f.evaluation.result <;> try rfl
      cases bindingCmp little (fun a => (heap a).binding) e.evaluation.configuration f.evaluation.configuration <;> try rfl
      cases bindingCmp little (fun a => (heap a).binding) e.features f.features <;> rfl
    | treeEvaluation e =>
      rw [ex] at hk; cases ey : heap y <;> rw [ey] at hk <;> try (cases hk)
      rename_i f
      simp only [ex, ey, codeKey, configurationKey, featuresKey, treeKey, binding_self, treeConfigurationCmp,
        ht.treeEvaluation x e ex, ht.treeEvaluation y f ey, and_self, if_true]
      cases codeCmp e.result f.result <;> rfl
    | treeConfiguration c => rw [ex] at hx; cases hx
    | other => rw [ex] at hx; cases hx
  rw [key, after_ok]
  rfl

theorem same_iff {x y : BitVec 64} (hx : IsBinding heap x) (hk : (heap x).kind = (heap y).kind) :
    (SameBinding (heap x).binding (heap y).binding ∧ codeKey (heap x) = codeKey (heap y) ∧
      SameBinding (heap (configurationKey (heap x))).binding (heap (configurationKey (heap y))).binding ∧
      SameBinding (heap (featuresKey (heap x))).binding (heap (featuresKey (heap y))).binding ∧
      (heap (treeKey (heap x))).tree = (heap (treeKey (heap y))).tree) ↔ Same heap x y := by
  unfold Same
  unfold IsBinding at hx
  cases ex : heap x <;> rw [ex] at hk hx <;> cases ey : heap y <;> rw [ey] at hk <;> first | (cases hk; done) | (cases hx; done) | skip
  all_goals simp [codeKey, configurationKey, featuresKey, treeKey, SameBinding.refl, Item.binding, Item.binding?]

/-- **C148** What comparing two bindings, of any kinds, amounts to: an answer unless they are evaluations of different kinds with the same
space and values; then INVALID_OBJECT for an evaluation and a tree evaluation with the same result code, and a read of something else than a
field of the second evaluation when one of them has features and the other not. -/
theorem C148_outcome (ht : Typed heap) {x y : BitVec 64} (hx : IsBinding heap x) (hy : IsBinding heap y) :
    (compareAny little heap x y = .ub ↔ Clash heap x y ∧
      ((heap x).kind = .featuresEvaluation ∨ (heap y).kind = .featuresEvaluation)) ∧
    (∀ e, compareAny little heap x y = .err e ↔ e = .invalidObject ∧ Clash heap x y ∧
      (heap x).kind ≠ .featuresEvaluation ∧ (heap y).kind ≠ .featuresEvaluation ∧ resultOf (heap x) = resultOf (heap y)) := by
  by_cases hk : (heap x).kind = (heap y).kind
  · have h1 : compareAny little heap x y = .ok (keyCmp little heap x y) := by
      by_cases hne : x = y
      · subst hne
        have := ((keyCmp_total little heap).eq_iff x x).2 ⟨SameBinding.refl _, rfl, SameBinding.refl _, SameBinding.refl _, rfl⟩
        rw [this]; unfold compareAny; rw [if_pos rfl]
      · rw [compare_bindings little heap hx hy hne, rest_kind little heap ht hx hk]
    rw [h1]
    simp [Clash, hk]
  · have hne : x ≠ y := fun e => hk (by rw [e])
    rw [compare_bindings little heap hx hy hne]
    have hb := (bindingCmp_total little fun a => (heap a).binding).eq_iff x y
    by_cases hs : SameBinding (heap x).binding (heap y).binding
    · rw [hb.2 hs, after_eq]
      have hsp := ht.spaces x y hx hy hs.1
      have hc : Clash heap x y := ⟨hs, hk⟩
      unfold restCmp
      unfold IsBinding at hx hy
      cases ex : heap x <;> rw [ex] at hk hx hsp <;> cases ey : heap y <;> rw [ey] at hk hy hsp <;>
        first | (cases hx; done) | (cases hy; done) | exact absurd rfl hk | (cases hsp; done) | skip
      all_goals simp only [hc, Item.kind, true_and, resultOf]
      case evaluation.treeEvaluation e f =>
        simp only [configurationCmp, ht.evaluation x e ex, ht.treeEvaluation y f ey]
        by_cases hr : e.result = f.result
        · rw [show codeCmp e.result f.result = .eq from (resultCmp_total.eq_iff _ _).2 hr, after_eq]
          simp [hr, eq_comm]
        · have : codeCmp e.result f.result ≠ .eq := fun h => hr ((resultCmp_total.eq_iff _ _).1 h)
          cases hcc : codeCmp e.result f.result with
          | eq => exact absurd hcc this
          | lt => simp [after_lt, hr]
          | gt => simp [after_gt, hr]
      case treeEvaluation.evaluation e f =>
        simp only [treeConfigurationCmp, ht.evaluation y f ey, ht.treeEvaluation x e ex]
        by_cases hr : e.result = f.result
        · rw [show codeCmp e.result f.result = .eq from (resultCmp_total.eq_iff _ _).2 hr, after_eq]
          simp [hr, eq_comm]
        · have : codeCmp e.result f.result ≠ .eq := fun h => hr ((resultCmp_total.eq_iff _ _).1 h)
          cases hcc : codeCmp e.result f.result with
          | eq => exact absurd hcc this
          | lt => simp [after_lt, hr]
          | gt => simp [after_gt, hr]
      all_goals simp
    · cases hcmp : bindingCmp little (fun a => (heap a).binding) x y with
      | eq => exact absurd (hb.1 hcmp) hs
      | lt => simp [after_lt, Clash, hs]
      | gt => simp [after_gt, Clash, hs]

/-- **C148** Among any bindings, of any kinds, such that no two evaluations of different kinds have the same space and values, comparing is a
total order; two compareAny equal exactly when they are of the same kind and have the same contents. -/
theorem C148_total_order_partial (ht : Typed heap) (among : BitVec 64 → Prop) (hb : ∀ x, among x → IsBinding heap x)
    (hc : ∀ x y, among x → among y → ¬ Clash heap x y) :
    ∃ cmp : BitVec 64 → BitVec 64 → Ordering, (∀ x y, among x → among y → compareAny little heap x y = .ok (cmp x y)) ∧
      TotalOrder {x // among x} (fun x y => cmp x y) (fun x y => Same heap x y) := by
  refine ⟨keyCmp little heap, fun x y hx hy => ?_, ?_⟩
  · by_cases hne : x = y
    · subst hne
      rw [((keyCmp_total little heap).eq_iff x x).2 ⟨SameBinding.refl _, rfl, SameBinding.refl _, SameBinding.refl _, rfl⟩]
      unfold compareAny; rw [if_pos rfl]
    · rw [compare_bindings little heap (hb x hx) (hb y hy) hne]
      by_cases hk : (heap x).kind = (heap y).kind
      · exact rest_kind little heap ht (hb x hx) hk
      · have hs : ¬ SameBinding (heap x).binding (heap y).binding := fun h => hc x y hx hy ⟨h, hk⟩
        have hb := (bindingCmp_total little fun a => (heap a).binding).eq_iff x y
        unfold keyCmp thenCmp
        cases hcmp : bindingCmp little (fun a => (heap a).binding) x y with
        | eq => exact absurd (hb.1 hcmp) hs
        | lt => rfl
        | gt => rfl
  · have h := (keyCmp_total little heap).comap (Subtype.val : {x // among x} → BitVec 64)
    refine ⟨fun a b => (h.eq_iff a b).trans ?_, h.swap, h.trans, h.trans_lt⟩
    by_cases hk : (heap a).kind = (heap b).kind
    · exact same_iff heap (hb a a.2) hk
    · constructor
      · exact fun e => absurd ⟨e.1, hk⟩ (hc a b a.2 b.2)
      · intro e
        refine absurd ?_ hk
        unfold Same at e
        cases ex : heap a <;> rw [ex] at e <;> cases ey : heap b <;> rw [ey] at e <;> first | rfl | exact e.elim

/-- **C148** Bindings that compareAny equal have equal hashes. -/
theorem C148_hash (jen : Bytes → BitVec 32) (ht : Typed heap) {x y : BitVec 64} (hx : IsBinding heap x) (hy : IsBinding heap y)
    (h : compareAny little heap x y = .ok .eq) : ∃ v, hashOf little heap jen x = .ok v ∧ hashOf little heap jen y = .ok v := by
  by_cases hne : x = y
  · subst hne
    unfold IsBinding at hx
    unfold hashOf
    cases ex : heap x <;> rw [ex] at hx <;> first | exact ⟨_, rfl, rfl⟩ | cases hx
  by_cases hk : (heap x).kind = (heap y).kind
  · rw [compare_bindings little heap hx hy hne, rest_kind little heap ht hx hk] at h
    have hs := (same_iff heap hx hk).1 (((keyCmp_total little heap).eq_iff x y).1 (Out.ok.inj h))
    unfold Same at hs
    unfold hashOf
    cases ex : heap x <;> rw [ex] at hs <;> cases ey : heap y <;> rw [ey] at hs <;> first | exact hs.elim | skip
    · exact ⟨_, rfl, by rw [bindingHash_congr little jen hs]⟩
    · exact ⟨_, rfl, by rw [bindingHash_congr little jen hs]⟩
    · refine ⟨_, rfl, ?_⟩
      simp only [evaluationHash, bindingHash_congr little jen hs.1, hs.2.1, bindingHash_congr little jen hs.2.2]
    · refine ⟨_, rfl, ?_⟩
      simp only [featuresEvaluationHash, bindingHash_congr little jen hs.1, hs.2.1, bindingHash_congr little jen hs.2.2.1,
        bindingHash_congr little jen hs.2.2.2]
    · refine ⟨_, rfl, ?_⟩
      simp only [treeEvaluationHash, bindingHash_congr little jen hs.1, hs.2.1, hs.2.2]
  · exfalso
    rw [compare_bindings little heap hx hy hne] at h
    have hb := (bindingCmp_total little fun a => (heap a).binding).eq_iff x y
    cases hcmp : bindingCmp little (fun a => (heap a).binding) x y with
    | lt => rw [hcmp] at h; cases h
    | gt => rw [hcmp] at h; cases h
    | eq =>
      have hc : Clash heap x y := ⟨hb.1 hcmp, hk⟩
      rw [hcmp, after_eq] at h
      have hsp := ht.spaces x y hx hy hc.1.1
      unfold restCmp at h
      unfold IsBinding at hx hy
      cases ex : heap x <;> rw [ex] at hk hx hsp h <;> cases ey : heap y <;> rw [ey] at hk hy hsp h <;>
        first | (cases hx; done) | (cases hy; done) | exact absurd rfl hk | (cases hsp; done) | skip
      case evaluation.treeEvaluation e f =>
        simp only [configurationCmp, ht.evaluation x e ex, ht.treeEvaluation y f ey] at h
        cases hcc : codeCmp e.result f.result <;> rw [hcc] at h <;> simp [after] at h
      case treeEvaluation.evaluation e f =>
        simp only [treeConfigurationCmp, ht.evaluation y f ey, ht.treeEvaluation x e ex] at h
        cases hcc : codeCmp e.result f.result <;> rw [hcc] at h <;> simp [after] at h
      all_goals cases h


instance (h : BitVec 64 → Item) (x : BitVec 64) : Decidable (IsBinding h x) := inferInstanceAs (Decidable (_ = true))

/-- A configuration, features, three evaluations of the same values in the same objective space, one of each kind, a tree configuration,
and an evaluation that failed. -/
def exItems : BitVec 64 → Item := fun x =>
  if x = 1#64 then .configuration ⟨10#64, [⟨.int 3#64, false, false, false⟩]⟩
  else if x = 2#64 then .features ⟨11#64, [⟨.int 4#64, false, false, false⟩]⟩
  else if x = 3#64 then .evaluation ⟨⟨12#64, [⟨.int 5#64, false, false, false⟩]⟩, 1#64, 0#32⟩
  else if x = 4#64 then .featuresEvaluation ⟨⟨⟨12#64, [⟨.int 5#64, false, false, false⟩]⟩, 1#64, 0#32⟩, 2#64⟩
  else if x = 5#64 then .treeEvaluation ⟨⟨12#64, [⟨.int 5#64, false, false, false⟩]⟩, 6#64, 0#32⟩
  else if x = 6#64 then .treeConfiguration ⟨13#64, [0#64]⟩
  else if x = 7#64 then .evaluation ⟨⟨12#64, [⟨.int 5#64, false, false, false⟩]⟩, 1#64, 1#32⟩
  else .other

/-- Where they are. -/
def exAddresses : List (BitVec 64) := [1#64, 2#64, 3#64, 4#64, 5#64, 6#64, 7#64]

theorem exItems_cases (x : BitVec 64) : x ∈ exAddresses ∨ exItems x = .other := by
  unfold exItems exAddresses
  by_cases h1 : x = 1#64
  · simp [h1]
  by_cases h2 : x = 2#64
  · simp [h2]
  by_cases h3 : x = 3#64
  · simp [h3]
  by_cases h4 : x = 4#64
  · simp [h4]
  by_cases h5 : x = 5#64
  · simp [h5]
  by_cases h6 : x = 6#64
  · simp [h6]
  by_cases h7 : x = 7#64
  · simp [h7]
  exact .inr (by simp only [h1, h2, h3, h4, h5, h6, h7, if_false])

/-- Whether an object of the example refers to objects of the right kinds. -/
def refers : Item → Bool
  | .evaluation e => (exItems e.configuration).kind == .configuration
  | .featuresEvaluation e => (exItems e.evaluation.configuration).kind == .configuration && (exItems e.features).kind == .features
  | .treeEvaluation e => (exItems e.configuration).kind == .treeConfiguration
  | _ => true

theorem exItems_refers : ∀ x ∈ exAddresses, refers (exItems x) = true :=
  List.all_eq_true.1 (by decide +kernel : exAddresses.all (fun x => refers (exItems x)) = true)

theorem exItems_typed : Typed exItems := by
  refine ⟨fun x y hx hy h => ?_, fun x e h => ?_, fun x e h => ?_, fun x e h => ?_⟩
  · rcases exItems_cases x with hx' | hx'
    · rcases exItems_cases y with hy' | hy'
      · have := List.all_eq_true.1 (List.all_eq_true.1 (by decide +kernel : exAddresses.all (fun x => exAddresses.all fun y =>
            !(exItems x).binding.context == (exItems y).binding.context || !(spaceOf (exItems x).kind).isSome ||
              !(spaceOf (exItems y).kind).isSome || spaceOf (exItems x).kind == spaceOf (exItems y).kind) = true) x hx') y hy'
        unfold IsBinding at hx hy
        simpa [h, hx, hy] using this
      · rw [IsBinding, hy'] at hy; cases hy
    · rw [IsBinding, hx'] at hx; cases hx
  all_goals
    rcases exItems_cases x with hx | hx
    · have hr := exItems_refers x hx
      rw [h] at hr
      simpa [refers] using hr
    · rw [hx] at h; cases h

/-- **C148, violated** Comparing an evaluation with a features evaluation of the same space and values reads the address of the features as
a result code; the other way round, it reads past the evaluation, whose result code it takes for the address of features. -/
theorem C148_confused : Typed exItems ∧ IsBinding exItems 3#64 ∧ IsBinding exItems 4#64 ∧
    compareAny true exItems 3#64 4#64 = .ub ∧ compareAny true exItems 4#64 3#64 = .ub :=
  ⟨exItems_typed, by decide +kernel, by decide +kernel, by decide +kernel, by decide +kernel⟩

/-- **C148, violated** An evaluation cannot be compared with a tree evaluation of the same space, values and result code. -/
theorem C148_refused : Typed exItems ∧ IsBinding exItems 3#64 ∧ IsBinding exItems 5#64 ∧
    compareAny true exItems 3#64 5#64 = .err .invalidObject ∧ compareAny true exItems 5#64 3#64 = .err .invalidObject :=
  ⟨exItems_typed, by decide +kernel, by decide +kernel, by decide +kernel, by decide +kernel⟩

/-- **C148, violated** Objects that are no bindings are taken for bindings. -/
theorem C148_not_a_binding {x y : BitVec 64} (hne : x ≠ y) (h : ¬ IsBinding heap x ∨ ¬ IsBinding heap y) :
    compareAny little heap x y = .ub := by
  have key : ∀ a, ¬ IsBinding heap a → (heap a).binding? = none := fun a ha => by
    unfold IsBinding at ha
    cases ea : heap a <;> rw [ea] at ha <;> first | rfl | exact absurd rfl ha
  unfold compareAny
  rw [if_neg hne]
  rcases h with h | h
  · rw [key x h]
  · rw [key y h]; cases (heap x).binding? <;> rfl

example : ¬ IsBinding exItems 6#64 ∧ compareAny true exItems 1#64 6#64 = .ub := by
  refine ⟨by decide +kernel, by decide +kernel⟩

/-- The configuration, the features, the features evaluation of the example and nothing else: no clash. -/
example : (∀ x, x = 1#64 ∨ x = 2#64 ∨ x = 4#64 → IsBinding exItems x) ∧
    (∀ x y, (x = 1#64 ∨ x = 2#64 ∨ x = 4#64) → (y = 1#64 ∨ y = 2#64 ∨ y = 4#64) → ¬ Clash exItems x y) ∧
    compareAny true exItems 1#64 4#64 = .ok .lt ∧ compareAny true exItems 3#64 7#64 = .ok .lt := by
  refine ⟨?_, ?_, by decide +kernel, by decide +kernel⟩
  · rintro x (rfl | rfl | rfl) <;> decide +kernel
  · rintro x y (rfl | rfl | rfl) (rfl | rfl | rfl) ⟨⟨h1, -⟩, h2⟩ <;>
      first | exact h2 rfl | (revert h1; decide +kernel)

end CCS.Props.Kinds
