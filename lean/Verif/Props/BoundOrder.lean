import Verif.Spec.BoundOrder
import Verif.Props.Kinds
import Verif.Props.Evaluation

/-!
# C149: comparing, sorting and hashing from Python and Ruby
-/

namespace CCS.Props.BoundOrder

open CCS CCS.Kinds CCS.Spec CCS.Kinds.Spec CCS.BoundOrder CCS.BoundOrder.Spec CCS.Props.Kinds

/-- What an order gives. -/
theorem strictOrder_of_total {α : Type} {cmp : α → α → Ordering} {same : α → α → Prop} (h : TotalOrder α cmp same) :
    StrictOrder (fun a b => cmp a b = .lt) same := by
  refine ⟨fun a b hs hl => ?_, h.trans_lt, fun a b => ?_, fun a b hl hl' => ?_⟩
  · rw [(h.eq_iff a b).2 hs] at hl; cases hl
  · rw [← h.eq_iff a b, h.swap a b]
    cases cmp a b <;> simp [Ordering.swap]
  · rw [h.swap a b, hl] at hl'; cases hl'

theorem test_meaning {α : Type} {cmp : α → α → Ordering} {same : α → α → Prop} (h : TotalOrder α cmp same) (op : Operator) (a b : α) :
    op.test (cmp a b) = true ↔ Meaning (fun a b => cmp a b = .lt) same op a b := by
  have h1 := h.eq_iff a b
  have h2 := h.swap a b
  cases op <;> simp only [Operator.test, Meaning, ← h1, h2] <;> cases cmp a b <;> decide

/-- **C149** In Python, the operators on bindings of any kinds, no two evaluations of different kinds having the same space and values, are
those of an order in which two are the same exactly when they have the same kind and contents. -/
theorem C149_python_order_partial (little : Bool) (heap : BitVec 64 → Item) (ht : Typed heap) (among : BitVec 64 → Prop)
    (hb : ∀ x, among x → IsBinding heap x) (hc : ∀ x y, among x → among y → ¬ Clash heap x y) :
    ∃ before : {x // among x} → {x // among x} → Prop, StrictOrder before (fun x y => Same heap x y) ∧
      ∀ op (x y : {x // among x}), Decides (Py.bindingOperator little heap op x (.object y))
        (Meaning before (fun x y => Same heap x y) op x y) := by
  obtain ⟨cmp, h1, h2⟩ := C148_total_order_partial little heap ht among hb hc
  refine ⟨_, strictOrder_of_total h2, fun op x y => ⟨op.test (cmp x y), ?_, test_meaning h2 op x y⟩⟩
  unfold Py.bindingOperator
  simp only [h1 x y x.2 y.2]; rfl

/-- **C149** In Python, the operators on tree configurations are those of an order; the same means the same space and position. -/
theorem C149_python_tree_order (heap : BitVec 64 → Item) (among : BitVec 64 → Prop)
    (hb : ∀ x, among x → (heap x).kind = .treeConfiguration) :
    ∃ before : {x // among x} → {x // among x} → Prop, StrictOrder before (fun x y => (heap x).tree = (heap y).tree) ∧
      ∀ op (x y : {x // among x}), Decides (Py.treeOperator heap op x (.object y))
        (Meaning before (fun x y => (heap x).tree = (heap y).tree) op x y) := by
  have h2 := (treeConfigCmp_total fun a => (heap a).tree).comap (Subtype.val : {x // among x} → BitVec 64)
  refine ⟨_, strictOrder_of_total h2, fun op x y => ⟨op.test _, ?_, test_meaning h2 op x y⟩⟩
  unfold Py.treeOperator treeConfigurationCmp
  simp only [if_pos (show (heap x).kind = .treeConfiguration ∧ (heap y).kind = .treeConfiguration from ⟨hb x x.2, hb y y.2⟩)]
  rfl

/-- **C149** Tree configurations can be hashed in Python, those that are equal have the same hash. -/
theorem C149_python_tree_hash (little : Bool) (jen : Bytes → BitVec 32) (heap : BitVec 64 → Item) {x y : BitVec 64}
    (hx : (heap x).kind = .treeConfiguration) (hy : (heap y).kind = .treeConfiguration)
    (h : Py.treeOperator heap .eq x (.object y) = .ok true) :
    ∃ v, Py.treeHashValue little heap jen x = .ok v ∧ Py.treeHashValue little heap jen y = .ok v := by
  have hs : (heap x).tree = (heap y).tree := by
    unfold Py.treeOperator treeConfigurationCmp at h
    simp only [hx, hy, and_self, if_true] at h
    have h' : Operator.eq.test (signOf (TreeConfig.cmp x y (heap x).tree (heap y).tree)) = true := Out.ok.inj h
    exact ((treeConfigCmp_total fun a => (heap a).tree).eq_iff x y).1 (by
      simpa [Operator.test] using h')
  unfold Py.treeHashValue
  cases ex : heap x <;> rw [ex] at hx hs <;> first | (cases hx; done) | skip
  cases ey : heap y <;> rw [ey] at hy hs <;> first | (cases hy; done) | skip
  rename_i c d
  exact ⟨_, rfl, by rw [show c = d from hs]⟩

/-- **C149, violated** In Python, no configuration, features or evaluation can be hashed: `hash()` raises an exception, so none can be a key
of a dictionary or a member of a set. -/
theorem C149_python_hash (little : Bool) (jen : Bytes → BitVec 32) (heap : BitVec 64 → Item) (x : BitVec 64) (hx : IsBinding heap x) :
    Py.bindingHashValue little heap jen x = .err .external := by
  unfold Py.bindingHashValue hashOf
  unfold IsBinding at hx
  cases ex : heap x <;> rw [ex] at hx <;> first | rfl | cases hx

/-- **C149, violated** Comparing a binding with `None`, or with anything that is not an object of the library, raises an exception, also
with `==`; in Ruby too. -/
theorem C149_strangers (ops : FloatOps) (jen : Bytes → BitVec 32) (little : Bool) (spaces : BitVec 64 → ObjSpace)
    (heap : BitVec 64 → Item) (op : Operator) (x : BitVec 64) (a : Rb.Ref) :
    Py.bindingOperator little heap op x .nothing = .err .external ∧ Py.bindingOperator little heap op x .stranger = .err .external ∧
    Rb.operator ops jen little spaces heap op a .nothing = .err .invalidObject ∧
    Rb.operator ops jen little spaces heap op a .stranger = .err .external := by
  refine ⟨rfl, rfl, ?_, ?_⟩ <;> cases op <;> rfl

section
variable (ops : FloatOps) (jen : Bytes → BitVec 32) (little : Bool) (spaces : BitVec 64 → ObjSpace) (heap : BitVec 64 → Item)

/-- **C149** In Ruby, the operators on configurations and features are those of an order in which two are the same exactly when they have
the same kind and contents.  Distinct Ruby objects have distinct identities; one Ruby object stands for one object of the library. -/
theorem C149_ruby_order (ht : Typed heap) (among : Rb.Ref → Prop)
    (hb : ∀ r, among r → (heap r.handle).kind = .configuration ∨ (heap r.handle).kind = .features)
    (hid : ∀ r s, among r → among s → r.id = s.id → r = s) :
    ∃ before : {r // among r} → {r // among r} → Prop,
      StrictOrder before (fun r s => Same heap r.1.handle s.1.handle) ∧
      ∀ op (r s : {r // among r}), Decides (Rb.operator ops jen little spaces heap op r (.ref s))
        (Meaning before (fun r s => Same heap r.1.handle s.1.handle) op r s) := by
  have hbind : ∀ r, among r → IsBinding heap r.handle := fun r hr => by
    unfold IsBinding
    rcases hb r hr with h | h <;> rw [h] <;> rfl
  obtain ⟨cmp, h1, h2⟩ := C148_total_order_partial little heap ht (fun x => ∃ r, among r ∧ r.handle = x)
    (fun x hx => by obtain ⟨r, hr, rfl⟩ := hx; exact hbind r hr)
    (fun x y hx hy hc => by
      obtain ⟨r, hr, rfl⟩ := hx
      obtain ⟨s, hs, rfl⟩ := hy
      have hsp := ht.spaces _ _ (hbind r hr) (hbind s hs) hc.1.1
      rcases hb r hr with h | h <;> rcases hb s hs with h' | h' <;> rw [h, h'] at hsp
      · exact hc.2 (h.trans h'.symm)
      · cases hsp
      · cases hsp
      · exact hc.2 (h.trans h'.symm))
  have h3 : TotalOrder {r // among r} (fun r s => cmp r.1.handle s.1.handle) (fun r s => Same heap r.1.handle s.1.handle) :=
    h2.comap (fun r : {r // among r} => ⟨r.1.handle, r.1, r.2, rfl⟩)
  refine ⟨_, strictOrder_of_total h3, fun op r s => ⟨op.test (cmp r.1.handle s.1.handle), ?_, test_meaning h3 op r s⟩⟩
  have hcmp := h1 r.1.handle s.1.handle ⟨r, r.2, rfl⟩ ⟨s, s.2, rfl⟩
  have hss : Rb.spaceship ops jen little spaces heap r.1.handle (.ref s) = .ok (some (cmp r.1.handle s.1.handle)) := by
    unfold Rb.spaceship
    rcases hb r r.2 with h | h <;> rw [h] <;> simp only <;> rw [hcmp] <;> rfl
  have heq : Rb.equals ops jen little spaces heap r (.ref s) = .ok (cmp r.1.handle s.1.handle == .eq) := by
    unfold Rb.equals
    simp only [hss]
    by_cases hi : r.1.id = s.1.id
    · rw [if_pos hi]
      have e : r = s := Subtype.ext (hid r s r.2 s.2 hi)
      have : cmp r.1.handle s.1.handle = .eq := by
        subst e
        have := hcmp
        unfold compareAny at this
        rw [if_pos rfl] at this
        exact (Out.ok.inj this).symm
      rw [this]; rfl
    · rw [if_neg hi]
      show Out.ok (some (cmp r.1.handle s.1.handle) == some .eq) = _
      cases cmp r.1.handle s.1.handle <;> rfl
  unfold Rb.operator
  cases op <;> simp only [heq, hss] <;> rfl

/-- **C149** In Ruby, configurations and features that are equal have the same hash. -/
theorem C149_ruby_hash (ht : Typed heap) {a b : Rb.Ref}
    (ha : (heap a.handle).kind = .configuration ∨ (heap a.handle).kind = .features) (hb : IsBinding heap b.handle)
    (hid : a.id = b.id → a = b) (h : Rb.operator ops jen little spaces heap .eq a (.ref b) = .ok true) :
    ∃ v, Rb.hashValue jen little heap a = .ok v ∧ Rb.hashValue jen little heap b = .ok v := by
  have ha' : IsBinding heap a.handle := by
    unfold IsBinding
    rcases ha with h | h <;> rw [h] <;> rfl
  refine C148_hash little heap jen ht ha' hb ?_
  unfold Rb.operator Rb.equals at h
  by_cases hi : a.id = b.id
  · rw [← hid hi]; unfold compareAny; rw [if_pos rfl]
  · simp only [if_neg hi] at h
    unfold Rb.spaceship at h
    rcases ha with ha | ha <;> rw [ha] at h <;> simp only at h <;>
      cases hc : compareAny little heap a.handle b.handle <;> rw [hc] at h <;> first | (cases h; done) | skip
    all_goals
      rename_i o
      have h' : (some o == some Ordering.eq) = true := Out.ok.inj h
      cases o <;> first | rfl | cases h'

/-- The evaluations at the addresses. -/
abbrev evals : BitVec 64 → Evaluation := fun a => evaluationAt (heap a)

theorem ruby_equals_ne {a b : Rb.Ref} (hne : a.handle ≠ b.handle) (hid : a.id = b.id → a = b) {o : Option Ordering}
    (h : Rb.spaceship ops jen little spaces heap a.handle (.ref b) = .ok o) :
    Rb.equals ops jen little spaces heap a (.ref b) = .ok (o == some .eq) := by
  unfold Rb.equals
  simp only [h]
  rw [if_neg (fun e => hne (by rw [hid e]))]; rfl

/-- **C149** In Ruby, `<` between two evaluations (or two tree evaluations) that succeeded, of the same space, means better, `>` worse, and
`==` means that all objectives tie; when neither is better, `==` is false and the other operators raise an exception.  Objective values have
to be numbers of the same types, as for C60. -/
theorem C149_ruby_evaluations_partial {a b : Rb.Ref} (hid : a.id = b.id → a = b)
    (hk : (heap a.handle).kind = .evaluation ∧ (heap b.handle).kind = .evaluation ∨
      (heap a.handle).kind = .treeEvaluation ∧ (heap b.handle).kind = .treeEvaluation)
    (h : Pair (evals heap) a.handle b.handle) {s : ObjSpace} (hs : s = spaces (evals heap a.handle).binding.context) {vs ws : List Value}
    (hv : Rated ops jen little s (evals heap a.handle).binding.values vs)
    (hw : Rated ops jen little s (evals heap b.handle).binding.values ws) (hc : Commensurable vs ws) :
    (Rb.operator ops jen little spaces heap .lt a (.ref b) = .ok true ↔ Dominates s.objectives vs ws) ∧
    (Rb.operator ops jen little spaces heap .gt a (.ref b) = .ok true ↔ Dominates s.objectives ws vs) ∧
    Decides (Rb.operator ops jen little spaces heap .eq a (.ref b)) (Tied vs ws) ∧
    (¬ Dominates s.objectives vs ws ∧ ¬ Dominates s.objectives ws vs ∧ ¬ Tied vs ws →
      ∀ op, op ≠ .eq → op ≠ .ne → Rb.operator ops jen little spaces heap op a (.ref b) = .err .external) := by
  obtain ⟨r, hr, h1, h2, h3, h4⟩ := C60_pareto_partial ops jen little spaces (evals heap) h hs hv hw hc
  have hss : Rb.spaceship ops jen little spaces heap a.handle (.ref b) = .ok (Rb.ofComparison r) := by
    unfold Rb.spaceship Rb.typed
    rcases hk with ⟨k1, k2⟩ | ⟨k1, k2⟩ <;> rw [k1] <;> simp only [k2, if_true] <;> rw [show _ = _ from hr] <;> rfl
  have heq := ruby_equals_ne ops jen little spaces heap h.distinct hid hss
  refine ⟨?_, ?_, ⟨Rb.ofComparison r == some .eq, ?_, ?_⟩, fun hn op ho1 ho2 => ?_⟩
  · rw [← h1]; unfold Rb.operator; simp only [hss]; cases r <;> simp [Rb.ofComparison, Operator.test, bind, Out.bind]
  · rw [← h2]; unfold Rb.operator; simp only [hss]; cases r <;> simp [Rb.ofComparison, Operator.test, bind, Out.bind]
  · unfold Rb.operator; rw [heq]
  · rw [← h3]; cases r <;> simp [Rb.ofComparison]
  · have : r = .notComparable := h4.2 hn
    subst this
    unfold Rb.operator
    cases op <;> simp only [hss, Rb.ofComparison] <;> first | rfl | exact absurd rfl ho1 | exact absurd rfl ho2

/-- **C149** The same for evaluations with the same features; with different features `==` is false and the other operators raise an
exception. -/
theorem C149_ruby_features_evaluations {a b : Rb.Ref} (hid : a.id = b.id → a = b)
    (ha : (heap a.handle).kind = .featuresEvaluation) (hb : (heap b.handle).kind = .featuresEvaluation) :
    let f := fun x => (featuresEvaluationAt (heap x)).features
    (SameBinding (heap (f a.handle)).binding (heap (f b.handle)).binding →
      Rb.spaceship ops jen little spaces heap a.handle (.ref b) = (do
        let c ← compareEvaluations ops jen little spaces (fun x => (featuresEvaluationAt (heap x)).evaluation) a.handle b.handle
        .ok (Rb.ofComparison c))) ∧
    (Pair (fun x => (featuresEvaluationAt (heap x)).evaluation) a.handle b.handle →
      ¬ SameBinding (heap (f a.handle)).binding (heap (f b.handle)).binding →
      Rb.operator ops jen little spaces heap .eq a (.ref b) = .ok false ∧
      ∀ op, op ≠ .eq → op ≠ .ne → Rb.operator ops jen little spaces heap op a (.ref b) = .err .external) := by
  intro f
  have key : Rb.spaceship ops jen little spaces heap a.handle (.ref b) = (do
      let c ← compareFeaturesEvaluations ops jen little spaces (fun x => (heap x).binding)
        (fun x => featuresEvaluationAt (heap x)) a.handle b.handle
      .ok (Rb.ofComparison c)) := by
    unfold Rb.spaceship Rb.typed
    rw [ha]; simp only [hb, if_true]
  obtain ⟨h1, h2⟩ := C60_features ops jen little spaces (fun x => (heap x).binding) (fun x => featuresEvaluationAt (heap x))
    (x := a.handle) (y := b.handle)
  refine ⟨fun hs => ?_, fun hp hn => ?_⟩
  · rw [key, h1 hs]
  · have hss : Rb.spaceship ops jen little spaces heap a.handle (.ref b) = .ok none := by rw [key, h2 hp hn]; rfl
    refine ⟨?_, fun op ho1 ho2 => ?_⟩
    · unfold Rb.operator
      rw [ruby_equals_ne ops jen little spaces heap hp.distinct hid hss]; rfl
    · unfold Rb.operator
      cases op <;> simp only [hss] <;> first | rfl | exact absurd rfl ho1 | exact absurd rfl ho2

/-- **C149, violated** In Ruby, an evaluation that failed, or one of another space, cannot be compared at all, even with `==`: the library's
error INVALID_OBJECT is raised. -/
theorem C149_ruby_failed {a b : Rb.Ref} (hid : a.id ≠ b.id) (hne : a.handle ≠ b.handle)
    (hk : (heap a.handle).kind = .evaluation ∧ (heap b.handle).kind = .evaluation)
    (hf : (evals heap a.handle).result ≠ 0#32 ∨ (evals heap b.handle).result ≠ 0#32 ∨
      (evals heap a.handle).binding.context ≠ (evals heap b.handle).binding.context) (op : Operator) :
    Rb.operator ops jen little spaces heap op a (.ref b) = .err .invalidObject := by
  have hss : Rb.spaceship ops jen little spaces heap a.handle (.ref b) = .err .invalidObject := by
    unfold Rb.spaceship Rb.typed
    rw [hk.1]; simp only [hk.2, if_true]
    rw [show _ = _ from (C60_refusals ops jen little spaces (evals heap) a.handle b.handle).2 hne hf]; rfl
  have heq : Rb.equals ops jen little spaces heap a (.ref b) = .err .invalidObject := by
    unfold Rb.equals; simp only [hss]; rw [if_neg hid]; rfl
  unfold Rb.operator
  cases op <;> simp only [hss, heq] <;> rfl

/-- **C149, violated** In Ruby, two objects that stand for the same configuration, or for equal ones, are equal and have the same hash, but
are never the same key of a `Hash`. -/
theorem C149_ruby_keys {a b : Rb.Ref} (hid : a.id ≠ b.id) : Rb.sameKey jen little heap a b = false := by
  unfold Rb.sameKey Rb.eql
  simp [hid]

end

/-! ## Concrete cases -/

/-- A byte hash function that tells some contents apart. -/
def exSum (bs : Bytes) : BitVec 32 := bs.foldl (fun a b => a * 31#32 + b.zeroExtend 32) 7#32

/-- Two configurations with different values, and what they were evaluated to in the objective space of C60 (the first parameter minimized,
the second maximized). -/
def exHeld : BitVec 64 → Item := fun x =>
  if x = 1#64 then .configuration ⟨10#64, [⟨.int 3#64, false, false, false⟩]⟩
  else if x = 2#64 then .configuration ⟨10#64, [⟨.int 4#64, false, false, false⟩]⟩
  else if x = 3#64 then .evaluation ⟨(exEval (.int 1#64) (.int 5#64)).binding, 1#64, 0#32⟩
  else if x = 4#64 then .evaluation ⟨(exEval (.int 1#64) (.int 5#64)).binding, 2#64, 0#32⟩
  else if x = 5#64 then .evaluation ⟨(exEval (.int 1#64) (.int 6#64)).binding, 1#64, 0#32⟩
  else if x = 6#64 then .evaluation ⟨(exEval (.int 1#64) (.int 5#64)).binding, 1#64, 1#32⟩
  else .other

/-- **C149, violated** In Ruby, evaluations of different configurations are equal when their objective values are, and their hashes differ;
in Python these evaluations are different. -/
theorem C149_ruby_equal_evaluations :
    Rb.operator exOps exSum true (fun _ => exObj) exHeld .eq ⟨0, 3#64⟩ (.ref ⟨1, 4#64⟩) = .ok true ∧ ¬ Same exHeld 3#64 4#64 ∧
    Rb.hashValue exSum true exHeld ⟨0, 3#64⟩ ≠ Rb.hashValue exSum true exHeld ⟨1, 4#64⟩ ∧
    Py.bindingOperator true exHeld .eq 3#64 (.object 4#64) = .ok false := by
  refine ⟨by decide +kernel, ?_, by decide +kernel, by decide +kernel⟩
  show ¬ (SameBinding _ _ ∧ _ = _ ∧ SameBinding ⟨10#64, [⟨.int 3#64, false, false, false⟩]⟩ ⟨10#64, [⟨.int 4#64, false, false, false⟩]⟩)
  rintro ⟨-, -, -, h⟩
  revert h; decide

/-- **C149, violated** The languages disagree: for Ruby the evaluation 5 is before 3, because it is better; for Python it is after. -/
theorem C149_languages_differ :
    Rb.operator exOps exSum true (fun _ => exObj) exHeld .lt ⟨0, 5#64⟩ (.ref ⟨1, 3#64⟩) = .ok true ∧
    Py.bindingOperator true exHeld .lt 5#64 (.object 3#64) = .ok false ∧
    Py.bindingOperator true exHeld .gt 5#64 (.object 3#64) = .ok true := by
  refine ⟨by decide +kernel, by decide +kernel, by decide +kernel⟩

/-- C149_ruby_failed and C149_ruby_keys on these objects. -/
example : Rb.operator exOps exSum true (fun _ => exObj) exHeld .eq ⟨0, 6#64⟩ (.ref ⟨1, 3#64⟩) = .err .invalidObject ∧
    Rb.operator exOps exSum true (fun _ => exObj) exHeld .eq ⟨0, 1#64⟩ (.ref ⟨1, 1#64⟩) = .ok true ∧
    Rb.hashValue exSum true exHeld ⟨0, 1#64⟩ = Rb.hashValue exSum true exHeld ⟨1, 1#64⟩ ∧
    Rb.sameKey exSum true exHeld ⟨0, 1#64⟩ ⟨1, 1#64⟩ = false := by
  refine ⟨by decide +kernel, by decide +kernel, by decide +kernel, by decide +kernel⟩

/-- The hypotheses of C149_ruby_evaluations_partial. -/
example : Pair (evals exHeld) 5#64 3#64 ∧ Rated exOps exJen true exObj (evals exHeld 5#64).binding.values [.int 1#64, .int 6#64] ∧
    Rated exOps exJen true exObj (evals exHeld 3#64).binding.values [.int 1#64, .int 5#64] :=
  ⟨⟨by decide, by decide +kernel, by decide +kernel, by decide +kernel⟩, exRated _ _, exRated _ _⟩

/-- The configurations and features of the example of C148 meet the hypotheses of C149_ruby_order and C149_python_order_partial. -/
example : Typed exItems ∧ IsBinding exItems 1#64 ∧ (exItems 1#64).kind = .configuration ∧ (exItems 2#64).kind = .features ∧
    Py.bindingOperator true exItems .lt 1#64 (.object 2#64) = .ok true ∧ Py.treeOperator exItems .eq 6#64 (.object 6#64) = .ok true := by
  refine ⟨exItems_typed, by decide +kernel, by decide +kernel, by decide +kernel, by decide +kernel, by decide +kernel⟩

end CCS.Props.BoundOrder
