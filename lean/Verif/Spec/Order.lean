/-! # Specification: comparison functions

A comparison function returns the sign of the C result. -/

namespace CCS.Spec

/-- `cmp` is a total preorder whose equivalence is `same`. -/
structure TotalOrder (α : Type) (cmp : α → α → Ordering) (same : α → α → Prop) : Prop where
  /-- Two values compare equal exactly when they are the same. -/
  eq_iff : ∀ a b, cmp a b = .eq ↔ same a b
  /-- Exchanging the arguments flips the answer. -/
  swap : ∀ a b, cmp b a = (cmp a b).swap
  /-- "Smaller or equal" is transitive. -/
  trans : ∀ a b c, cmp a b ≠ .gt → cmp b c ≠ .gt → cmp a c ≠ .gt
  /-- "Smaller" is transitive. -/
  trans_lt : ∀ a b c, cmp a b = .lt → cmp b c = .lt → cmp a c = .lt

end CCS.Spec
