import Verif.Model.BoundOrder
import Verif.Spec.Kinds
import Verif.Spec.Evaluation

/-! # Specification: what comparison operators mean -/

namespace CCS.BoundOrder.Spec

open CCS CCS.BoundOrder

/-- The call answers whether `p`. -/
def Decides (r : Out Bool) (p : Prop) : Prop := ∃ b, r = .ok b ∧ (b = true ↔ p)

/-- A strict order in which any two elements are ordered or the same. -/
structure StrictOrder {α : Type} (before same : α → α → Prop) : Prop where
  irrefl : ∀ a b, same a b → ¬ before a b
  trans : ∀ a b c, before a b → before b c → before a c
  total : ∀ a b, before a b ∨ same a b ∨ before b a
  asymm : ∀ a b, before a b → ¬ before b a

/-- What the operators say, given what "before" and "the same" mean. -/
def Meaning {α : Type} (before same : α → α → Prop) (op : Operator) (a b : α) : Prop :=
  match op with
  | .lt => before a b
  | .le => before a b ∨ same a b
  | .gt => before b a
  | .ge => before b a ∨ same a b
  | .eq => same a b
  | .ne => ¬ same a b

end CCS.BoundOrder.Spec
