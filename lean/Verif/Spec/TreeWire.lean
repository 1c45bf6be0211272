import Verif.Model.TreeWire
import Verif.Spec.Tree
import Verif.Spec.TreeSpace
import Verif.Spec.Expr

/-!
# Specification of the serialization of trees

What it means for two trees to be the same, in terms of what the library reports.
-/

namespace CCS.Spec

open CCS

/-- Nodes `h` and `h'` show the same arity, value, own weight, bias and user data, bit for bit. -/
def SameNode (g : Grove) (h : Nat) (g' : Grove) (h' : Nat) : Prop :=
  ∃ s : Sprout, Shows g.trees h s ∧ Shows g'.trees h' s ∧ g.data h = g'.data h'

/-- The trees below `h` and `h'` have the same positions, with the same nodes at each. -/
def SameTree (g : Grove) (h : Nat) (g' : Grove) (h' : Nat) : Prop :=
  (∀ p k, Leads g.trees h p k → ∃ k', Leads g'.trees h' p k' ∧ SameNode g k g' k') ∧
  (∀ p k', Leads g'.trees h' p k' → ∃ k, Leads g.trees h p k)

/-- What can be stored: below `h`, string values have no interior NUL, boolean values fit in 32 bits, and the sizes of the
user data fit in 64 bits. -/
def StorableTree (g : Grove) (h : Nat) : Prop :=
  ∀ p k, Leads g.trees h p k → (∀ v, g.trees.getValue k = .ok v → StorableValue v) ∧ (g.data k).length < 2 ^ 64

end CCS.Spec
