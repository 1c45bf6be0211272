import Verif.Spec.TreeSpace
import Verif.Spec.Ieee
import Mathlib.Algebra.Order.Field.Rat
import Mathlib.Algebra.BigOperators.Group.List.Basic

/-! # Specification of the probabilities of selections

A selection reads draws in `[0, 1)`.  The draws that lead to an outcome form a box, one interval for each draw read; for independent
uniform draws the probability of the outcome is the volume of the box. -/

namespace CCS.Spec

open CCS

/-- The number a finite double stands for. -/
def toRat (x : F64) : ℚ := (Ieee.signed x : ℚ) / 2 ^ 1074

/-- The draws from the `k`-th on fall in the intervals of the box, each with its lower bound included and its upper bound excluded. -/
def Falls (rnd : Nat → F64) : Nat → List (ℚ × ℚ) → Prop
  | _, [] => True
  | k, b :: box => b.1 ≤ toRat (rnd k) ∧ toRat (rnd k) < b.2 ∧ Falls rnd (k + 1) box

/-- The intervals lie within `[0, 1]`. -/
def UnitBox (box : List (ℚ × ℚ)) : Prop := ∀ b ∈ box, 0 ≤ b.1 ∧ b.1 ≤ b.2 ∧ b.2 ≤ 1

/-- The volume of a box. -/
def volume (box : List (ℚ × ℚ)) : ℚ := (box.map fun b => b.2 - b.1).prod

/-- The bias of a node, the number. -/
def biasOf (f : Forest) (c : Nat) : ℚ := match f.getBias c with | .ok b => toRat b | _ => 0

/-- The weight of a node, the number. -/
def weightOf (f : Forest) (h : Nat) : ℚ := match f.getWeight h with | .ok w => toRat w | _ => 0

/-- The positions where sampling below node `h` can end, at most `depth` nodes deep, each with the weight it is due: the node itself
with its weight, each missing child with 1, and the positions below each child with what they are due there times the bias of
the child. -/
def ends (f : Forest) : Nat → Nat → List (List Nat × ℚ)
  | 0, _ => []
  | depth + 1, h =>
    match f.node h with
    | none => []
    | some n => ([], weightOf f h) :: (List.range n.arity).flatMap fun i =>
      match f.getChild h i with
      | .ok none => [([i], 1)]
      | .ok (some c) => (ends f depth c).map fun e => (i :: e.1, biasOf f c * e.2)
      | _ => []

/-- What all the positions are due together. -/
def dues (l : List (List Nat × ℚ)) : ℚ := (l.map (·.2)).sum

/-- The tree below `r` has nodes of at most `breadth` children on at most `depth` levels below `r`; its totals are finite and, unless they
are zero, so are their inverses; no total times bias is too small for a double of full precision.  All this is true of trees whose
weights and biases are neither huge nor tiny. -/
structure Tame (f : Forest) (r breadth depth : Nat) : Prop where
  deep : ∀ {p h}, Leads f r p h → p.length ≤ depth
  wide : ∀ {p h n}, Leads f r p h → f.node h = some n → n.arity ≤ breadth
  total : ∀ {p h n}, Leads f r p h → f.node h = some n →
    F64.isFinite n.sum = true ∧ (F64.feq n.sum F64.zero = true ∨ F64.isFinite (ieee.div F64.one n.sum) = true)
  bias : ∀ {p h n}, Leads f r p h → p ≠ [] → f.node h = some n →
    F64.isFinite n.bias = true ∧ (toRat n.sum * toRat n.bias = 0 ∨ 1 / 2 ^ 1022 ≤ toRat n.sum * toRat n.bias)

end CCS.Spec
