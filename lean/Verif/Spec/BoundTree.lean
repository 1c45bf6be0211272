import Verif.Model.BoundTree
import Verif.Spec.PyDatum
import Verif.Spec.RbDatum
import Verif.Spec.Tree

/-!
# What a program in Python or Ruby expects of trees
-/

namespace CCS.BoundTree.Spec

open CCS CCS.BoundTree

/-- Going down from node `r` through children number `p` one meets the nodes `hs`, `r` first. -/
inductive Along (lang : BoundInterval.Lang) (f : Forest) : Nat → List Nat → List Nat → Prop
  | here {h : Nat} : Along lang f h [] [h]
  | down {r i c : Nat} {p hs : List Nat} : BoundTree.getChild lang f r (i : Int) = .ok (some c) → Along lang f c p hs →
    Along lang f r (i :: p) (r :: hs)

/-- One answer per node, in order. -/
def Each {α : Type} (ask : Nat → Out α) : List Nat → List α → Prop
  | [], [] => True
  | h :: hs, x :: xs => ask h = .ok x ∧ Each ask hs xs
  | _, _ => False

/-- A position as a list of integers of the language. -/
def ints (p : List Nat) : List Int := p.map (fun (i : Nat) => (i : Int))

/-- What the library keeps in a node: nothing, an integer, a double, a Boolean or a string. -/
def Label (v : Value) : Prop := v.tag ≤ 4 ∧ v ≠ .str none

/-- A language that can take every value of a node. -/
def Speaks {α : Type} (t : Tongue α) : Prop := ∀ v, Label v → ∃ x, t.take { v := v } = .ok x

/-- A value a tree can hold: `None`, a number, a Boolean or a string, that the library can represent. -/
def Labels (v : Py.Val) : Prop := Py.Spec.Representable v ∧ v ≠ .inactive

/-- The same for Ruby, where objects are values too. -/
def LabelsRb (v : Rb.Val) : Prop := Rb.Spec.Representable v ∧ v ≠ .inactive ∧ ∀ h, v ≠ .obj h

/-- A new node `h` of `f'`, with `n` empty places for children, while all other nodes answer as they did. -/
structure New (f f' : Forest) (h n : Nat) : Prop where
  fresh : f.node h = none
  arity : BoundTree.arity f' h = .ok n
  weight : BoundTree.weight f' h = .ok F64.one
  bias : BoundTree.bias f' h = .ok F64.one
  children : BoundTree.children f' h = .ok (List.replicate n none)
  parent : BoundTree.parent f' h = .ok none
  index : BoundTree.index f' h = .ok none
  others : ∀ k, k ≠ h → f'.node k = f.node k

end CCS.BoundTree.Spec
