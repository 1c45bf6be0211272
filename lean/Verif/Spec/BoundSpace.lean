/-
What a program in Python or Ruby expects of a configuration space: what a list of keys stands for, and what is done to a space by a
sequence of calls of the library.
-/
import Verif.Model.BoundSpace
import Verif.Spec.BoundValues
import Verif.Spec.Space

namespace CCS.Spec
open CCS

/-- The parameters with a condition (or without), in the order of the space: the list has exactly these, each once. -/
def ListsThose (s : Space) (wanted : Bool) (hs : List (BitVec 64)) : Prop :=
  hs.Sublist s.handles ∧
  ∀ (i : Nat) h c, (conditions s)[i]? = some (h, c) → (h ∈ hs ↔ (c.isSome = wanted))

/-- Parameters added one after the other by the library, each with its distribution, or with the default one. -/
def additions (hs : List (BitVec 64)) (d : Nat → Option Dist) : List SpaceOp :=
  (List.range hs.length).map fun i => .addParameter (hs.getD i 0#64) (d i)

/-- Calls made one after the other until one fails. -/
def runUntil (ops : FloatOps) (jen : Bytes → BitVec 32) (little : Bool) (mem : BitVec 64 → Param) (mk : Nat → Param → Out Dist) :
    Space → List SpaceOp → Space × Out Unit
  | s, [] => (s, .ok ())
  | s, op :: rest =>
    match Space.step ops jen little mem mk s op with
    | (s', .ok ()) => runUntil ops jen little mem mk s' rest
    | r => r

end CCS.Spec

namespace CCS.Py.Spec
open CCS CCS.Py CCS.Spec

/-- The keys stand, one by one, for the positions. -/
def NameAll (c : Ctx) (ks : List Key) (is : List Nat) : Prop :=
  ks.length = is.length ∧ ∀ (j : Nat) k i, ks[j]? = some k → is[j]? = some i → Names c i k

end CCS.Py.Spec

namespace CCS.Rb.Spec
open CCS CCS.Rb CCS.Spec

/-- The keys stand, one by one, for the positions. -/
def NameAll (c : Ctx) (ks : List Key) (is : List Nat) : Prop :=
  ks.length = is.length ∧ ∀ (j : Nat) k i, ks[j]? = some k → is[j]? = some i → Names c i k

/-- A key that is a name. -/
def IsName : Key → Prop
  | .name _ => True
  | .symbol _ => True
  | _ => False

end CCS.Rb.Spec
