/-
What the library is promised by callbacks that fill arrays (`include/cconfigspace/tuner.h`, `ccs_tuner_ask`, `ccs_tuner_get_optima`).
-/
import Verif.Model.Callbacks

namespace CCS.Py.Spec
open CCS CCS.Py

/-- The bytes of place `i` of an array of handles. -/
def place (bs : Bytes) (i : Nat) : Bytes := (bs.drop (8 * i)).take 8

/-- An array of `num` places holds the handles one after the other, then NULL. -/
def Lists (little : Bool) (num : Nat) (hs : List (BitVec 64)) (bs : Bytes) : Prop :=
  bs.length = 8 * num ∧ ∀ i, i < num → place bs i = hostBytes little 8 (hs.getD i 0#64)

/-- A callback that gives the objects `hs` answered as documented: with the count, the objects in the array when there is one, each with a
reference of the caller when `owned`; or it refused an array that is too short, and did nothing. -/
def Answered (little owned : Bool) (num : Nat) (array : Option Bytes) (count : Bool) (hs : List (BitVec 64)) (e : Effect) : Prop :=
  match array with
  | none => e = ⟨none, none, if count then some hs.length else none, []⟩
  | some old =>
    if hs.length ≤ num then
      ∃ bs, Lists little num hs bs ∧ e = ⟨none, some bs, if count then some hs.length else none, if owned then hs else []⟩
    else e = ⟨some .invalidValue, some old, none, []⟩

end CCS.Py.Spec
