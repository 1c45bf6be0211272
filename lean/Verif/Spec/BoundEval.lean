import Verif.Model.BoundEval
import Verif.Spec.BoundValues
import Verif.Spec.Evaluation

/-!
# What a program in Python or Ruby expects of objective spaces and evaluations
-/

namespace CCS.BoundEval.Spec

open CCS CCS.BoundEval CCS.BoundTree CCS.BoundInterval

/-- A value that is no object and no string lost. -/
def Ordinary : Value → Prop
  | .obj _ => False
  | .str none => False
  | _ => True

/-- The Python value that shows a value of the library. -/
def ShowsPy : Value → Py.Val → Prop
  | .none, x => x = .none
  | .int i, x => x = .int i.toInt
  | .float f, x => x = .float f
  | .bool b, x => x = .bool (b != 0#64)
  | .str (some s), x => x = .str s
  | .inactive, x => x = .inactive
  | _, _ => False

/-- The Ruby value that shows a value of the library. -/
def ShowsRb : Value → Rb.Val → Prop
  | .none, x => x = .nil
  | .int i, x => x = .int i.toInt
  | .float f, x => x = .float f
  | .bool b, x => x = .bool (b != 0#64)
  | .str (some s), x => x = .str s true
  | .inactive, x => x = .inactive
  | _, _ => False

/-- A language shows every ordinary value. -/
def Shows {α : Type} (t : Tongue α) (shows : Value → α → Prop) : Prop :=
  ∀ v, Ordinary v → ∃ x, t.take { v := v } = .ok x ∧ shows v x

/-- One after the other. -/
def AllShown {α : Type} (shows : Value → α → Prop) : List Value → List α → Prop
  | [], [] => True
  | v :: vs, x :: xs => shows v x ∧ AllShown shows vs xs
  | _, _ => False

/-- An integer of 32 bits. -/
def Small (i : Int) : Prop := -2 ^ 31 ≤ i ∧ i < 2 ^ 31

/-- MINIMIZE, the type of an objective when none is given. -/
def minimize : Int := 0

end CCS.BoundEval.Spec
