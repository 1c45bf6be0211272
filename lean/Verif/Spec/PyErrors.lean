/-
What a program in Python expects of exceptions raised in callbacks.
-/
import Verif.Model.PyErrors

namespace CCS.Py.Spec
open CCS CCS.Py CCS.Stacks

/-- An error as it is seen: the code, the text, and the places it went through before the last call of the library. -/
structure Report where
  code : Err
  text : Bytes
  places : List Frame
  deriving DecidableEq

/-- What goes out of a program: nothing, or an error and the places it crosses in the program itself. -/
def outcome : Body → Option (Report × List Frame)
  | .done => none
  | .raise trace text => some (⟨.external, text, []⟩, trace)
  | .raiseError trace code => some (⟨code, [], []⟩, trace)
  | .exit => none
  | .call path callback trace next =>
    match outcome callback with
    | some (r, inner) => some (⟨r.code, r.text, r.places ++ inner ++ path⟩, trace)
    | none => outcome next
  | .attempt _ _ next => outcome next

/-- All the exceptions raised have a text, without NUL, and are instances of `Exception`. -/
def Told : Body → Prop
  | .done => True
  | .raise _ text => text ≠ [] ∧ 0#8 ∉ text
  | .raiseError _ _ => True
  | .exit => False
  | .call _ callback _ next => Told callback ∧ Told next
  | .attempt _ callback next => Told callback ∧ Told next

/-- An exception shows a report: an instance of `Error` has its code and holds a stack with the code, the text and the places, which
nothing else refers to; an exception that did not cross the library yet has the text. -/
def Shows (w : World) (e : Exc) (r : Report) : Prop :=
  match e with
  | .error code (some h) => code = r.code ∧ w.heap h = some ⟨⟨r.code, r.text, r.places⟩, 1⟩
  | .error code none => code = r.code ∧ r.text = [] ∧ r.places = []
  | .other text => r = ⟨.external, text, []⟩
  | .exit => False

/-- The stack an exception holds. -/
def held : Exc → Option Nat
  | .error _ h => h
  | _ => none

end CCS.Py.Spec
