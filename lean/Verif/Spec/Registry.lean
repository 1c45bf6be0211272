/-
What a program expects of the callbacks and data it attaches to an object of the library, in words of the program only.
-/
import Verif.Model.Registry

namespace CCS.Py.Spec
open CCS.Py

/-- Operations that make the binding keep something for the object. -/
def Registers : Op → Bool
  | .setDestroy _ | .setData _ | .setSerializer _ | .keepString _ => true
  | .getData | .serialize => false

/-- The destroy callbacks set, in order. -/
def destroyCallbacks (ops : List Op) : List Nat :=
  ops.filterMap fun | .setDestroy c => some c | _ => none

/-- The answers to a history, when `d` are the data and `s` the serialization callback last set: reading the data gives those last
set, and writing the object calls the serialization callback last set, if there are data. -/
def answers (d s : Option Nat) : List Op → List Answer
  | [] => []
  | .setDestroy _ :: ops => .done :: answers d s ops
  | .setData d' :: ops => .done :: answers d' s ops
  | .setSerializer s' :: ops => .done :: answers d s' ops
  | .keepString _ :: ops => .done :: answers d s ops
  | .getData :: ops => .data d :: answers d s ops
  | .serialize :: ops => .called (if d.isSome then s else none) :: answers d s ops

/-- The first thing kept for the object is a destroy callback. -/
def FirstIsDestroy (ops : List Op) : Prop := ∃ c, ops.find? Registers = some (.setDestroy c)

end CCS.Py.Spec
