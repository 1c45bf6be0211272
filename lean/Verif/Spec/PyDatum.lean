/-
What a Python program expects of values it gives to the library and of maps.
-/
import Verif.Model.PyDatum

namespace CCS.Py.Spec
open CCS CCS.Py

/-- Values the library can represent: integers of 64 bits, strings without NUL. -/
def Representable : Val → Prop
  | .int i => -2 ^ 63 ≤ i ∧ i < 2 ^ 63
  | .str s => 0#8 ∉ s
  | .other => False
  | _ => True

/-- A dictionary. -/
abbrev Dict := Val → Option Val

/-- A dictionary after `m[k] = v` or `del m[k]`. -/
def Dict.after (f : Dict) : MapUse → Dict
  | .set k v => fun x => if x = k then some v else f x
  | .del k => fun x => if x = k then none else f x

/-- All the values of an operation can be represented. -/
def Fits : MapUse → Prop
  | .set k v => Representable k ∧ Representable v
  | .del k => Representable k

end CCS.Py.Spec
