/-
Values that cross the Python binding: class `Datum`, `bindings/python/cconfigspace/base.py:253-341`, and maps used from Python,
`bindings/python/cconfigspace/map.py`.

Simplifications: strings are the bytes of their UTF-8 encoding (`str.encode` and `decode` of Python undo each other); objects of the
library as values are left out (see `Wrappers`); `None.decode()` and other exceptions of the interpreter are `.err .external`.
-/
import Verif.Model.Map

namespace CCS.Py

/-- A value of a Python program; `other` stands for the values of all other types. -/
inductive Val where
  | none
  | bool (b : Bool)
  | int (i : Int)
  | float (f : F64)
  | str (s : Bytes)
  | inactive
  | other
  deriving DecidableEq

/-- `Datum.set_value`, `bindings/python/cconfigspace/base.py:297-337`.  A `c_int64` field takes an integer modulo 2^64; a C string
ends at its first NUL. -/
def toDatum : Val → Out Datum
  | .none => .ok { v := .none }
  | .bool b => .ok { v := .bool (if b then 1#64 else 0#64) }
  | .int i => .ok { v := .int (BitVec.ofInt 64 i) }
  | .float f => .ok { v := .float f }
  | .str s => .ok { v := .str (some (s.takeWhile (· ≠ 0#8))), transient := true }
  | .inactive => .ok { v := .inactive }
  | .other => .err .invalidValue

/-- `Datum.value`, `bindings/python/cconfigspace/base.py:274-295`. -/
def fromDatum (d : Datum) : Out Val :=
  match d.v with
  | .none => .ok .none
  | .int i => .ok (.int i.toInt)
  | .float f => .ok (.float f)
  | .bool i => .ok (.bool (i != 0#64))
  | .str (some s) => .ok (.str s)
  | .str Option.none => .err .external
  | .inactive => .ok .inactive
  | .obj _ => .err .invalidValue

/-- What changes a map from Python: `m[k] = v`, `del m[k]`. -/
inductive MapUse where
  | set (k v : Val)
  | del (k : Val)
  deriving DecidableEq

variable (jen : Bytes → BitVec 32) (little : Bool)

/-- `Map.__setitem__`, `Map.__delitem__`, `bindings/python/cconfigspace/map.py:37-49`. -/
def pyStep (m : MapState) : MapUse → Call MapState
  | .set k v =>
    match toDatum v, toDatum k with
    | .ok dv, .ok dk => mapSet jen little m dk dv
    | _, _ => .ret (some .invalidValue) m
  | .del k =>
    match toDatum k with
    | .ok dk => mapDel jen little m dk
    | _ => .ret (some .invalidValue) m

/-- `Map.__getitem__`, `bindings/python/cconfigspace/map.py:29-35`. -/
def pyGet (m : MapState) (k : Val) : Out Val :=
  toDatum k >>= fun d => fromDatum (mapGet jen little m d)

/-- `Map.has_key`, `bindings/python/cconfigspace/map.py:51-57`: the library is asked, then the name `ccs_false`, which the module does
not import, raises an exception (as would `b._value`). -/
def pyHasKey (m : MapState) (k : Val) : Out Bool :=
  toDatum k >>= fun d => (fun (_ : Bool) => .err .external) (mapExist jen little m d)

end CCS.Py
