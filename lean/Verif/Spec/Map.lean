import Verif.Model.Map

/-! # Specification: finite maps and reference counting

Keys and values are compared by kind and content (`Datum.v`); flags are ignored. -/

namespace CCS.Spec

open CCS

/-- A finite map. -/
abbrev FMap := Value → Option Value

/-- Effect of a call that returned `code`: a refused call changes nothing. -/
def FMap.apply (f : FMap) (op : MapOp) (code : Option Err) : FMap :=
  match code with
  | some _ => f
  | none =>
    match op with
    | .set k v => fun x => if x = k.v then some v.v else f x
    | .del k => fun x => if x = k.v then none else f x
    | .clear => fun _ => none

/-- Effect of a history of calls with their result codes. -/
def FMap.history (f : FMap) : List (MapOp × Option Err) → FMap
  | [] => f
  | (op, code) :: h => FMap.history (f.apply op code) h

/-- One if the datum is the object `h` itself (not its plain identifier). -/
def holds (h : BitVec 64) (d : Datum) : Nat := if d.v = .obj h ∧ d.id = false then 1 else 0

/-- Number of keys and values of the entries that are the object `h`. -/
def occurrences (h : BitVec 64) : List Entry → Nat
  | [] => 0
  | e :: es => holds h e.key + holds h e.value + occurrences h es

/-- The datums a call passes to the map. -/
def MapOp.args : MapOp → List Datum
  | .set k v => [k, v]
  | .del k => [k]
  | .clear => []

/-- The association of an entry. -/
def assoc (e : Entry) : Value × Value := (e.key.v, e.value.v)

/-- The datum can be written faithfully: a string is a real C string, and a boolean fits the
32-bit boolean type. -/
def Plain (v : Value) : Prop :=
  (∀ s, v = .str s → ∃ t, s = some t ∧ 0#8 ∉ t ∧ t.length + 1 < 2 ^ 64) ∧
  (∀ i, v = .bool i → (i.setWidth 32).signExtend 64 = i)

end CCS.Spec
