/-
Values that cross the Ruby binding: class `Datum`, `bindings/ruby/lib/cconfigspace/base.rb:318-483`, and maps used from Ruby,
`bindings/ruby/lib/cconfigspace/map.rb`.

What the binding asks of FFI is modelled after FFI's documentation: a bitmask gives its symbols the powers of two in order, refuses
symbols it does not have and reads the bits it does not have as an integer; a field of type `int64` refuses integers that do not fit;
`read_string` stops at the first NUL and gives a string whose encoding is binary.

Simplifications: a string is its bytes, and whether its encoding is binary or UTF-8; floats are the same when their bits are; the
release of objects that the program does not use any more is left out (the program keeps all its objects); exceptions of Ruby are
`.err .external`.
-/
import Verif.Model.Map

namespace CCS.Rb

/-- A value of a Ruby program: `obj` is an object of the library in the class of its type, `ident` an instance of `CCS::Object`
itself, which stands for the identifier of an object; `other` stands for the values of all other types. -/
inductive Val where
  | nil
  | bool (b : Bool)
  | int (i : Int)
  | float (f : F64)
  | str (s : Bytes) (binary : Bool)
  | inactive
  | obj (h : BitVec 64)
  | ident (h : BitVec 64)
  | other
  deriving DecidableEq

/-- The symbols of the flags of a datum, `bindings/ruby/lib/cconfigspace/base.rb:216-220`. -/
inductive Flag where
  | transient | unpooled | ident
  deriving DecidableEq

/-- A bitmask of FFI made of a list of symbols. -/
structure Mask where
  symbols : List Flag

/-- The bit of a symbol: its place in the list. -/
def Mask.bit? (m : Mask) (f : Flag) : Option Nat := (m.symbols.findIdx? (· = f)).map (2 ^ ·)

/-- `DatumFlags`, `bindings/ruby/lib/cconfigspace/base.rb:222-224`. -/
def datumFlags : Mask := ⟨[.transient, .unpooled]⟩

/-- The bits that a symbol, or 0, assigned to the field `flags` gives. -/
def Mask.write (m : Mask) : Option Flag → Out Nat
  | none => .ok 0
  | some f =>
    match m.bit? f with
    | some b => .ok b
    | none => .err .external

/-- Is a symbol among those that the field `flags` is read as? -/
def Mask.reads (m : Mask) (bits : Nat) (f : Flag) : Bool :=
  match m.bit? f with
  | some b => bits &&& b != 0
  | none => false

/-- The bits of the flags of a datum, `include/cconfigspace/base.h:340-356`. -/
def bitsOf (d : Datum) : Nat := (if d.transient then 1 else 0) + (if d.unpooled then 2 else 0) + (if d.id then 4 else 0)

/-- A datum with a value and the bits of its flags. -/
def withBits (v : Value) (bits : Nat) : Datum := ⟨v, bits.testBit 0, bits.testBit 1, bits.testBit 2⟩

/-- A field of type `int64`. -/
def int64 (i : Int) : Out (BitVec 64) :=
  if -2 ^ 63 ≤ i ∧ i < 2 ^ 63 then .ok (BitVec.ofInt 64 i) else .err .external

/-- `Datum.from_value`, `bindings/ruby/lib/cconfigspace/base.rb:436-482` (`Datum#set_value`, lines 376-429). -/
def toDatum : Val → Out Datum
  | .nil => .ok { v := .none }
  | .bool b => .ok { v := .bool (if b then 1#64 else 0#64) }
  | .int i => int64 i >>= fun n => .ok { v := .int n }
  | .float f => .ok { v := .float f }
  | .str s _ => datumFlags.write (some .transient) >>= fun b => .ok (withBits (.str (some (s.takeWhile (· ≠ 0#8)))) b)
  | .inactive => .ok { v := .inactive }
  | .obj h => datumFlags.write (some .transient) >>= fun b => .ok (withBits (.obj h) b)
  | .ident h => datumFlags.write (some .ident) >>= fun b => .ok (withBits (.obj h) b)
  | .other => .err .invalidType

/-- `Object.from_handle`, `bindings/ruby/lib/cconfigspace/base.rb:643-658`: the count of the object is read, then its type, and it is
retained.  Simplification: no object that is being destroyed (whose count is 0). -/
def fromHandle (r : Refs) (h : BitVec 64) : Out (Val × Refs) :=
  if h = 0#64 then .err .invalidObject
  else
    match retain r h with
    | .ret none r' => .ok (.obj h, r')
    | .ret (some e) _ => .err e
    | .ub => .ub

/-- `Datum#value`, `bindings/ruby/lib/cconfigspace/base.rb:350-374`. -/
def fromDatum (r : Refs) (d : Datum) : Out (Val × Refs) :=
  match d.v with
  | .none => .ok (.nil, r)
  | .int i => .ok (.int i.toInt, r)
  | .float f => .ok (.float f, r)
  | .bool i => .ok (.bool (i != 0#64), r)
  | .str (some s) => .ok (.str s true, r)
  | .str none => .err .external
  | .inactive => .ok (.inactive, r)
  | .obj h => if datumFlags.reads (bitsOf d) .ident then .ok (.ident h, r) else fromHandle r h

/-- What a program does with a map. -/
inductive Use where
  | set (k v : Val)
  | get (k : Val)
  | has (k : Val)
  | size
  deriving DecidableEq

/-- What it gets. -/
inductive Answer where
  | done
  | value (v : Val)
  | flag (b : Bool)
  | count (n : Nat)
  deriving DecidableEq

section
variable (jen : Bytes → BitVec 32) (little : Bool)

/-- `Map#[]=`, `Map#[]`, `Map#include?`, `Map#size`, `bindings/ruby/lib/cconfigspace/map.rb:26-52`. -/
def use (m : MapState) : Use → Out (MapState × Answer)
  | .set k v => toDatum k >>= fun dk => toDatum v >>= fun dv =>
    match mapSet jen little m dk dv with
    | .ret none m' => .ok (m', .done)
    | .ret (some e) _ => .err e
    | .ub => .ub
  | .get k => toDatum k >>= fun dk => fromDatum m.refs (mapGet jen little m dk) >>= fun x =>
    .ok ({ m with refs := x.2 }, .value x.1)
  | .has k => toDatum k >>= fun dk => .ok (m, .flag (mapExist jen little m dk))
  | .size => .ok (m, .count m.entries.length)

/-- A program. -/
def uses (m : MapState) : List Use → Out (MapState × List Answer)
  | [] => .ok (m, [])
  | u :: us => use jen little m u >>= fun x => uses x.1 us >>= fun y => .ok (y.1, x.2 :: y.2)

end

/-- A call of the method `count`, which neither `Map` nor `CCS::Object` has. -/
def count : Out Nat := .err .external

/-- `Map#keys`, `Map#values`, `Map#pairs`, `bindings/ruby/lib/cconfigspace/map.rb:54-79`, and with them `each`, `each_key` and
`each_value` (lines 81-107) given a block: after the size is read, `count` is called.  What follows is left out. -/
def enumerate (m : MapState) : Out (List Val) :=
  (fun (_ : Nat) => count >>= fun _ => .ok []) m.entries.length

end CCS.Rb
