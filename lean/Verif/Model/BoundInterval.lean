import Verif.Model.Interval
import Verif.Model.RbDatum

/-!
# Intervals from Python and Ruby

`bindings/python/cconfigspace/interval.py` and `bindings/ruby/lib/cconfigspace/interval.rb`, on top of `src/interval.c` (`Model/Interval`).

Simplifications: exceptions of the languages are the code EXTERNAL; what the languages make of an integer given where a float is expected is
a parameter, `toDouble`; the type of an interval is one of the two valid ones and is not changed afterwards.
-/

namespace CCS.BoundInterval

open CCS

/-- The two languages. -/
inductive Lang
  | python | ruby
  deriving DecidableEq, Repr

/-- A number of either language: an integer of any size or a double. -/
inductive Number
  | int (i : Int)
  | float (f : F64)
  deriving DecidableEq, Repr

/-- The integer part of a double, in units of `2^-1074` (fields of IEEE-754 binary64); `none` for a NaN or an infinity. -/
def truncated (f : F64) : Option Int :=
  let e := f.toNat / 2 ^ 52 % 2 ^ 11
  let m := f.toNat % 2 ^ 52
  let mag : Nat := if e = 0 then m else (2 ^ 52 + m) * 2 ^ (e - 1)
  if e = 2047 then none
  else some (if f.toNat / 2 ^ 63 = 1 then -((mag / 2 ^ 1074 : Nat) : Int) else ((mag / 2 ^ 1074 : Nat) : Int))

/-- What is stored in `ccs_numeric_t` for a number: `self._lower.i = value`, `self._lower.f = value`
(`bindings/python/cconfigspace/interval.py:12-20`, `:49-57` and `:69-77`) and `self[:lower][:f] = v`, `self[:lower][:i] = v`
(`bindings/ruby/lib/cconfigspace/interval.rb:15-28`, `:48-57` and `:70-79`).  A `c_int64` takes an integer modulo 2^64 and refuses a float; an
`:int64` of Ruby's FFI refuses integers that do not fit and takes the integer part of a float (`NUM2LL`). -/
def Lang.numeric (lang : Lang) (toDouble : Int → Out F64) : NumType → Number → Out (BitVec 64)
  | .float, .float f => .ok f
  | .float, .int i => toDouble i
  | .int, .int i =>
    match lang with
    | .python => .ok (BitVec.ofInt 64 i)
    | .ruby => Rb.int64 i
  | .int, .float f =>
    match lang with
    | .python => .err .external
    | .ruby =>
      match truncated f with
      | some i => Rb.int64 i
      | none => .err .external

/-- `ccs_true`, `ccs_false`. -/
def flag (b : Bool) : BitVec 32 := if b then 1#32 else 0#32

/-- `Interval(...)`, `bindings/python/cconfigspace/interval.py:12-29` and `bindings/ruby/lib/cconfigspace/interval.rb:9-31`, with both
bounds given. -/
def Lang.interval (lang : Lang) (toDouble : Int → Out F64) (t : NumType) (lower upper : Number) (li ui : Bool) : Out Interval := do
  let l ← lang.numeric toDouble t lower
  let u ← lang.numeric toDouble t upper
  .ok ⟨t, l, u, flag li, flag ui⟩

/-- What is read from `ccs_numeric_t`. -/
def read : NumType → BitVec 64 → Number
  | .int, x => .int x.toInt
  | .float, x => .float x

/-- `lower`, `interval.py:39-47`, `interval.rb:37-46`. -/
def lower (iv : Interval) : Number := read iv.type iv.lower

/-- `upper`, `interval.py:59-67`, `interval.rb:59-68`. -/
def upper (iv : Interval) : Number := read iv.type iv.upper

/-- `lower_included`, `interval.py:79-81`, `interval.rb:81-83`. -/
def lowerIncluded (iv : Interval) : Bool := iv.lowerIncl != 0#32

/-- `upper_included`, `interval.py:90-92`, `interval.rb:85-87`. -/
def upperIncluded (iv : Interval) : Bool := iv.upperIncl != 0#32

/-- `include`, `interval.py:121-131`, and `include?`, `interval.rb:115-127`. -/
def Lang.include (lang : Lang) (toDouble : Int → Out F64) (iv : Interval) (v : Number) : Out Bool := do
  let x ← lang.numeric toDouble iv.type v
  .ok (iv.include x)

/-- `empty`, `interval.py:101-106`, and `empty?`, `interval.rb:97-101`. -/
def empty (iv : Interval) : Bool := iv.empty

/-- `intersect`, `interval.py:108-112`, `interval.rb:103-107`. -/
def intersect (a b : Interval) : Out Interval := a.intersect b

/-- `==`, `interval.py:114-118`, `interval.rb:109-113`. -/
def equals (a b : Interval) : Out Bool := a.equal b

end CCS.BoundInterval
