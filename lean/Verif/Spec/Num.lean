import Verif.Model.Interval

/-!
# Specification of numbers and intervals

The number denoted by a bit pattern, and membership in an interval, in terms of ordinary
mathematics only.
-/

namespace CCS.Spec

open CCS

/-- Magnitude of a non-NaN double in units of `2^-1074`, from its exponent field `e` and fraction
field `f` (IEEE-754 binary64): subnormals are `f`, normals `(2^52 + f) * 2^(e-1)`.  Infinity
(`e = 2047`, `f = 0`) gets the next value of the same formula, larger than every finite one. -/
def magnitude (e f : Nat) : Nat := if e = 0 then f else (2 ^ 52 + f) * 2 ^ (e - 1)

/-- The real number denoted by a double, times `2^1074`; `none` for a NaN. -/
def realValue (x : BitVec 64) : Option Int :=
  let e := x.toNat / 2 ^ 52 % 2 ^ 11
  let f := x.toNat % 2 ^ 52
  if e = 2047 ∧ f ≠ 0 then none
  else some (if x.toNat / 2 ^ 63 = 1 then -(magnitude e f : Int) else magnitude e f)

/-- The number denoted by a value of the numeric union: the two's complement integer, or the
double (scaled by `2^1074`). -/
def num : NumType → BitVec 64 → Option Int
  | .int, x => some x.toInt
  | .float, x => realValue x

/-- A value of the numeric union that is a number. -/
def IsNum (t : NumType) (x : BitVec 64) : Prop := num t x ≠ none

/-- `v` lies between the bounds, with the stated inclusions. -/
def Mem (iv : Interval) (v : BitVec 64) : Prop :=
  ∃ l x u, num iv.type iv.lower = some l ∧ num iv.type v = some x ∧ num iv.type iv.upper = some u ∧
    (l < x ∨ (iv.lowerIncl ≠ 0#32 ∧ l = x)) ∧ (x < u ∨ (iv.upperIncl ≠ 0#32 ∧ x = u))

/-- The bounds are numbers. -/
def Proper (iv : Interval) : Prop := IsNum iv.type iv.lower ∧ IsNum iv.type iv.upper

end CCS.Spec
