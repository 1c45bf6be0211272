import Verif.Model.Param
import Verif.Spec.Num

/-!
# Double arithmetic

The operations of IEEE-754 binary64, rounding to nearest even, on bit patterns: the instance of `FloatOps` that
hosts provide.  Theorems about the library hold for any `FloatOps`, sometimes under stated assumptions; this instance shows
that the assumptions are met and gives concrete witnesses.  Every NaN result is the same quiet NaN.
-/

namespace CCS.Spec

open CCS

namespace Ieee

/-- The magnitude of a double that is not a NaN, in units of `2^-1074`. -/
def mag (x : F64) : Nat := magnitude (x.toNat / 2 ^ 52 % 2 ^ 11) (x.toNat % 2 ^ 52)

def neg (x : F64) : Bool := decide (2 ^ 63 ≤ x.toNat)

def isInf (x : F64) : Bool := decide (x.toNat % 2 ^ 63 = 0x7ff0000000000000)

def isZero (x : F64) : Bool := decide (x.toNat % 2 ^ 63 = 0)

def nan : F64 := 0x7ff8000000000000#64

/-- A sign and the 63 other bits. -/
def pack (s : Bool) (bits : Nat) : F64 := BitVec.ofNat 64 (if s then 2 ^ 63 + bits else bits)

def infBits : Nat := 0x7ff0000000000000

/-- `n / d` rounded to the nearest integer, ties to even. -/
def roundDiv (n d : Nat) : Nat :=
  if 2 * (n % d) < d then n / d else if d < 2 * (n % d) then n / d + 1 else n / d + n / d % 2

/-- The bits, sign excluded, of the double nearest to `num / den` units of `2^-1074`. -/
def roundMag (num den : Nat) : Nat :=
  if num / den < 2 ^ 53 then roundDiv num den
  else min (((num / den).log2 - 52) * 2 ^ 52 + roundDiv num (den * 2 ^ ((num / den).log2 - 52))) infBits

def signed (x : F64) : Int := if neg x then -(mag x : Int) else mag x

def add (a b : F64) : F64 :=
  if F64.isNaN a || F64.isNaN b then nan
  else if isInf a then (if isInf b && neg a != neg b then nan else a)
  else if isInf b then b
  else if signed a + signed b = 0 then pack (neg a && neg b) 0
  else pack (decide (signed a + signed b < 0)) (roundMag (signed a + signed b).natAbs 1)

def sub (a b : F64) : F64 := add a (b ^^^ 0x8000000000000000#64)

def mul (a b : F64) : F64 :=
  if F64.isNaN a || F64.isNaN b then nan
  else if (isInf a && isZero b) || (isZero a && isInf b) then nan
  else if isInf a || isInf b then pack (neg a != neg b) infBits
  else pack (neg a != neg b) (roundMag (mag a * mag b) (2 ^ 1074))

def div (a b : F64) : F64 :=
  if F64.isNaN a || F64.isNaN b then nan
  else if (isInf a && isInf b) || (isZero a && isZero b) then nan
  else if isInf a || isZero b then pack (neg a != neg b) infBits
  else if isInf b then pack (neg a != neg b) 0
  else pack (neg a != neg b) (roundMag (mag a * 2 ^ 1074) (mag b))

/-- `fmod`. -/
def rem (a b : F64) : F64 :=
  if F64.isNaN a || F64.isNaN b || isInf a || isZero b then nan
  else if isInf b then a
  else pack (neg a) (roundMag (mag a % mag b) 1)

/-- The conversion of a non negative integer to a double. -/
def ofNat (n : Nat) : F64 := pack false (roundMag (n * 2 ^ 1074) 1)

/-- The conversion of a double to an integer: truncation. -/
def trunc (x : F64) : Int := (signed x).tdiv (2 ^ 1074)

/-- The initial guess of a selection, `upper * target` converted to an integer. -/
def guess (upper : Int) (target : F64) : Int := trunc (mul (ofNat upper.toNat) target)

end Ieee

/-- The arithmetic of IEEE-754 binary64. -/
def ieee : FloatOps := ⟨Ieee.add, Ieee.sub, Ieee.mul, Ieee.div, Ieee.rem⟩

/-! 0.1 + 0.2 = 0.30000000000000004; 3 * (1/3) = 1; 1/49*49 = 0.9999999999999999; 5 fmod 3 = 2; 1e308*10 = inf;
smallest subnormal / 2 = 0 (tie to even); inf - inf = NaN; 1 - 1 = 0. -/
example : ieee.add 0x3fb999999999999a#64 0x3fc999999999999a#64 = 0x3fd3333333333334#64 ∧
    ieee.mul 0x4008000000000000#64 (ieee.div 0x3ff0000000000000#64 0x4008000000000000#64) = 0x3ff0000000000000#64 ∧
    ieee.mul 0x4048800000000000#64 (ieee.div 0x3ff0000000000000#64 0x4048800000000000#64) = 0x3fefffffffffffff#64 ∧
    ieee.rem 0x4014000000000000#64 0x4008000000000000#64 = 0x4000000000000000#64 ∧
    ieee.mul 0x7fe1ccf385ebc8a0#64 0x4024000000000000#64 = 0x7ff0000000000000#64 ∧
    ieee.div 1#64 0x4000000000000000#64 = 0#64 ∧
    ieee.sub 0x7ff0000000000000#64 0x7ff0000000000000#64 = Ieee.nan ∧
    ieee.sub 0x3ff0000000000000#64 0x3ff0000000000000#64 = 0#64 := by decide +kernel

end CCS.Spec
