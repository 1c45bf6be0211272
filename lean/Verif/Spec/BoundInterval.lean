import Verif.Model.BoundInterval
import Verif.Spec.Num

/-! # Specification: numbers between bounds -/

namespace CCS.BoundInterval.Spec

open CCS CCS.BoundInterval CCS.Spec

/-- The real number, times `2^1074`; `none` for a NaN. -/
def value : Number → Option Int
  | .int i => some (i * 2 ^ 1074)
  | .float f => realValue f

/-- A number of the type of an interval that 64 bits can hold. -/
def Fits : NumType → Number → Prop
  | .int, .int i => -2 ^ 63 ≤ i ∧ i < 2 ^ 63
  | .float, .float _ => True
  | _, _ => False

/-- What a program says of an interval. -/
structure Said where
  type : NumType
  lower : Number
  upper : Number
  lowerIncluded : Bool
  upperIncluded : Bool

/-- The number lies between the bounds. -/
def Inside (s : Said) (v : Number) : Prop :=
  ∃ l x u, value s.lower = some l ∧ value v = some x ∧ value s.upper = some u ∧
    (l < x ∨ s.lowerIncluded = true ∧ l = x) ∧ (x < u ∨ s.upperIncluded = true ∧ x = u)

/-- The interval made from what a program says. -/
def Made (lang : Lang) (toDouble : Int → Out F64) (s : Said) (iv : Interval) : Prop :=
  lang.interval toDouble s.type s.lower s.upper s.lowerIncluded s.upperIncluded = .ok iv

/-- The bounds fit, and are numbers. -/
structure Sound (s : Said) : Prop where
  lower : Fits s.type s.lower
  upper : Fits s.type s.upper

end CCS.BoundInterval.Spec
