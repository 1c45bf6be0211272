import Verif.Model.Roulette
import Verif.Spec.Num

/-! # Specification of roulette selection -/

namespace CCS.Spec

open CCS

/-- The bit pattern is a NaN. -/
def NotANumber (x : F64) : Prop := realValue x = none

/-- The number denoted by `t` lies in the area that goes from `lo`, included, to `hi`, excluded. -/
def AreaHolds (lo hi t : F64) : Prop :=
  ∃ a b x, realValue lo = some a ∧ realValue hi = some b ∧ realValue t = some x ∧ a ≤ x ∧ x < b

/-- The bounds of area `i` of a list of bounds hold the number. -/
def AreaOf (values : List F64) (i : Nat) (t : F64) : Prop :=
  ∃ lo hi, values[i]? = some lo ∧ values[i + 1]? = some hi ∧ AreaHolds lo hi t

/-- A draw in `[0, 1)`. -/
def UnitDraw (t : F64) : Prop := AreaHolds F64.zero F64.one t

/-- The initial guess of a selection among `size` areas is one of them. -/
def GoodGuess (guess : Int → F64 → Int) (size : Nat) (t : F64) : Prop :=
  0 ≤ guess ((size : Int) - 1) t ∧ guess ((size : Int) - 1) t < size

end CCS.Spec
