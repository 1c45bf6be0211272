import Verif.Spec.FloatDraw
import Mathlib.Analysis.SpecialFunctions.Log.Deriv

/-! The best `log` and `exp` a C library can have: the double nearest to the real result. -/

namespace CCS.Spec

open CCS

/-- The real number a finite double stands for. -/
noncomputable def toReal (x : F64) : ℝ := (Ieee.signed x : ℝ) / 2 ^ 1074

/-- No double is nearer to `r` than `x`. -/
def NearestDouble (r : ℝ) (x : F64) : Prop :=
  F64.isFinite x = true ∧ ∀ y, F64.isFinite y = true → |toReal x - r| ≤ |toReal y - r|

/-- `log` of the positive doubles and `exp`, where it does not overflow, are the nearest doubles; the conversion to an integer of a
double within the integers drops its fraction. -/
structure BestLibm {σ : Type} (M : Machine σ) : Prop where
  log : ∀ x, F64.isFinite x = true → 0 < Ieee.signed x → NearestDouble (Real.log (toReal x)) (M.log x)
  exp : ∀ x, F64.isFinite x = true → toReal x ≤ 700 → NearestDouble (Real.exp (toReal x)) (M.exp x)
  toInt : ∀ (x : F64) (k : Nat), realValue x = some (k * 2 ^ 1074 : Int) → k < 2 ^ 63 → M.toInt x = some (BitVec.ofNat 64 k)

end CCS.Spec
