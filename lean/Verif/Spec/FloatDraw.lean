import Verif.Spec.Distribution
import Verif.Spec.Ieee

/-! What the GSL gives the uniform distributions of doubles, on a host with the arithmetic of IEEE-754. -/

namespace CCS.Spec

open CCS

/-- A number from 0 to `1 - 2^-48`.  The generators of the GSL make at most 48 random bits, so their draws are of this
kind. -/
def SpacedDraw (t : F64) : Prop :=
  ∃ v : Int, realValue t = some v ∧ 0 ≤ v ∧ v * 2 ^ 48 ≤ 2 ^ 1074 * (2 ^ 48 - 1)

/-- `gsl_ran_flat`: one draw `t`, and `a * (1 - t) + b * t`; and `floor`, on numbers that are not negative. -/
structure GslFlat {σ : Type} (M : Machine σ) : Prop where
  ops : M.ops = ieee
  draws : ∀ g, SpacedDraw (M.uniform g).1
  flat : ∀ g a b, M.flat g a b =
    (Ieee.add (Ieee.mul a (Ieee.sub F64.one (M.uniform g).1)) (Ieee.mul b (M.uniform g).1), (M.uniform g).2)
  floor : ∀ (x : F64) (v : Int), F64.isFinite x = true → realValue x = some v → 0 ≤ v →
    F64.isFinite (M.floor x) = true ∧ ∃ k : Nat, realValue (M.floor x) = some (k * 2 ^ 1074 : Int) ∧
      (k * 2 ^ 1074 : Int) ≤ v ∧ v < (k * 2 ^ 1074 : Int) + 2 ^ 1074

/-- `floor` on the doubles that are not negative: from `2^53` on they are integers. -/
def Ieee.floorOf (x : F64) : F64 := if Ieee.mag x / 2 ^ 1074 < 2 ^ 53 then Ieee.ofNat (Ieee.mag x / 2 ^ 1074) else x

end CCS.Spec
