import Verif.Model.Seeded
import Verif.Spec.SpaceWire

/-!
# What is meant by a search that goes on after its space was saved and read
-/

namespace CCS.Resumed.Spec

open CCS CCS.Spec

/-- Ask a space for one configuration after the other, `k` times: the configurations, nothing where there was a failure, and the generator in the end. -/
def askAgain {τ : Type} (ops : FloatOps) (jen : Bytes → BitVec 32) (little : Bool) (src : BitVec 64 → Seeded.Source τ) :
    Nat → Space → τ → List (Option (List Value)) × τ
  | 0, _, g => ([], g)
  | k + 1, s, g =>
    let x := Seeded.sampleOne ops jen little s src g
    let y := askAgain ops jen little src k x.1 x.2.2
    ((match x.2.1 with
      | .ok v => some v
      | _ => none) :: y.1, y.2)

/-- What drawing from the distributions of a space does depends on their contents only: `draws` says how; the distributions are those at the addresses
of the space, with contents `ds`. -/
def DrawsBy {τ : Type} (draws : DistObj → Seeded.Source τ) (src : BitVec 64 → Seeded.Source τ) (addresses : List (BitVec 64)) (ds : List DistObj) : Prop :=
  ∀ (j : Nat) a d, addresses[j]? = some a → ds[j]? = some d → src a = draws d

/-- Two ways of asking for many configurations at once gave the same ones, both succeeded or both failed, and left the generator in the same state. -/
def SameSamples {τ : Type} (x y : List (List Value) × Out Unit × τ) : Prop := x.1 = y.1 ∧ (x.2.1 = .ok () ↔ y.2.1 = .ok ()) ∧ x.2.2 = y.2.2

end CCS.Resumed.Spec
