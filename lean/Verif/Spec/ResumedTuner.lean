import Verif.Model.ResumedTuner
import Verif.Spec.Resumed
import Verif.Spec.RunWire

/-!
# What is meant by a tuner that goes on after it was saved and read
-/

namespace CCS.ResumedTuner.Spec

open CCS CCS.ResumedTuner

/-- The reply in a process where evaluations have the addresses given by `f`. -/
def movedReply (f : BitVec 64 → BitVec 64) : Reply → Reply
  | .asked cs => .asked cs
  | .known e => .known (f e)
  | .failed => .failed
  | .told r => .told r

/-- The same wish in a process where evaluations have the addresses given by `f`, and features those given by `k`. -/
def movedWant (f k : BitVec 64 → BitVec 64) : Want → Want
  | .ask n => .ask n
  | .suggest => .suggest
  | .tell es => .tell (es.map f)
  | .suggestFor φ => .suggestFor (k φ)

/-- Two processes agree on which of the evaluations of `S` have which features. -/
def SameChoice (S : BitVec 64 → Prop) (f k : BitVec 64 → BitVec 64) (same same' : BitVec 64 → BitVec 64 → Bool) : Prop :=
  ∀ φ x, S x → same' (k φ) (f x) = same φ x

/-- Only evaluations of `S` are told. -/
def TellsOnly (S : BitVec 64 → Prop) (ws : List Want) : Prop := ∀ es, .tell es ∈ ws → ∀ e ∈ es, S e

end CCS.ResumedTuner.Spec
