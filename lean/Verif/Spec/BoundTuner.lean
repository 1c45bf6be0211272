import Verif.Model.BoundTuner
import Verif.Spec.Tuner

/-!
# What a program in Python or Ruby expects of a tuner
-/

namespace CCS.BoundTuner.Spec

open CCS CCS.BoundTuner

/-- A batch of evaluations told in one call: they are objects, and comparing them is defined. -/
def Sound (c : TunerEnv × List (BitVec 64)) : Prop := (∀ e ∈ c.2, e ≠ 0#64) ∧ ∀ x y, c.1.compare x y ≠ .ub

/-- The evaluations told that succeeded, in order. -/
def successes (calls : List (TunerEnv × List (BitVec 64))) : List (BitVec 64) :=
  calls.flatMap fun c => c.2.filter fun e => c.1.result e == 0#32

/-- A tuner as it is after telling it evaluations in batches. -/
def after (calls : List (TunerEnv × List (BitVec 64))) : Tuner := Tuner.empty.tells calls

end CCS.BoundTuner.Spec
