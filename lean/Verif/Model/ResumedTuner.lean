import Verif.Model.Seeded
import Verif.Model.Tuner

/-!
# A random tuner and the generator of its space

`src/tuner_random.c` and `src/features_tuner_random.c`, with the draws of `Model/Seeded`: what it gives when it is asked and told, one call after the other.

Simplifications: the failures of asking are not told apart; features given to a features tuner were found valid (`src/features_tuner.c:170-173`).
-/

namespace CCS.ResumedTuner

open CCS

/-- What a program wants of a tuner: `ccs_tuner_ask` for so many configurations, `ccs_tuner_suggest`, `ccs_tuner_tell` with evaluations at addresses;
`src/tuner.c:54-71`, `:124-133` and `:73-85`; of a features tuner, `ccs_features_tuner_suggest` with features at an address, `src/features_tuner.c:158-176`. -/
inductive Want
  | ask (n : Nat)
  | suggest
  | tell (es : List (BitVec 64))
  | suggestFor (features : BitVec 64)

/-- What it gets: new configurations, the configuration of the evaluation at an address, an error, or the outcome of telling. -/
inductive Reply
  | asked (cs : List (List Value))
  | known (evaluation : BitVec 64)
  | failed
  | told (r : Out Unit)
  deriving DecidableEq

section
variable {σ : Type} (ops : FloatOps) (jen : Bytes → BitVec 32) (little : Bool) (env : TunerEnv) (same : BitVec 64 → BitVec 64 → Bool)
  (get : σ → BitVec 64 × σ) (src : BitVec 64 → Seeded.Source σ)

/-- `_ccs_tuner_random_ask`, `src/tuner_random.c:152-169`, and `_ccs_features_tuner_random_ask`, `src/features_tuner_random.c:157-177`, with room for the configurations. -/
def ask (s : Space) (g : σ) (n : Nat) : Space × Reply × σ :=
  match Seeded.sampleMany ops jen little s src n g with
  | (s', cs, .ok (), g') => (s', .asked cs, g')
  | (s', _, .err _, g') => (s', .failed, g')
  | (s', _, .ub, g') => (s', .failed, g')

/-- `_ccs_tuner_random_ask`, `_ccs_tuner_random_suggest` and `_ccs_tuner_random_tell`, `src/tuner_random.c:152-169,299-320,179-245`: the tuner and its space
afterwards, the reply and the generator; `get` is `ccs_rng_get` on the generator of the space. For features tuners
`_ccs_features_tuner_random_suggest` and `_tell`, `src/features_tuner_random.c:380-426,187-254`; `same` says whether an evaluation has given features (`:393-399`). -/
def turn (t : Tuner) (s : Space) (g : σ) : Want → Tuner × Space × Reply × σ
  | .ask n => (t, ask ops jen little src s g n)
  | .suggest =>
    if 0 < t.optima.length then
      match t.optima[(get g).1.toNat % t.optima.length]? with
      | some e => (t, s, .known e, (get g).2)
      | none => (t, s, .failed, (get g).2)
    else (t, ask ops jen little src s g 1)
  | .suggestFor φ =>
    if 0 < (t.optima.filter (same φ)).length then
      match pickLoop (same φ) ((get g).1.toNat % (t.optima.filter (same φ)).length) t.optima with
      | some e => (t, s, .known e, (get g).2)
      | none => (t, s, .failed, (get g).2)
    else (t, ask ops jen little src s g 1)
  | .tell es => ((t.tell env es).1, s, .told (t.tell env es).2, g)

/-- One call after the other: the replies, the tuner and the generator in the end. -/
def search : Tuner → Space → σ → List Want → List Reply × Tuner × σ
  | t, _, g, [] => ([], t, g)
  | t, s, g, w :: ws =>
    let x := turn ops jen little env same get src t s g w
    let y := search x.1 x.2.1 x.2.2.2 ws
    (x.2.2.1 :: y.1, y.2)

end

end CCS.ResumedTuner
