import Verif.Model.Tuner
import Verif.Model.BoundInterval

/-!
# Tuners used from Python and Ruby

Models the classes `Tuner`, `FeaturesTuner` and `TreeTuner` of `bindings/python/cconfigspace/tuner.py`, `features_tuner.py` and `tree_tuner.py`, and
of `bindings/ruby/lib/cconfigspace/tuner.rb`, `features_tuner.rb` and `tree_tuner.rb`.  An object of the bindings is the handle it
holds.  Nothing is kept in the objects but the handle, the name, the type and the spaces, which do not change.
-/

namespace CCS.BoundTuner

open CCS CCS.BoundInterval

/-- `Evaluation.from_handle`, `bindings/python/cconfigspace/evaluation.py:45-47` and `base.py:446-454`, and
`bindings/ruby/lib/cconfigspace/evaluation.rb:50-52`: the object holds a reference of its own, and `ccs_retain_object` refuses NULL. -/
def objectOf (h : BitVec 64) : Out (BitVec 64) := if h = 0#64 then .err .invalidObject else .ok h

/-- `[Evaluation.from_handle(ccs_evaluation(x)) for x in v]`, `tuner.py:106`, and `count.times.collect { … }`, `tuner.rb:75`. -/
def objectsOf : List (BitVec 64) → Out (List (BitVec 64))
  | [] => .ok []
  | h :: hs => do
    let x ← objectOf h
    let xs ← objectsOf hs
    .ok (x :: xs)

/-- What `ccs_tuner_get_history` and its likes are: the size of the array, if there is one, and whether a count is asked for. -/
abbrev Getter := Option Nat → Bool → Out (Option (List (BitVec 64)) × Option Nat)

/-- `history_size`, `num_optima`: `tuner.py:93-98` and `:108-113`, `features_tuner.py:106-112` and `:123-129`, `tree_tuner.py:93-98` and
`:108-113`; `tuner.rb:65-69` and `:78-82`, `features_tuner.rb:68-72` and `:81-85`, `tree_tuner.rb:65-69` and `:78-82`.  The place for the count is
0 before the call. -/
def sizeAsked (get : Getter) : Out Nat := do
  let r ← get none true
  .ok (r.2.getD 0)

/-- `history`, `optima`: `tuner.py:100-106` and `:115-121`, `features_tuner.py:114-121` and `:131-138`, `tree_tuner.py:100-106` and `:115-121`;
`tuner.rb:71-76` and `:84-89`, `features_tuner.rb:74-79` and `:87-92`, `tree_tuner.rb:71-76` and `:84-89`.  The array is full of NULL before the
call. -/
def listAsked (get : Getter) : Out (List (BitVec 64)) := do
  let n ← sizeAsked get
  let r ← get (some n) false
  objectsOf (r.1.getD (List.replicate n 0#64))

/-- `Tuner.tell`, `tuner.py:87-91`, `tuner.rb:57-63` (`features_tuner.py:100-104`, `features_tuner.rb:60-66`; `tree_tuner.py:87-91`,
`tree_tuner.rb:57-63`): the handles of the objects, in order. -/
def tell (env : TunerEnv) (t : Tuner) (evaluations : List (BitVec 64)) : Tuner × Out Unit := t.tell env evaluations

/-- `(ccs_configuration * count)()`, `tuner.py:80`, and `MemoryPointer::new(:ccs_configuration_t, count)`, `tuner.rb:50`, for an array of pointers.
Negative counts raise.  Simplification: so do counts that no memory of 64 bits holds. -/
def arrayOf (count : Int) : Out Nat := if 0 ≤ count ∧ count < 1152921504606846976 then .ok count.toNat else .err .external

section
variable (ops : FloatOps) (jen : Bytes → BitVec 32) (little : Bool)

/-- `Tuner.ask`, `tuner.py:79-85`, `tuner.rb:49-55`, of a random tuner (`src/tuner_random.c:152-170`, `src/tuner.c:53-71`): the configurations the
library made that no object holds, and the answer.  `none` is a NULL pointer in the array.  When the library reports an error, the objects are not
made (`Error.check`, `tuner.py:83`; `CCS.error_check`, `tuner.rb:52`). -/
def ask (s : Space) (time : Nat) (count : Int) : Space × List (List Value) × Out (List (Option (List Value))) :=
  match arrayOf count with
  | .err e => (s, [], .err e)
  | .ub => (s, [], .ub)
  | .ok n =>
    match sampleMany ops jen little s time n with
    | (s', vs, .ok ()) => (s', [], .ok ((vs.map some ++ List.replicate (n - vs.length) none).take n))
    | (s', vs, .err e) => (s', vs, .err e)
    | (s', vs, .ub) => (s', vs, .ub)

end

/-- The features given to `ask` and `suggest` of a features tuner: `features.handle`, `features_tuner.py:95` and `:142`, raises for `None`; Ruby passes
`nil` on as NULL, `features_tuner.rb:55` and `:96`. -/
def featuresGiven : Lang → Option (BitVec 64) → Out (BitVec 64)
  | _, some f => .ok f
  | .python, none => .err .external
  | .ruby, none => .ok 0#64

/-- The features given to `history` and `optima`: `None` and `nil` are NULL, `features_tuner.py:108-109` and `:117-118`, `features_tuner.rb:68-92`. -/
def featuresOrAll (f : Option (BitVec 64)) : BitVec 64 := f.getD 0#64

section
variable (ops : FloatOps) (jen : Bytes → BitVec 32) (little : Bool)

/-- `FeaturesTuner.suggest`, `features_tuner.py:140-144`, `features_tuner.rb:94-98`. -/
def suggestFor (lang : Lang) (feats : BitVec 64 → Binding) (evals : BitVec 64 → FeaturesEvaluation) (valid : Out Bool) (t : Tuner)
    (f : Option (BitVec 64)) (s : Space) (draw : BitVec 64) (time : Nat) : Space × Out Suggested :=
  match featuresGiven lang f with
  | .ok h => t.suggestFor ops jen little feats evals valid h s draw time
  | .err e => (s, .err e)
  | .ub => (s, .ub)

end

end CCS.BoundTuner
