import Verif.Model.Evaluation
import Verif.Model.Space

/-!
# Tuners

Models `src/tuner_random.c`, `src/features_tuner_random.c` and the part of `src/tree_tuner_random.c` that is the same code on
other objects: the history and the optima (the rest is in `Model/TreeRun`).  Evaluations are known by their addresses; what the
tuner reads of them (their result and their comparison) is given by a `TunerEnv`, which may differ from one call
to the next since evaluations can be modified in between.
-/

namespace CCS

/-- `_ccs_random_tuner_data_s`, `src/tuner_random.c:7-12` (`src/features_tuner_random.c:7-12`, `src/tree_tuner_random.c:7-12`).  `old_optima` is scratch space
of `tell`: it is cleared before use. -/
structure Tuner where
  history : List (BitVec 64)
  optima : List (BitVec 64)
  deriving DecidableEq

/-- `ccs_create_random_tuner`, `src/tuner_random.c:345-402`, and `ccs_create_random_tree_tuner`, `src/tree_tuner_random.c:345-408`. -/
def Tuner.empty : Tuner := ⟨[], []⟩

/-- What a call on the tuner sees of the evaluations: their result (`src/tuner_random.c:190-191`) and their comparison
(`:214-215`). -/
structure TunerEnv where
  result : BitVec 64 → BitVec 32
  compare : BitVec 64 → BitVec 64 → Out Comparison

/-- The loop over the previous optima, `src/tuner_random.c:210-239` (`src/features_tuner_random.c:219-248`, `src/tree_tuner_random.c:211-240`): the flag
`discard` and the optima pushed.  When the comparison fails (`:216-217`) the optimum at hand is not pushed. -/
def keepLoop (compare : BitVec 64 → BitVec 64 → Out Comparison) (e : BitVec 64) :
    Bool → List (BitVec 64) → Out (Bool × List (BitVec 64))
  | discard, [] => .ok (discard, [])
  | true, o :: os => do
    let r ← keepLoop compare e true os
    .ok (r.1, o :: r.2)
  | false, o :: os =>
    match compare e o with
    | .ub => .ub
    | .err _ => keepLoop compare e true os
    | .ok .better => keepLoop compare e false os
    | .ok .notComparable => do
      let r ← keepLoop compare e false os
      .ok (r.1, o :: r.2)
    | .ok _ => do
      let r ← keepLoop compare e true os
      .ok (r.1, o :: r.2)

/-- One turn of the loop of `_ccs_tuner_random_tell`, `src/tuner_random.c:192-242`, for a successful evaluation. -/
def Tuner.learn (env : TunerEnv) (t : Tuner) (e : BitVec 64) : Out Tuner := do
  let r ← keepLoop env.compare e false t.optima
  .ok ⟨t.history ++ [e], if r.1 then r.2 else r.2 ++ [e]⟩

/-- `_ccs_tuner_random_tell`, `src/tuner_random.c:179-245`, and `_ccs_features_tuner_random_tell`,
`src/features_tuner_random.c:187-254`, and `_ccs_tree_tuner_random_tell`, `src/tree_tuner_random.c:172-246`.  `ccs_tuner_tell`
and its variants (`src/tuner.c:73-85`, `src/features_tuner.c:87-99`, `src/tree_tuner.c:77-90`) pass the array on.  A NULL evaluation (`CCS_CHECK_OBJ` in `ccs_evaluation_get_result`) ends the call; the
evaluations before it have been told.  Handles other than NULL are taken to designate evaluations. -/
def Tuner.tell (env : TunerEnv) (t : Tuner) : List (BitVec 64) → Tuner × Out Unit
  | [] => (t, .ok ())
  | e :: es =>
    if e = 0#64 then (t, .err .invalidObject)
    else if env.result e ≠ 0#32 then t.tell env es
    else match t.learn env e with
      | .ok t' => t'.tell env es
      | .err x => (t, .err x)
      | .ub => (t, .ub)

/-- A sequence of calls, each with its own view of the evaluations; later calls are made whatever the answers. -/
def Tuner.tells (t : Tuner) : List (TunerEnv × List (BitVec 64)) → Tuner
  | [] => t
  | c :: cs => (t.tell c.1 c.2).1.tells cs

/-- `_ccs_tuner_random_get_optima` and `_get_history`, `src/tuner_random.c:247-297`: the array of the caller afterwards, padded
with NULL, and the count.  `size` is `none` without an array; `count` tells whether `num_evaluations_ret` is
given (one of them has to be, `src/tuner.c:88-103`).  Also `src/tree_tuner_random.c:248-300` and `src/tree_tuner.c:92-126`. -/
def listing (l : List (BitVec 64)) (size : Option Nat) (count : Bool) : Out (Option (List (BitVec 64)) × Option Nat) :=
  let n := if count then some l.length else none
  match size with
  | none => if count then .ok (none, n) else .err .invalidValue
  | some k => if k < l.length then .err .invalidValue else .ok (some (l ++ List.replicate (k - l.length) 0#64), n)

/-- `ccs_tuner_get_optima`. -/
def Tuner.getOptima (t : Tuner) : Option Nat → Bool → Out (Option (List (BitVec 64)) × Option Nat) := listing t.optima

/-- `ccs_tuner_get_history`, `src/tuner.c:105-121`. -/
def Tuner.getHistory (t : Tuner) : Option Nat → Bool → Out (Option (List (BitVec 64)) × Option Nat) := listing t.history

/-- `ccs_features_cmp(features, feat, &cmp)` with `cmp == 0`, `src/features_tuner_random.c:288-291`. -/
def sameFeatures (little : Bool) (feats : BitVec 64 → Binding) (evals : BitVec 64 → FeaturesEvaluation) (f e : BitVec 64) :
    Bool :=
  bindingCmp little feats f (evals e).features == .eq

/-- The optima or history for given features, or all of them for NULL, `src/features_tuner_random.c:256-316` and `:318-378`. -/
def selected (little : Bool) (feats : BitVec 64 → Binding) (evals : BitVec 64 → FeaturesEvaluation) (f : BitVec 64)
    (l : List (BitVec 64)) : List (BitVec 64) :=
  if f = 0#64 then l else l.filter (sameFeatures little feats evals f)

/-- `ccs_features_tuner_get_optima`. -/
def Tuner.getFeaturesOptima (little : Bool) (feats : BitVec 64 → Binding) (evals : BitVec 64 → FeaturesEvaluation) (t : Tuner)
    (f : BitVec 64) : Option Nat → Bool → Out (Option (List (BitVec 64)) × Option Nat) :=
  listing (selected little feats evals f t.optima)

/-- `ccs_features_tuner_get_history`. -/
def Tuner.getFeaturesHistory (little : Bool) (feats : BitVec 64 → Binding) (evals : BitVec 64 → FeaturesEvaluation)
    (t : Tuner) (f : BitVec 64) : Option Nat → Bool → Out (Option (List (BitVec 64)) × Option Nat) :=
  listing (selected little feats evals f t.history)

/-- What `suggest` gives: the configuration of an evaluation, or a new one. -/
inductive Suggested
  | known (configuration : BitVec 64)
  | fresh (values : List Value)
  deriving DecidableEq

section
variable (ops : FloatOps) (jen : Bytes → BitVec 32) (little : Bool)

/-- `_ccs_tuner_random_ask` for one configuration, `src/tuner_random.c:164-166`. -/
def askOne (s : Space) (time : Nat) : Space × Out Suggested :=
  match sampleMany ops jen little s time 1 with
  | (s', v :: _, .ok ()) => (s', .ok (.fresh v))
  | (s', [], .ok ()) => (s', .ub)
  | (s', _, .err e) => (s', .err e)
  | (s', _, .ub) => (s', .ub)

/-- `_ccs_tuner_random_suggest`, `src/tuner_random.c:299-320`: `draw` is the number given by the generator of the space. -/
def Tuner.suggest (configuration : BitVec 64 → BitVec 64) (t : Tuner) (s : Space) (draw : BitVec 64) (time : Nat) :
    Space × Out Suggested :=
  if 0 < t.optima.length then
    match t.optima[draw.toNat % t.optima.length]? with
    | some e => (s, .ok (.known (configuration e)))
    | none => (s, .ub)
  else askOne ops jen little s time

/-- The second loop of `_ccs_features_tuner_random_suggest`, `src/features_tuner_random.c:407-418`: the evaluation it stops on. -/
def pickLoop (same : BitVec 64 → Bool) : Nat → List (BitVec 64) → Option (BitVec 64)
  | _, [] => none
  | n, e :: es =>
    if same e then
      match n with
      | 0 => some e
      | n + 1 => pickLoop same n es
    else pickLoop same n es

/-- `ccs_features_tuner_suggest` and `_ccs_features_tuner_random_suggest`, `src/features_tuner.c:158-176` and
`src/features_tuner_random.c:380-426`; `valid` is the outcome of checking the features.  Reading `*eval` after the loop found nothing
would be undefined. -/
def Tuner.suggestFor (feats : BitVec 64 → Binding) (evals : BitVec 64 → FeaturesEvaluation) (valid : Out Bool) (t : Tuner)
    (f : BitVec 64) (s : Space) (draw : BitVec 64) (time : Nat) : Space × Out Suggested :=
  if f = 0#64 then (s, .err .invalidObject)
  else match valid with
    | .err e => (s, .err e)
    | .ub => (s, .ub)
    | .ok false => (s, .err .invalidFeatures)
    | .ok true =>
      let count := (t.optima.filter (sameFeatures little feats evals f)).length
      if 0 < count then
        match pickLoop (sameFeatures little feats evals f) (draw.toNat % count) t.optima with
        | some e => (s, .ok (.known (evals e).evaluation.configuration))
        | none => (s, .ub)
      else askOne ops jen little s time

end

end CCS
