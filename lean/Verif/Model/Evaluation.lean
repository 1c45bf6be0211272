import Verif.Model.Binding
import Verif.Model.Expr

/-!
# Objectives and the comparison of evaluations

Models `src/objective_space.c`, `src/evaluation.c` and `src/features_evaluation.c` from the objectives on.  The code of
`src/tree_evaluation.c` is that of `src/evaluation.c` for these functions.
-/

namespace CCS

/-- `_ccs_objective_t`, `src/objective_space_internal.h:6-9`: the expression and the type as given by the caller. -/
structure Objective where
  expression : Expr
  type : BitVec 32

/-- `_ccs_objective_space_data_s`, `src/objective_space_internal.h:25-31`, without the name. -/
structure ObjSpace where
  ctx : Ctx
  objectives : List Objective

/-- `ccs_create_objective_space`, `src/objective_space.c:214-250`. -/
def ObjSpace.empty : ObjSpace := ⟨Ctx.empty, []⟩

/-- The addresses of the parameters, as the context of expressions. -/
def ObjSpace.handles (s : ObjSpace) : List (BitVec 64) := s.ctx.params.map (·.1)

/-- `ccs_objective_space_add_parameter`, `src/objective_space.c:277-330`. -/
def ObjSpace.addParameter (mem : BitVec 64 → Param) (s : ObjSpace) (h : BitVec 64) : ObjSpace × Out Unit :=
  ({ s with ctx := (s.ctx.add mem h).1 }, (s.ctx.add mem h).2)

/-- `ccs_objective_space_add_objective`, `src/objective_space.c:494-509`. -/
def ObjSpace.addObjective (s : ObjSpace) (o : Objective) : ObjSpace × Out Unit :=
  match checkContext o.expression (some s.handles) with
  | .ok () => ({ s with objectives := s.objectives ++ [o] }, .ok ())
  | .err e => (s, .err e)
  | .ub => (s, .ub)

/-- `ccs_objective_space_add_objectives`, `src/objective_space.c:511-532`: objectives before a refused one stay. -/
def ObjSpace.addObjectives (s : ObjSpace) : List Objective → ObjSpace × Out Unit
  | [] => (s, .ok ())
  | o :: rest =>
    match s.addObjective o with
    | (s', .ok ()) => s'.addObjectives rest
    | (s', .err e) => (s', .err e)
    | (s', .ub) => (s', .ub)

/-- `ccs_objective_space_get_objective`, `src/objective_space.c:536-552`. -/
def ObjSpace.getObjective (s : ObjSpace) (index : Nat) : Out Objective :=
  match s.objectives[toUint index]? with
  | none => .err .outOfBounds
  | some o => .ok o

/-- `ccs_comparison_e`, `include/cconfigspace/evaluation.h:19-32`. -/
inductive Comparison
  | better | equivalent | worse | notComparable
  deriving DecidableEq, Repr

/-- `(ccs_comparison_t)cmp`, `src/evaluation.c:479`. -/
def Comparison.ofCmp : Ordering → Comparison
  | .lt => .better
  | .eq => .equivalent
  | .gt => .worse

/-- The test of types and `_numeric_compare`, `src/evaluation.c:468-474` and `:410-422`
(`src/features_evaluation.c:522-528` and `:426-438`); `none` when the types prevent it. -/
def numericCompare : Value → Value → Option Ordering
  | .int a, .int b => some (intCmp a b)
  | .float a, .float b => some (floatCmp a b)
  | _, _ => none

/-- `cmp = -cmp` for `CCS_OBJECTIVE_TYPE_MAXIMIZE`, `src/evaluation.c:476-477`. -/
def orient (type : BitVec 32) (r : Ordering) : Ordering := if type = 1#32 then r.swap else r

/-- What one objective does to the answer so far; `none` to go on with this answer, `src/evaluation.c:475-484`. -/
def mergeOne (acc : Comparison) (r : Ordering) : Option Comparison :=
  if r = .eq then some acc
  else if acc = .equivalent then some (Comparison.ofCmp r)
  else if acc ≠ Comparison.ofCmp r then none
  else some acc

/-- The loop of `ccs_evaluation_compare`, `src/evaluation.c:449-485` (`src/features_evaluation.c:505-539`): `f` and `g`
evaluate an objective on the first and the second evaluation.  Simplification: objectives are taken in order
from the list; there are fewer than 2^32 of them because the array counts with `unsigned`. -/
def compareLoop (f g : Expr → Out Value) : Comparison → List Objective → Out Comparison
  | acc, [] => .ok acc
  | acc, o :: os => do
    let a ← f o.expression
    let b ← g o.expression
    match numericCompare a b with
    | none => .ok .notComparable
    | some r =>
      match mergeOne acc (orient o.type r) with
      | none => .ok .notComparable
      | some acc' => compareLoop f g acc' os

section
variable (ops : FloatOps) (jen : Bytes → BitVec 32) (little : Bool)

/-- `ccs_expression_eval` of an objective on the values of an evaluation, `src/evaluation.c:458-461`. -/
def objectiveValue (s : ObjSpace) (vs : List Datum) (e : Expr) : Out Value :=
  eval ops jen little ⟨some s.handles, some (vs.map (·.v))⟩ e

/-- `ccs_evaluation_compare`, `src/evaluation.c:425-487`, and `ccs_tree_evaluation_compare`, `src/tree_evaluation.c:417-494`;
evaluations and objective spaces by address. -/
def compareEvaluations (spaces : BitVec 64 → ObjSpace) (evals : BitVec 64 → Evaluation) (x y : BitVec 64) :
    Out Comparison :=
  if x = y then .ok .equivalent
  else if (evals x).result ≠ 0#32 ∨ (evals y).result ≠ 0#32 then .err .invalidObject
  else if (evals x).binding.context ≠ (evals y).binding.context then .err .invalidObject
  else
    let s := spaces (evals x).binding.context
    compareLoop (objectiveValue ops jen little s (evals x).binding.values)
      (objectiveValue ops jen little s (evals y).binding.values) .equivalent s.objectives

/-- `ccs_features_evaluation_compare`, `src/features_evaluation.c:472-541`. -/
def compareFeaturesEvaluations (spaces : BitVec 64 → ObjSpace) (feats : BitVec 64 → Binding)
    (evals : BitVec 64 → FeaturesEvaluation) (x y : BitVec 64) : Out Comparison :=
  if x = y then .ok .equivalent
  else if (evals x).evaluation.result ≠ 0#32 ∨ (evals y).evaluation.result ≠ 0#32 then .err .invalidObject
  else if (evals x).evaluation.binding.context ≠ (evals y).evaluation.binding.context then .err .invalidObject
  else if bindingCmp little feats (evals x).features (evals y).features ≠ .eq then .ok .notComparable
  else
    let s := spaces (evals x).evaluation.binding.context
    compareLoop (objectiveValue ops jen little s (evals x).evaluation.binding.values)
      (objectiveValue ops jen little s (evals y).evaluation.binding.values) .equivalent s.objectives

/-- `ccs_evaluation_get_objective_value`, `src/evaluation.c:330-346`, and `ccs_tree_evaluation_get_objective_value`,
`src/tree_evaluation.c:335-351`. -/
def getObjectiveValue (s : ObjSpace) (vs : List Datum) (index : Nat) : Out Value := do
  let o ← s.getObjective index
  objectiveValue ops jen little s vs o.expression

/-- Store at position `i` of the array of the caller; outside of it is undefined. -/
def storeAt (a : List Value) (i : Nat) (v : Value) : Out (List Value) :=
  if i < a.length then .ok (a.set i v) else .ub

/-- The first loop of `ccs_evaluation_get_objective_values`, `src/evaluation.c:363-374`. -/
def fillObjectives (f : Expr → Out Value) : Nat → List Objective → List Value → Out (List Value)
  | _, [], a => .ok a
  | i, o :: os, a => do
    let v ← f o.expression
    let a' ← storeAt a i v
    fillObjectives f (i + 1) os a'

/-- `ccs_evaluation_get_objective_values`, `src/evaluation.c:348-381`, and `ccs_features_evaluation_get_objective_values`,
`src/features_evaluation.c:391-424`, and `ccs_tree_evaluation_get_objective_values`, `src/tree_evaluation.c:353-386`: `before`
is the array of the caller (`none` for NULL), `count` tells whether `num_values_ret` is given.  The second loop (`:375-376`) runs from the number of objectives to the size of the
array; flags are not modelled. -/
def getObjectiveValues (s : ObjSpace) (vs : List Datum) (before : Option (List Value)) (count : Bool) :
    Out (Option (List Value) × Option Nat) :=
  let n := if count then some s.objectives.length else none
  match before with
  | none => if count then .ok (none, n) else .err .invalidValue
  | some a =>
    if s.objectives.length < a.length then .err .invalidValue
    else do
      let filled ← fillObjectives (objectiveValue ops jen little s vs) 0 s.objectives a
      .ok (some (filled.take s.objectives.length ++
        List.replicate (filled.length - s.objectives.length) Value.none), n)

end

end CCS
