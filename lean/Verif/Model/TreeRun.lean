import Verif.Model.TreeSpace
import Verif.Model.Tuner

/-!
# Tree evaluations and tree tuners

Models what `src/tree_evaluation.c`, `src/tree_tuner.c` and `src/tree_tuner_random.c` do differently from their counterparts for
configuration spaces, and the remaining queries of `src/tree_configuration.c`.  The values, the objectives and the comparison of
tree evaluations are those of `Model/Evaluation`, the history and the optima of a tree tuner those of `Model/Tuner`.
-/

namespace CCS

/-- `_ccs_tree_evaluation_data_s`, `src/tree_evaluation_internal.h:25-31`: the fields of an evaluation, the configuration
being a tree configuration. -/
abbrev TreeEvaluation := Evaluation

/-- The sign of what a comparison function returns. -/
def signOf (x : Int) : Ordering := if x < 0 then .lt else if x = 0 then .eq else .gt

/-- `_ccs_tree_evaluation_cmp`, `src/tree_evaluation.c:142-161`, and `ccs_tree_evaluation_cmp` (`:398-415`), up to the sign of the
result; `evals` and `configs` tell what lies at an address. -/
def treeEvaluationCmp (little : Bool) (evals : BitVec 64 → TreeEvaluation) (configs : BitVec 64 → TreeConfig)
    (x y : BitVec 64) : Ordering :=
  if x = y then .eq
  else match bindingCmp little (fun a => (evals a).binding) x y with
    | .eq =>
      match (if (evals x).result.toInt < (evals y).result.toInt then .lt
          else if (evals y).result.toInt < (evals x).result.toInt then .gt else .eq : Ordering) with
      | .eq => signOf (TreeConfig.cmp (evals x).configuration (evals y).configuration (configs (evals x).configuration)
          (configs (evals y).configuration))
      | r => r
    | r => r

/-- `_ccs_tree_evaluation_hash`, `src/tree_evaluation.c:127-140`, and `ccs_tree_evaluation_hash` (`:388-396`). -/
def treeEvaluationHash (jen : Bytes → BitVec 32) (little : Bool) (configs : BitVec 64 → TreeConfig) (e : TreeEvaluation) :
    BitVec 32 :=
  hashCombine (hashCombine (bindingHash jen little e.binding) (TreeConfig.hash jen little (configs e.configuration)))
    (jen (hostBytes little 4 e.result))

/-- `ccs_tree_configuration_get_values`, `src/tree_configuration.c:189-207`, for a static space over `root`: `room` is the size of
the array of the caller (`none` without one), `count` tells whether `num_values_ret` is given. -/
def TreeConfig.getValues (f : Forest) (root : Nat) (c : TreeConfig) (room : Option Nat) (count : Bool) :
    Out (Option (List Value) × Option Nat) :=
  let n := if count then some (c.position.length + 1) else none
  match room with
  | none => if count then .ok (none, n) else .err .invalidValue
  | some k => do
    let vs ← f.valuesAt root (c.position.map (·.toNat)) k
    .ok (some vs, n)

/-- `ccs_tree_configuration_get_node`, `src/tree_configuration.c:209-220`, for a static space over `root`. -/
def TreeConfig.getNode (f : Forest) (root : Nat) (c : TreeConfig) : Out Nat := f.nodeAt root (c.position.map (·.toNat))

/-- `ccs_tree_configuration_check`, `src/tree_configuration.c:222-234`, for a static space over `root`. -/
def TreeConfig.check (f : Forest) (root : Nat) (c : TreeConfig) : Out Bool := f.positionIsValid root (c.position.map (·.toNat))

/-- What a tree tuner works with: the address of its space and, to sample it, the tree and the arithmetic of
`Forest.samplePositions`. -/
structure TreeSource where
  space : BitVec 64
  forest : Forest
  root : Nat
  guess : Int → F64 → Int
  turns : Nat
  fuel : Nat

/-- `ccs_tree_space_samples`, `src/tree_space.c:200-213`, and `ccs_tree_space_sample` (`:189-198`): the configurations made from
the sampled positions (`:174-180`).  `rnd` are the draws of the generator of the space. -/
def TreeSource.sample (s : TreeSource) (rnd : Nat → F64) (n : Nat) : Option (Out (List TreeConfig)) :=
  (s.forest.samplePositions s.guess s.turns rnd s.fuel s.root n 0).map fun r => do
    let ps ← r
    .ok (ps.map fun p => ⟨s.space, p.map (BitVec.ofNat 64)⟩)

/-- `ccs_tree_tuner_ask`, `src/tree_tuner.c:58-75`, and `_ccs_tree_tuner_random_ask`, `src/tree_tuner_random.c:152-170`: `num` is
the size of the array of the caller (`none` without one), `count` tells whether `num_configurations_ret` is given. -/
def TreeSource.ask (s : TreeSource) (rnd : Nat → F64) (num : Option Nat) (count : Bool) :
    Option (Out (List TreeConfig × Option Nat)) :=
  match num with
  | none => some (if count then .ok ([], some 1) else .err .invalidValue)
  | some n => (s.sample rnd n).map fun r => do
    let cs ← r
    .ok (cs, if count then some n else none)

/-- What `ccs_tree_tuner_suggest` gives: the configuration of an evaluation, or a new one. -/
inductive SuggestedTree
  | known (configuration : BitVec 64)
  | fresh (configuration : TreeConfig)
  deriving DecidableEq

/-- `ccs_tree_tuner_suggest`, `src/tree_tuner.c:128-139`, and `_ccs_tree_tuner_random_suggest`, `src/tree_tuner_random.c:302-327`:
`draw` is the integer given by the generator of the space. -/
def TreeSource.suggest (s : TreeSource) (configuration : BitVec 64 → BitVec 64) (t : Tuner) (draw : BitVec 64) (rnd : Nat → F64) :
    Option (Out SuggestedTree) :=
  if 0 < t.optima.length then
    match t.optima[draw.toNat % t.optima.length]? with
    | some e => some (.ok (.known (configuration e)))
    | none => some .ub
  else (s.ask rnd (some 1) false).map fun r => do
    match (← r).1 with
    | c :: _ => .ok (.fresh c)
    | [] => .ub

end CCS
