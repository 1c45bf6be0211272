import Verif.Model.TreeRun

/-!
# Comparing and hashing bindings of any kind

Models `ccs_binding_cmp` and `ccs_binding_hash` (`src/binding.c:112-135`), which call the functions of the first object without
looking at what the second one is, and the functions of the five kinds of bindings, which read the second object as if it were of
their own kind.
-/

namespace CCS.Kinds

open CCS

/-- The kinds of objects told apart here. -/
inductive Kind
  | configuration | features | evaluation | featuresEvaluation | treeEvaluation | treeConfiguration | other
  deriving DecidableEq, Repr

/-- What lies at an address: `_ccs_configuration_data_s` (`src/configuration_internal.h`), `_ccs_features_data_s`
(`src/features_internal.h`), `_ccs_evaluation_data_s` (`src/evaluation_internal.h:25-31`), `_ccs_features_evaluation_data_s`
(`src/features_evaluation_internal.h:27-34`), `_ccs_tree_evaluation_data_s` (`src/tree_evaluation_internal.h:26-32`),
`_ccs_tree_configuration_data_s`, or an object that is none of these. -/
inductive Item
  | configuration (b : Binding)
  | features (b : Binding)
  | evaluation (e : Evaluation)
  | featuresEvaluation (e : FeaturesEvaluation)
  | treeEvaluation (e : TreeEvaluation)
  | treeConfiguration (c : TreeConfig)
  | other

/-- The type of an object, `obj.type` of `src/cconfigspace_internal.h`. -/
def Item.kind : Item → Kind
  | .configuration _ => .configuration
  | .features _ => .features
  | .evaluation _ => .evaluation
  | .featuresEvaluation _ => .featuresEvaluation
  | .treeEvaluation _ => .treeEvaluation
  | .treeConfiguration _ => .treeConfiguration
  | .other => .other

/-- The first three fields, `_ccs_binding_data_s` (`src/binding_internal.h:19-23`), of an object that is a binding. -/
def Item.binding? : Item → Option Binding
  | .configuration b => some b
  | .features b => some b
  | .evaluation e => some e.binding
  | .featuresEvaluation e => some e.evaluation.binding
  | .treeEvaluation e => some e.binding
  | .treeConfiguration _ => none
  | .other => none

/-- The first three fields; of objects that have none, anything (they are not read: see `compareAny`). -/
def Item.binding (i : Item) : Binding := i.binding?.getD ⟨0, []⟩

/-- The contents of a tree configuration; of other objects, anything. -/
def Item.tree : Item → TreeConfig
  | .treeConfiguration c => c
  | _ => ⟨0, []⟩

section
variable (little : Bool) (heap : BitVec 64 → Item)

/-- `ccs_configuration_cmp`, `src/configuration.c:226-239`, with `CCS_CHECK_OBJ`. -/
def configurationCmp (x y : BitVec 64) : Out Ordering :=
  if (heap x).kind = .configuration ∧ (heap y).kind = .configuration then
    .ok (bindingCmp little (fun a => (heap a).binding) x y)
  else .err .invalidObject

/-- `ccs_features_cmp`, `src/features.c:217-228`. -/
def featuresCmp (x y : BitVec 64) : Out Ordering :=
  if (heap x).kind = .features ∧ (heap y).kind = .features then .ok (bindingCmp little (fun a => (heap a).binding) x y)
  else .err .invalidObject

/-- `ccs_tree_configuration_cmp`, `src/tree_configuration.c:238-270`, up to the sign of the result. -/
def treeConfigurationCmp (x y : BitVec 64) : Out Ordering :=
  if (heap x).kind = .treeConfiguration ∧ (heap y).kind = .treeConfiguration then
    .ok (signOf (TreeConfig.cmp x y (heap x).tree (heap y).tree))
  else .err .invalidObject

/-- The comparison of result codes, `src/evaluation.c:150-152`. -/
def codeCmp (a b : BitVec 32) : Ordering := if a.toInt < b.toInt then .lt else if b.toInt < a.toInt then .gt else .eq

/-- What comes after the comparison of the first three fields when they are the same. -/
def after (o : Ordering) (f : Out Ordering) : Out Ordering := if o = .eq then f else .ok o

/-- What the function of the kind of the first object reads of the second one past the first three fields.
`_ccs_evaluation_cmp`, `src/evaluation.c:139-158`, and `_ccs_tree_evaluation_cmp`, `src/tree_evaluation.c:142-161`: evaluations and tree
evaluations have the same fields at the same places, the configuration being of another type, which `ccs_configuration_cmp` and
`ccs_tree_configuration_cmp` look at.  `_ccs_features_evaluation_cmp`, `src/features_evaluation.c:153-176`.  In a features evaluation the
features are where evaluations have their result code, and the result code is past the end of `_ccs_evaluation_data_s`; such reads are
undefined here, as are those of objects without these fields. -/
def restCmp (x y : BitVec 64) : Out Ordering :=
  match heap x, heap y with
  | .configuration _, _ => .ok .eq
  | .features _, _ => .ok .eq
  | .evaluation e, .evaluation f => after (codeCmp e.result f.result) (configurationCmp little heap e.configuration f.configuration)
  | .evaluation e, .treeEvaluation f =>
    after (codeCmp e.result f.result) (configurationCmp little heap e.configuration f.configuration)
  | .treeEvaluation e, .treeEvaluation f =>
    after (codeCmp e.result f.result) (treeConfigurationCmp heap e.configuration f.configuration)
  | .treeEvaluation e, .evaluation f =>
    after (codeCmp e.result f.result) (treeConfigurationCmp heap e.configuration f.configuration)
  | .featuresEvaluation e, .featuresEvaluation f =>
    after (codeCmp e.evaluation.result f.evaluation.result)
      (match configurationCmp little heap e.evaluation.configuration f.evaluation.configuration with
        | .ok o => after o (featuresCmp little heap e.features f.features)
        | r => r)
  | _, _ => .ub

/-- `ccs_binding_cmp`, `src/binding.c:121-135`, through the functions of the kinds, all of which start with `_ccs_binding_cmp`
(`src/binding_internal.h:181-209`).  Objects that are not bindings are taken for bindings (`CCS_CHECK_BINDING`, `src/binding.c:4-8`, does
not look at the type): undefined. -/
def compareAny (x y : BitVec 64) : Out Ordering :=
  if x = y then .ok .eq
  else match (heap x).binding?, (heap y).binding? with
    | some _, some _ => after (bindingCmp little (fun a => (heap a).binding) x y) (restCmp little heap x y)
    | _, _ => .ub

/-- `ccs_binding_hash`, `src/binding.c:112-119`, through `_ccs_binding_hash` (`src/binding_internal.h:165-179`), `_ccs_evaluation_hash`
(`src/evaluation.c:126-137`), `_ccs_features_evaluation_hash` (`src/features_evaluation.c:136-151`) and `_ccs_tree_evaluation_hash`
(`src/tree_evaluation.c:127-140`). -/
def hashOf (jen : Bytes → BitVec 32) (x : BitVec 64) : Out (BitVec 32) :=
  match heap x with
  | .configuration b => .ok (bindingHash jen little b)
  | .features b => .ok (bindingHash jen little b)
  | .evaluation e => .ok (evaluationHash jen little (fun a => (heap a).binding) e)
  | .featuresEvaluation e => .ok (featuresEvaluationHash jen little (fun a => (heap a).binding) (fun a => (heap a).binding) e)
  | .treeEvaluation e => .ok (treeEvaluationHash jen little (fun a => (heap a).tree) e)
  | .treeConfiguration _ => .ub
  | .other => .ub

end

end CCS.Kinds
