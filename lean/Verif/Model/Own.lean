import Verif.Model.Basic

/-!
# Who owns what

All the objects of a program at once: reference counts, the references objects store, what destruction
releases.  Models `src/cconfigspace.c:44-72` for objects that refer to each other, the creation, mutation
and `_del` functions of every kind of object.

What the functions check about *values* is a parameter of each operation (the verdict), so that a
statement about all operations covers every outcome of those checks.  NULL arguments are refused before
anything else and are left out, as are allocation failures, destruction callbacks
(`Verif/Model/Object.lean` has them) and the reuse of freed addresses.
-/

namespace CCS.Own

open CCS

/-- An address.  Objects are numbered in the order they are created. -/
abbrev Ref := Nat

/-- `ccs_object_type_t`, `include/cconfigspace/base.h:166-213`, the kinds objects are checked for. -/
inductive Kind
  | rng | parameter | distribution | expression
  | configurationSpace | featuresSpace | objectiveSpace
  | configuration | features | evaluation | featuresEvaluation
  | tuner | featuresTuner | map
  | tree | treeSpace | treeConfiguration | treeEvaluation | treeTuner
  deriving DecidableEq, Repr

/-- A datum as far as ownership goes, `src/map.c:173-180`: an object (without the `ID` flag), or
anything else; equal numbers are equal data. -/
inductive Dat
  | obj (r : Ref)
  | other (n : Nat)
  deriving DecidableEq, Repr

/-- The references stored in the data structures of each kind of object. -/
inductive Obj
  /-- `src/rng_internal.h` -/
  | rng
  /-- Numerical, categorical, ordinal, discrete, string. -/
  | parameter
  /-- Uniform, normal, roulette. -/
  | distribution
  /-- `_ccs_distribution_mixture_data_s`, `src/distribution_mixture.c:6-15`,
  `_ccs_distribution_multivariate_data_s`, `src/distribution_multivariate.c:6-17`. -/
  | composite (parts : List Ref)
  /-- `src/expression_internal.h`, literal. -/
  | literal
  | var (parameter : Ref)
  | operation (nodes : List Ref)
  /-- `src/configuration_space_internal.h`: generator, parameters with their conditions, forbidden
  clauses, distributions with the indexes they cover. -/
  | configurationSpace (rng : Ref) (parameters : List (Ref × Option Ref)) (clauses : List Ref)
      (distributions : List (Ref × List Nat))
  /-- `src/features_space_internal.h` -/
  | featuresSpace (parameters : List Ref)
  /-- `src/objective_space_internal.h` -/
  | objectiveSpace (parameters objectives : List Ref)
  | configuration (space : Ref)
  | features (space : Ref)
  | evaluation (objectiveSpace configuration : Ref)
  | featuresEvaluation (objectiveSpace configuration features : Ref)
  /-- `_ccs_random_tuner_data_s`, `src/tuner_random.c:7-13`.  The optima are not retained. -/
  | tuner (space objectiveSpace : Ref) (history optima : List Ref)
  /-- `src/features_tuner_random.c:6-13` -/
  | featuresTuner (space objectiveSpace featuresSpace : Ref) (history optima : List Ref)
  /-- `src/tuner_user_defined.c:6-11`; `del` is what the user's `del` returns. -/
  | userTuner (space objectiveSpace : Ref) (del : Option Err)
  | userFeaturesTuner (space objectiveSpace featuresSpace : Ref) (del : Option Err)
  /-- `_ccs_map_data_s`, `src/map.c:7-17` -/
  | map (entries : List (Dat × Dat))
  /-- `src/tree_internal.h`.  The parent is not retained; `index` is left out (it is 0 without a
  parent). -/
  | tree (children : List (Option Ref)) (parent : Option Ref)
  /-- `src/tree_space_static.c:5-8` -/
  | treeSpace (rng tree : Ref)
  /-- `src/tree_space_dynamic.c:5-10` -/
  | dynamicTreeSpace (rng tree : Ref) (del : Option Err)
  | treeConfiguration (space : Ref)
  | treeEvaluation (objectiveSpace configuration : Ref)
  | treeTuner (space objectiveSpace : Ref) (history optima : List Ref)
  | userTreeTuner (space objectiveSpace : Ref) (del : Option Err)
  deriving DecidableEq, Repr

def Obj.kind : Obj → Kind
  | rng => .rng
  | parameter => .parameter
  | distribution | composite _ => .distribution
  | literal | var _ | operation _ => .expression
  | configurationSpace .. => .configurationSpace
  | featuresSpace _ => .featuresSpace
  | objectiveSpace .. => .objectiveSpace
  | configuration _ => .configuration
  | features _ => .features
  | evaluation .. => .evaluation
  | featuresEvaluation .. => .featuresEvaluation
  | tuner .. | userTuner .. => .tuner
  | featuresTuner .. | userFeaturesTuner .. => .featuresTuner
  | map _ => .map
  | tree .. => .tree
  | treeSpace .. | dynamicTreeSpace .. => .treeSpace
  | treeConfiguration _ => .treeConfiguration
  | treeEvaluation .. => .treeEvaluation
  | treeTuner .. | userTreeTuner .. => .treeTuner

/-! ## The heap -/

inductive Cell
  | live (count : Nat) (obj : Obj)
  /-- Count 0, not freed: being destroyed, or left behind by a destructor that failed. -/
  | dying
  | freed
  deriving DecidableEq, Repr

abbrev Heap := List Cell

def get (h : Heap) (r : Ref) : Cell := h.getD r .freed

/-- What remains to be done while a release propagates: the calls of the running `_del` functions and
the `free` that follows each. -/
inductive Task
  | release (r : Ref)
  /-- `cd->parent = NULL`, `src/tree.c:11`. -/
  | detach (r : Ref)
  | free (r : Ref)
  deriving DecidableEq, Repr

/-- `_ccs_map_check_object_and_release`, `src/map.c:19-25`. -/
def Dat.release : Dat → List Task
  | .obj r => [.release r]
  | .other _ => []

/-- The calls of the destructors, in order. -/
def Obj.del : Obj → List Task
  -- `_ccs_rng_del`, `src/rng.c:6-12`
  | rng => []
  -- `src/parameter_numerical.c:6-11`, `src/parameter_categorical.c:46-54`, `src/parameter_string.c:33-46`
  | parameter => []
  -- `src/distribution_uniform.c:21-26`, `src/distribution_normal.c:18-23`,
  -- `src/distribution_roulette.c:16-21`
  | distribution => []
  -- `src/distribution_mixture.c:18-28`, `src/distribution_multivariate.c:19-29`
  | composite parts => parts.map .release
  -- `_ccs_expression_del`, `src/expression.c:93-101`
  | literal => []
  -- `_ccs_expr_variable_del`, `src/expression.c:1184-1191`
  | var p => [.release p]
  | operation nodes => nodes.map .release
  -- `_ccs_configuration_space_del`, `src/configuration_space.c:13-55`
  | configurationSpace g ps cl ds =>
    ps.flatMap (fun p => .release p.1 :: (p.2.toList.map .release)) ++ cl.map .release ++
      ds.map (fun d => .release d.1) ++ [.release g]
  -- `_ccs_features_space_del`, `src/features_space.c:7-25`
  | featuresSpace ps => ps.map .release
  -- `_ccs_objective_space_del`, `src/objective_space.c:7-32`
  | objectiveSpace ps os => ps.map .release ++ os.map .release
  -- `src/configuration.c:12-17`
  | configuration s => [.release s]
  -- `src/features.c:13-18`
  | features s => [.release s]
  -- `src/evaluation.c:13-19`
  | evaluation os c => [.release os, .release c]
  -- `src/features_evaluation.c:14-22`
  | featuresEvaluation os c f => [.release os, .release c, .release f]
  -- `_ccs_tuner_random_del`, `src/tuner_random.c:16-29`
  | tuner cs os hist _ => .release cs :: .release os :: hist.map .release
  -- `src/features_tuner_random.c:17-33`
  | featuresTuner cs os fs hist _ => .release cs :: .release os :: .release fs :: hist.map .release
  -- `src/tuner_user_defined.c:14-23`
  | userTuner cs os _ => [.release cs, .release os]
  -- `src/features_tuner_user_defined.c:15-27`
  | userFeaturesTuner cs os fs _ => [.release cs, .release os, .release fs]
  -- `_ccs_map_del`, `src/map.c:36-45`
  | map es => es.flatMap fun e => e.1.release ++ e.2.release
  -- `_ccs_tree_del`, `src/tree.c:4-16`
  | tree cs _ => cs.flatMap fun c => match c with
    | some c => [.detach c, .release c]
    | none => []
  -- `src/tree_space_static.c:11-19`
  | treeSpace g t => [.release g, .release t]
  -- `src/tree_space_dynamic.c:13-23`
  | dynamicTreeSpace g t _ => [.release g, .release t]
  -- `src/tree_configuration.c:6-12`
  | treeConfiguration s => [.release s]
  -- `src/tree_evaluation.c:13-19`
  | treeEvaluation os c => [.release os, .release c]
  -- `src/tree_tuner_random.c:16-29`
  | treeTuner ts os hist _ => .release ts :: .release os :: hist.map .release
  -- `src/tree_tuner_user_defined.c:15-25`
  | userTreeTuner ts os _ => [.release ts, .release os]

/-- What the destructor returns: only those with a user's `del` can fail. -/
def Obj.delRes : Obj → Option Err
  | userTuner _ _ e | userFeaturesTuner _ _ _ e | dynamicTreeSpace _ _ e | userTreeTuner _ _ e => e
  | _ => none

/-- `ccs_release_object`, `src/cconfigspace.c:53-72`, with everything it calls: the tasks pending, in
order.  `none`: a freed object is used.  A release of an object whose count is 0 is refused and the
refusal ignored (`_ccs_expr_variable_del` propagates it; such a release does not occur,
`Verif/Props/Own.lean`).  `fuel` bounds the number of steps. -/
def drain : Nat → Heap → List Task → Option Heap
  | _, h, [] => some h
  | 0, _, _ :: _ => none
  | fuel + 1, h, .release r :: ts =>
    match get h r with
    | .live n o =>
      if n ≤ 1 then
        drain fuel (h.set r .dying)
          (o.del ++ (match o.delRes with | none => [.free r] | some _ => []) ++ ts)
      else drain fuel (h.set r (.live (n - 1) o)) ts
    | .dying => drain fuel h ts
    | .freed => none
  | fuel + 1, h, .detach r :: ts =>
    match get h r with
    | .live n (.tree cs _) => drain fuel (h.set r (.live n (.tree cs none))) ts
    | .live _ _ => none
    | .dying => drain fuel h ts
    | .freed => none
  | fuel + 1, h, .free r :: ts =>
    match get h r with
    | .freed => none
    | _ => drain fuel (h.set r .freed) ts

/-- Steps a cell may still cause. -/
def Cell.work : Cell → Nat
  | .live n o => n + o.del.length + 1
  | _ => 0

/-- Enough steps. -/
def steps (h : Heap) : Nat := (h.map Cell.work).sum + 1

/-! ## Functions on the heap -/

/-- Result of a function: a value, or an error code, and the heap it leaves; `ub` if undefined. -/
inductive Res (α : Type)
  | ok (a : α) (h : Heap)
  | err (e : Err) (h : Heap)
  | ub
  deriving Repr

def Act (α : Type) := Heap → Res α

def Act.bind (a : Act α) (f : α → Act β) : Act β := fun h =>
  match a h with
  | .ok x h => f x h
  | .err e h => .err e h
  | .ub => .ub

instance : Monad Act where
  pure x := fun h => .ok x h
  bind := Act.bind

def fail (e : Err) : Act α := fun h => .err e h

/-- `CCS_REFUTE` on a check that does not concern ownership; `none` if it passes. -/
def verdict (v : Option Err) : Act Unit :=
  match v with
  | some e => fail e
  | none => pure ()

/-- `ccs_retain_object`, `src/cconfigspace.c:44-51`. -/
def retain (r : Ref) : Act Unit := fun h =>
  match get h r with
  | .live n o => if n < 2 ^ 31 - 1 then .ok () (h.set r (.live (n + 1) o)) else .ub
  | .dying => .err .invalidObject h
  | .freed => .ub

/-- `ccs_release_object`, `src/cconfigspace.c:53-72`. -/
def release (r : Ref) : Act Unit := fun h =>
  match get h r with
  | .live n o =>
    match drain (steps h) h [.release r] with
    | some h' =>
      match (if n ≤ 1 then o.delRes else none) with
      | some e => .err e h'
      | none => .ok () h'
    | none => .ub
  | .dying => .err .invalidObject h
  | .freed => .ub

/-- A call whose result is ignored. -/
def ignore (a : Act Unit) : Act Unit := fun h =>
  match a h with
  | .ok _ h => .ok () h
  | .err _ h => .ok () h
  | .ub => .ub

def releaseAll : List Ref → Act Unit
  | [] => pure ()
  | r :: rs => do ignore (release r); releaseAll rs

/-- `CCS_VALIDATE_ERR_GOTO` to a label that releases some objects, ignoring the results. -/
def orRelease (a : Act α) (rs : List Ref) : Act α := fun h =>
  match a h with
  | .ok x h => .ok x h
  | .err e h =>
    match releaseAll rs h with
    | .ok _ h => .err e h
    | .err _ h => .err e h
    | .ub => .ub
  | .ub => .ub

/-- `_ccs_object_init`, `src/cconfigspace_internal.h:255-268`, in new memory. -/
def alloc (o : Obj) : Act Ref := fun h => .ok h.length (h ++ [.live 1 o])

/-- Read an object.  Using one whose count is 0 is counted as undefined. -/
def load (r : Ref) : Act Obj := fun h =>
  match get h r with
  | .live _ o => .ok o h
  | _ => .ub

/-- Write the fields of an object. -/
def store (r : Ref) (o : Obj) : Act Unit := fun h =>
  match get h r with
  | .live n _ => .ok () (h.set r (.live n o))
  | _ => .ub

/-- `CCS_CHECK_OBJ`, `src/cconfigspace_internal.h:87-93`. -/
def check (r : Ref) (k : Kind) : Act Obj := do
  let o ← load r
  if o.kind = k then pure o else fail .invalidObject

def checkAll (k : Kind) : List Ref → Act Unit
  | [] => pure ()
  | r :: rs => do let _ ← check r k; checkAll k rs

/-- Retain in order; on a failure what was retained is released. -/
def retainAll : List Ref → Act Unit
  | [] => pure ()
  | r :: rs => do retain r; orRelease (retainAll rs) [r]

/-! ## Creation -/

/-- What is created without reference to another object. -/
inductive Leaf
  | rng | parameter | distribution | literal | featuresSpace | objectiveSpace | map
  | tree (arity : Nat)
  deriving DecidableEq, Repr

def Leaf.obj : Leaf → Obj
  | .rng => .rng
  | .parameter => .parameter
  | .distribution => .distribution
  | .literal => .literal
  | .featuresSpace => .featuresSpace []
  | .objectiveSpace => .objectiveSpace [] []
  | .map => .map []
  | .tree n => .tree (List.replicate n none) none

/-- `ccs_create_rng`, `src/rng.c:105-136`; `ccs_create_*_parameter`, `ccs_create_*_distribution` and
`ccs_create_literal`, `src/expression.c:1382-1426`; `ccs_create_map`, `src/map.c:148-162`;
`ccs_create_features_space`, `src/features_space.c:90-123`; objective spaces; trees, `src/tree.c:140-198`:
no object is referred to. -/
def newLeaf (l : Leaf) (v : Option Err) : Act Ref := do
  verdict v
  alloc l.obj

/-- `ccs_create_mixture_distribution`, `src/distribution_mixture.c:207-339`,
`ccs_create_multivariate_distribution`, `src/distribution_multivariate.c:184-277`. -/
def newComposite (parts : List Ref) (v : Option Err) : Act Ref := do
  checkAll .distribution parts
  verdict v
  retainAll parts
  alloc (.composite parts)

/-- `ccs_create_variable`, `src/expression.c:1428-1462`. -/
def newVariable (p : Ref) : Act Ref := do
  let _ ← check p .parameter
  retain p
  alloc (.var p)

/-- An operand: an object or a value; for a value, what `ccs_create_literal` answers. -/
inductive Operand
  | object (r : Ref)
  | value (v : Option Err)
  deriving DecidableEq, Repr

/-- First loop, `src/expression.c:1483-1499`. -/
def checkOperands : List Operand → Act Unit
  | [] => pure ()
  | .object r :: ns => do
    let o ← load r
    if o.kind = .parameter ∨ o.kind = .expression then checkOperands ns else fail .invalidValue
  | .value _ :: ns => checkOperands ns

/-- Second loop, `src/expression.c:1517-1541`: the nodes, each owned once by the caller of the loop.  On a
failure the nodes obtained so far are released (`src/expression.c:1546-1550`). -/
def takeOperands : List Operand → Act (List Ref)
  | [] => pure []
  | .object r :: ns => do
    let o ← load r
    let e ← if o.kind = .expression then (do retain r; pure r) else newVariable r
    let es ← orRelease (takeOperands ns) [e]
    pure (e :: es)
  | .value v :: ns => do
    let e ← newLeaf .literal v
    let es ← orRelease (takeOperands ns) [e]
    pure (e :: es)

/-- `ccs_create_expression`, `src/expression.c:1464-1553`.  The nodes are released last first here, first
last there. -/
def newExpression (nodes : List Operand) (v : Option Err) : Act Ref := do
  verdict v
  checkOperands nodes
  let es ← takeOperands nodes
  alloc (.operation es)

/-- `ccs_create_configuration_space`, `src/configuration_space.c:330-376`. -/
def newConfigurationSpace : Act Ref := do
  let rng ← alloc .rng
  alloc (.configurationSpace rng [] [] [])

/-- `ccs_create_configuration`, `src/configuration.c:86-139`: on the last error path the space is not
released. -/
def newConfiguration (s : Ref) (v w : Option Err) : Act Ref := do
  let _ ← check s .configurationSpace
  verdict v
  retain s
  verdict w
  alloc (.configuration s)

/-- `ccs_create_features`, `src/features.c:86-140`. -/
def newFeatures (s : Ref) (v w : Option Err) : Act Ref := do
  let _ ← check s .featuresSpace
  verdict v
  retain s
  orRelease (verdict w) [s]
  alloc (.features s)

/-- `ccs_create_evaluation`, `src/evaluation.c:167-225`. -/
def newEvaluation (os c : Ref) (v w : Option Err) : Act Ref := do
  let _ ← check os .objectiveSpace
  let _ ← check c .configuration
  verdict v
  retain os
  orRelease (retain c) [os]
  orRelease (verdict w) [c, os]
  alloc (.evaluation os c)

/-- `ccs_create_features_evaluation`, `src/features_evaluation.c:186-255`. -/
def newFeaturesEvaluation (os c f : Ref) (v w : Option Err) : Act Ref := do
  let _ ← check os .objectiveSpace
  let _ ← check c .configuration
  let _ ← check f .features
  verdict v
  retain os
  orRelease (retain c) [os]
  orRelease (retain f) [c, os]
  orRelease (verdict w) [f, c, os]
  alloc (.featuresEvaluation os c f)

/-- `ccs_create_tree_evaluation`, `src/tree_evaluation.c:170-228`. -/
def newTreeEvaluation (os c : Ref) (v w : Option Err) : Act Ref := do
  let _ ← check os .objectiveSpace
  let _ ← check c .treeConfiguration
  verdict v
  retain os
  orRelease (retain c) [os]
  orRelease (verdict w) [c, os]
  alloc (.treeEvaluation os c)

/-- `ccs_create_random_tuner`, `src/tuner_random.c:346-403`, and
`ccs_create_user_defined_tuner`, `src/tuner_user_defined.c:298-353`. -/
def newTuner (cs os : Ref) (o : Obj) : Act Ref := do
  let _ ← check cs .configurationSpace
  let _ ← check os .objectiveSpace
  retain cs
  orRelease (retain os) [cs]
  alloc o

/-- `ccs_create_random_features_tuner`, `src/features_tuner_random.c:459-517`, and
`ccs_create_user_defined_features_tuner`, `src/features_tuner_user_defined.c:323-386`. -/
def newFeaturesTuner (cs os fs : Ref) (o : Obj) : Act Ref := do
  let _ ← check cs .configurationSpace
  let _ ← check fs .featuresSpace
  let _ ← check os .objectiveSpace
  retain cs
  orRelease (retain os) [cs]
  orRelease (retain fs) [os, cs]
  alloc o

/-- `ccs_create_random_tree_tuner`, `src/tree_tuner_random.c:352-408`, and
`ccs_create_user_defined_tree_tuner`, `src/tree_tuner_user_defined.c:303-358`. -/
def newTreeTuner (ts os : Ref) (o : Obj) : Act Ref := do
  let _ ← check ts .treeSpace
  let _ ← check os .objectiveSpace
  retain ts
  orRelease (retain os) [ts]
  alloc o

/-- `ccs_create_static_tree_space`, `src/tree_space_static.c:171-214`, and
`ccs_create_dynamic_tree_space`, `src/tree_space_dynamic.c:250-300`. -/
def newTreeSpace (t : Ref) (o : Ref → Obj) : Act Ref := do
  let _ ← check t .tree
  let rng ← alloc .rng
  orRelease (retain t) [rng]
  alloc (o rng)

/-- `ccs_create_tree_configuration`, `src/tree_configuration.c:116-154`. -/
def newTreeConfiguration (s : Ref) : Act Ref := do
  let _ ← check s .treeSpace
  retain s
  alloc (.treeConfiguration s)

/-! ## Spaces -/

/-- `ccs_configuration_space_set_rng`, `src/configuration_space.c:389-401`. -/
def setRng (s rng : Ref) : Act Unit := do
  let o ← check s .configurationSpace
  let _ ← check rng .rng
  match o with
  | .configurationSpace old ps cl ds => do
    retain rng
    store s (.configurationSpace rng ps cl ds)
    release old
  | _ => fun _ => .ub

/-- `ccs_tree_space_set_rng`, `src/tree_space.c:33-43`. -/
def setTreeRng (s rng : Ref) : Act Unit := do
  let o ← check s .treeSpace
  let _ ← check rng .rng
  match o with
  | .treeSpace old t => do
    retain rng
    store s (.treeSpace rng t)
    release old
  | .dynamicTreeSpace old t d => do
    retain rng
    store s (.dynamicTreeSpace rng t d)
    release old
  | _ => fun _ => .ub

/-- `ccs_configuration_space_add_parameter`, `src/configuration_space.c:429-543`: `v` is the verdict on
the type and the name, `w` on the dimension of the distribution or the creation of the default
one. -/
def addParameter (s p : Ref) (d : Option Ref) (v w : Option Err) : Act Unit := do
  let o ← check s .configurationSpace
  let _ ← check p .parameter
  verdict v
  match o with
  | .configurationSpace rng ps cl ds => do
    retain p
    let d ← orRelease (match d with
      | some d => do let _ ← check d .distribution; verdict w; retain d; pure d
      | none => newLeaf .distribution w) [p]
    store s (.configurationSpace rng (ps ++ [(p, none)]) cl (ds ++ [(d, [ps.length])]))
  | _ => fun _ => .ub

/-- Default distributions for the parameters left without one,
`src/configuration_space.c:639-657`; on a failure those created are released. -/
def defaults : List (Nat × Option Err) → Act (List (Ref × List Nat))
  | [] => pure []
  | (i, v) :: rest => do
    let d ← newLeaf .distribution v
    let ds ← orRelease (defaults rest) [d]
    pure ((d, [i]) :: ds)

/-- `ccs_configuration_space_set_distribution`, `src/configuration_space.c:547-690`, for indexes in range
and distinct (`v` otherwise): the distributions that cover one of them are replaced by the new
one and by default distributions for the parameters left; `w` has a verdict for each
of these.  The list is written once, before the releases; there each distribution leaves it just before it
is released and the new ones are appended after.  Every parameter is covered by a distribution
of the list, otherwise the code would drop another index instead. -/
def setDistribution (s d : Ref) (indexes : List Nat) (v : Option Err) (w : Nat → Option Err) :
    Act Unit := do
  let o ← check s .configurationSpace
  let _ ← check d .distribution
  verdict v
  match o with
  | .configurationSpace rng ps cl ds => do
    let gone := ds.filter fun x => x.2.any (indexes.contains ·)
    let kept := ds.filter fun x => !x.2.any (indexes.contains ·)
    let left := (gone.flatMap (·.2)).filter (!indexes.contains ·)
    retain d
    let add ← orRelease (defaults (left.map fun i => (i, w i))) [d]
    store s (.configurationSpace rng ps cl (kept ++ (d, indexes) :: add))
    releaseAll (gone.map (·.1))
  | _ => fun _ => .ub

/-- `ccs_configuration_space_set_condition`, `src/configuration_space.c:1308-1335`; `v` is the verdict of
`_generate_constraints`. -/
def setCondition (s : Ref) (i : Nat) (e : Ref) (v : Option Err) : Act Unit := do
  let o ← check s .configurationSpace
  let _ ← check e .expression
  match o with
  | .configurationSpace rng ps cl ds =>
    match ps[i]? with
    | none => fail .outOfBounds
    | some (_, some _) => fail .invalidParameter
    | some (p, none) => do
      retain e
      store s (.configurationSpace rng (ps.set i (p, some e)) cl ds)
      match v with
      | none => pure ()
      | some err => do
        ignore (release e)
        store s (.configurationSpace rng (ps.set i (p, none)) cl ds)
        fail err
  | _ => fun _ => .ub

/-- `ccs_configuration_space_add_forbidden_clause`, `src/configuration_space.c:1390-1423`: `v` is the
verdict on the context, `w` on the default configuration, `x` on the clause. -/
def addClause (s e : Ref) (v w x : Option Err) : Act Unit := do
  let o ← check s .configurationSpace
  let _ ← check e .expression
  verdict v
  match o with
  | .configurationSpace rng ps cl ds => do
    let c ← newConfiguration s none none
    orRelease (verdict w) [c]
    orRelease (do verdict x; retain e) [c]
    store s (.configurationSpace rng ps (cl ++ [e]) ds)
    ignore (release c)
  | _ => fun _ => .ub

/-- `ccs_features_space_add_parameter`, `src/features_space.c:150-202`. -/
def addFeature (s p : Ref) (v : Option Err) : Act Unit := do
  let o ← check s .featuresSpace
  let _ ← check p .parameter
  verdict v
  match o with
  | .featuresSpace ps => do
    retain p
    store s (.featuresSpace (ps ++ [p]))
  | _ => fun _ => .ub

/-- `ccs_objective_space_add_parameter`, `src/objective_space.c:277-330`. -/
def addObjectiveParameter (s p : Ref) (v : Option Err) : Act Unit := do
  let o ← check s .objectiveSpace
  let _ ← check p .parameter
  verdict v
  match o with
  | .objectiveSpace ps os => do
    retain p
    store s (.objectiveSpace (ps ++ [p]) os)
  | _ => fun _ => .ub

/-- `ccs_objective_space_add_objective`, `src/objective_space.c:494-509`. -/
def addObjective (s e : Ref) (v : Option Err) : Act Unit := do
  let o ← check s .objectiveSpace
  let _ ← check e .expression
  verdict v
  match o with
  | .objectiveSpace ps os => do
    retain e
    store s (.objectiveSpace ps (os ++ [e]))
  | _ => fun _ => .ub

/-- `ccs_objective_space_add_objectives`, `src/objective_space.c:511-533`: one after the other. -/
def addObjectives (s : Ref) : List (Ref × Option Err) → Act Unit
  | [] => do let _ ← check s .objectiveSpace; pure ()
  | (e, v) :: es => do addObjective s e v; addObjectives s es

/-! ## Sampling and tuners -/

/-- What `_sample` answers, `src/configuration_space.c:1000-1046`. -/
inductive Draw
  | hit | miss
  | error (e : Err)
  deriving DecidableEq, Repr

/-- `ccs_configuration_space_sample`, `src/configuration_space.c:1048-1079`: at most 100 draws, `draws`
are their answers (`miss` when exhausted); and
`ccs_configuration_space_get_default_configuration`, `src/configuration_space.c:860-888`. -/
def sample (s : Ref) (d : Draw) : Act Ref := do
  let c ← newConfiguration s none none
  orRelease (match d with
    | .hit => pure ()
    | .miss => fail .samplingUnsuccessful
    | .error e => fail e) [c]
  pure c

/-- The loop of `ccs_configuration_space_samples`, `src/configuration_space.c:1102-1121`: `todo`
configurations are missing, `c` is the one being filled.  The configurations found and the result
code; on the last error the one being filled is not released. -/
def sampleLoop (s : Ref) : List Draw → Nat → Option Ref → List Ref →
    Act (Option Err × List Ref)
  | _, 0, _, found => pure (none, found)
  | [], _ + 1, _, found => pure (some .samplingUnsuccessful, found)
  | d :: ds, todo + 1, c, found => do
    let c ← match c with
      | some c => pure c
      | none => newConfiguration s none none
    match d with
    | .hit => sampleLoop s ds todo none (found ++ [c])
    | .miss => sampleLoop s ds (todo + 1) (some c) found
    | .error e => do ignore (release c); pure (some e, found)

/-- `ccs_configuration_space_samples`, `src/configuration_space.c:1081-1122`: at most `100 * n`
draws. -/
def samples (s : Ref) (n : Nat) (draws : List Draw) : Act (Option Err × List Ref) := do
  let _ ← check s .configurationSpace
  sampleLoop s (draws.take (100 * n)) n none []

/-- `ccs_tree_space_samples`, `src/tree_space.c:142-188` and `src/tree_space.c:200-214`: each draw is a
configuration or an error. -/
def treeSamples (s : Ref) : List (Option Err) → List Ref → Act (Option Err × List Ref)
  | [], found => do let _ ← check s .treeSpace; pure (none, found)
  | none :: ds, found => do let c ← newTreeConfiguration s; treeSamples s ds (found ++ [c])
  | some e :: _, found => do let _ ← check s .treeSpace; pure (some e, found)

/-- What comparing two evaluations answers. -/
inductive Verdict4
  | better | worse | incomparable | error
  deriving DecidableEq, Repr

/-- The optima after an evaluation, `src/tuner_random.c:196-239`: each optimum is read until the new
evaluation is found to be dominated. -/
def newOptima (cmp : Ref → Ref → Verdict4) (e : Ref) : List Ref → Bool → Act (List Ref)
  | [], discard => pure (if discard then [] else [e])
  | x :: xs, true => do let l ← newOptima cmp e xs true; pure (x :: l)
  | x :: xs, false => do
    let _ ← load x
    match cmp e x with
    | .error => newOptima cmp e xs true
    | .worse => do let l ← newOptima cmp e xs true; pure (x :: l)
    | .better => newOptima cmp e xs false
    | .incomparable => do let l ← newOptima cmp e xs false; pure (x :: l)

def Obj.optima : Obj → List Ref
  | .tuner _ _ _ opt | .featuresTuner _ _ _ _ opt | .treeTuner _ _ _ opt => opt
  | _ => []

/-- One evaluation and new optima recorded in a tuner's data. -/
def Obj.record (e : Ref) (opt : List Ref) : Obj → Obj
  | .tuner cs os hist _ => .tuner cs os (hist ++ [e]) opt
  | .featuresTuner cs os fs hist _ => .featuresTuner cs os fs (hist ++ [e]) opt
  | .treeTuner ts os hist _ => .treeTuner ts os (hist ++ [e]) opt
  | o => o

/-- The kind of evaluations a tuner takes; `none` for a user's tuner (`Verif/Model/UserTuner.lean`). -/
def Obj.takes : Obj → Option Kind
  | .tuner .. => some .evaluation
  | .featuresTuner .. => some .featuresEvaluation
  | .treeTuner .. => some .treeEvaluation
  | _ => none

/-- `_ccs_tuner_random_tell`, `src/tuner_random.c:178-247`, `src/features_tuner_random.c:187-249`,
`src/tree_tuner_random.c:179-241`: each evaluation with whether its result is a success.  The result of
the retain is ignored.  One function here for the three kinds of tuners; a user's tuner is left alone
(`Verif/Model/UserTuner.lean` has its calls).  The history is written with the optima, after the
comparisons. -/
def tell (cmp : Ref → Ref → Verdict4) (t : Ref) : List (Ref × Bool) → Act Unit
  | [] => do let _ ← load t; pure ()
  | (e, good) :: es => do
    let o ← load t
    match o.takes with
    | none => fail .invalidObject
    | some k => do
      let _ ← check e k
      if good then do
        ignore (retain e)
        let opt ← newOptima cmp e o.optima false
        store t (o.record e opt)
        tell cmp t es
      else tell cmp t es

/-- The configuration of an evaluation (`ccs_evaluation_get_configuration` and the others). -/
def Obj.evaluated : Obj → Option Ref
  | .evaluation _ c | .featuresEvaluation _ c _ | .treeEvaluation _ c => some c
  | _ => none

/-- `_ccs_tuner_random_ask`, `src/tuner_random.c:151-170`, `src/features_tuner_random.c:158-178`,
`src/tree_tuner_random.c:152-171`. -/
def ask (t : Ref) (n : Nat) (draws : List Draw) : Act (Option Err × List Ref) := do
  let o ← load t
  match o with
  | .tuner cs _ _ _ | .featuresTuner cs _ _ _ _ => samples cs n draws
  | .treeTuner ts _ _ _ =>
    treeSamples ts ((draws.take n).map fun d => match d with | .error e => some e | _ => none) []
  | _ => fail .invalidObject

/-- `_ccs_tuner_random_suggest`, `src/tuner_random.c:299-321`, `src/features_tuner_random.c:380-426`,
`src/tree_tuner_random.c:300-328`: the configuration of the optimum chosen is retained for the caller; if
there is none, a configuration is asked for.  Which optimum is chosen is a parameter. -/
def suggest (t : Ref) (pick : Option Nat) (draws : List Draw) : Act (Option Err × List Ref) := do
  let o ← load t
  match pick.bind (o.optima[·]?) with
  | none => ask t 1 draws
  | some e => do
    let ev ← load e
    match ev.evaluated with
    | none => fail .invalidObject
    | some c => do
      retain c
      pure (none, [c])

/-! ## Maps and trees -/

/-- `_ccs_map_check_datum`, `src/map.c:171-181`. -/
def retainDat : Dat → Act Unit
  | .obj r => retain r
  | .other _ => pure ()

def releaseDat : Dat → Act Unit
  | .obj r => ignore (release r)
  | .other _ => pure ()

def Dat.refs : Dat → List Ref
  | .obj r => [r]
  | .other _ => []

/-- `ccs_map_set`, `src/map.c:197-243`. -/
def mapSet (m : Ref) (k v : Dat) : Act Unit := do
  let o ← check m .map
  match o with
  | .map es =>
    match es.find? (·.1 = k) with
    | some old =>
      if old.2 = v then pure ()
      else do
        retainDat k
        orRelease (retainDat v) k.refs
        store m (.map (es.erase old))
        releaseDat old.1
        releaseDat old.2
        store m (.map (es.erase old ++ [(k, v)]))
    | none => do
      retainDat k
      orRelease (retainDat v) k.refs
      store m (.map (es ++ [(k, v)]))
  | _ => fun _ => .ub

/-- `ccs_map_del`, `src/map.c:272-282`. -/
def mapDel (m : Ref) (k : Dat) : Act Unit := do
  let o ← check m .map
  match o with
  | .map es =>
    match es.find? (·.1 = k) with
    | some old => do
      store m (.map (es.erase old))
      releaseDat old.1
      releaseDat old.2
    | none => fail .invalidValue
  | _ => fun _ => .ub

/-- `ccs_tree_set_child`, `src/tree.c:256-292`, for a tree that is not the child itself or below it (the
weights are then updated forever, see C71).  The update of the weights does not fail: the index is in
range. -/
def setChild (t : Ref) (i : Nat) (c : Ref) : Act Unit := do
  let o ← check t .tree
  let oc ← check c .tree
  match o, oc with
  | .tree cs p, .tree ccs cp =>
    match cs[i]? with
    | none => fail .outOfBounds
    | some (some _) => fail .invalidValue
    | some none =>
      if cp.isSome then fail .invalidTree
      else do
        retain c
        store c (.tree ccs (some t))
        store t (.tree (cs.set i (some c)) p)
  | _, _ => fun _ => .ub

/-- What the user's `get_child` does: fails, creates a tree, or hands over a reference it owns. -/
inductive Callback
  | fails (e : Err)
  | fresh (arity : Nat)
  | gives (r : Ref)
  deriving DecidableEq, Repr

/-- `_ccs_tree_space_tree_get_child`, `src/tree_space_dynamic.c:145-163`: if the node has no child there,
the user's is attached and its reference dropped; if attaching fails the reference is kept
by nobody. -/
def dynamicChild (t : Ref) (i : Nat) (cb : Callback) : Act Unit := do
  let o ← check t .tree
  match o with
  | .tree cs _ =>
    match cs[i]? with
    | none => fail .outOfBounds
    | some (some _) => pure ()
    | some none => do
      let c ← match cb with
        | .fails e => fail e
        | .fresh n => newLeaf (.tree n) none
        | .gives r => pure r
      setChild t i c
      release c
  | _ => fun _ => .ub

/-! ## Programs -/

/-- The calls of a program. -/
inductive Op
  | retain (r : Ref) | release (r : Ref)
  | leaf (l : Leaf) (v : Option Err)
  | composite (parts : List Ref) (v : Option Err)
  | var (p : Ref)
  | expression (nodes : List Operand) (v : Option Err)
  | configurationSpace
  | configuration (s : Ref) (v w : Option Err)
  | features (s : Ref) (v w : Option Err)
  | evaluation (os c : Ref) (v w : Option Err)
  | featuresEvaluation (os c f : Ref) (v w : Option Err)
  | treeEvaluation (os c : Ref) (v w : Option Err)
  | tuner (cs os : Ref) | userTuner (cs os : Ref) (del : Option Err)
  | featuresTuner (cs os fs : Ref) | userFeaturesTuner (cs os fs : Ref) (del : Option Err)
  | treeTuner (ts os : Ref) | userTreeTuner (ts os : Ref) (del : Option Err)
  | treeSpace (t : Ref) | dynamicTreeSpace (t : Ref) (del : Option Err)
  | treeConfiguration (s : Ref)
  | setRng (s g : Ref) | setTreeRng (s g : Ref)
  | addParameter (s p : Ref) (d : Option Ref) (v w : Option Err)
  | setDistribution (s d : Ref) (indexes : List Nat) (v : Option Err) (w : Nat → Option Err)
  | setCondition (s : Ref) (i : Nat) (e : Ref) (v : Option Err)
  | addClause (s e : Ref) (v w x : Option Err)
  | addFeature (s p : Ref) (v : Option Err)
  | addObjectiveParameter (s p : Ref) (v : Option Err)
  | addObjective (s e : Ref) (v : Option Err)
  | addObjectives (s : Ref) (es : List (Ref × Option Err))
  | sample (s : Ref) (d : Draw)
  | samples (s : Ref) (n : Nat) (draws : List Draw)
  | treeSamples (s : Ref) (draws : List (Option Err))
  | ask (t : Ref) (n : Nat) (draws : List Draw)
  | tell (cmp : Ref → Ref → Verdict4) (t : Ref) (es : List (Ref × Bool))
  | suggest (t : Ref) (pick : Option Nat) (draws : List Draw)
  | mapSet (m : Ref) (k v : Dat) | mapDel (m : Ref) (k : Dat)
  | setChild (t : Ref) (i : Nat) (c : Ref)
  | dynamicChild (t : Ref) (i : Nat) (cb : Callback)

/-- Calls that return an object. -/
def one (a : Act Ref) : Act (Option Err × List Ref) := do let r ← a; pure (none, [r])

/-- Calls that return nothing. -/
def unit (a : Act Unit) : Act (Option Err × List Ref) := do a; pure (none, [])

/-- The function called: its result code when it also returns objects, and the objects it returns. -/
def Op.act : Op → Act (Option Err × List Ref)
  | .retain r => do Own.retain r; pure (none, [r])
  | .release r => unit (Own.release r)
  | .leaf l v => one (newLeaf l v)
  | .composite ps v => one (newComposite ps v)
  | .var p => one (newVariable p)
  | .expression ns v => one (newExpression ns v)
  | .configurationSpace => one newConfigurationSpace
  | .configuration s v w => one (newConfiguration s v w)
  | .features s v w => one (newFeatures s v w)
  | .evaluation os c v w => one (newEvaluation os c v w)
  | .featuresEvaluation os c f v w => one (newFeaturesEvaluation os c f v w)
  | .treeEvaluation os c v w => one (newTreeEvaluation os c v w)
  | .tuner cs os => one (newTuner cs os (.tuner cs os [] []))
  | .userTuner cs os d => one (newTuner cs os (.userTuner cs os d))
  | .featuresTuner cs os fs => one (newFeaturesTuner cs os fs (.featuresTuner cs os fs [] []))
  | .userFeaturesTuner cs os fs d =>
    one (newFeaturesTuner cs os fs (.userFeaturesTuner cs os fs d))
  | .treeTuner ts os => one (newTreeTuner ts os (.treeTuner ts os [] []))
  | .userTreeTuner ts os d => one (newTreeTuner ts os (.userTreeTuner ts os d))
  | .treeSpace t => one (newTreeSpace t (.treeSpace · t))
  | .dynamicTreeSpace t d => one (newTreeSpace t (.dynamicTreeSpace · t d))
  | .treeConfiguration s => one (newTreeConfiguration s)
  | .setRng s g => unit (Own.setRng s g)
  | .setTreeRng s g => unit (Own.setTreeRng s g)
  | .addParameter s p d v w => unit (Own.addParameter s p d v w)
  | .setDistribution s d is v w => unit (Own.setDistribution s d is v w)
  | .setCondition s i e v => unit (Own.setCondition s i e v)
  | .addClause s e v w x => unit (Own.addClause s e v w x)
  | .addFeature s p v => unit (Own.addFeature s p v)
  | .addObjectiveParameter s p v => unit (Own.addObjectiveParameter s p v)
  | .addObjective s e v => unit (Own.addObjective s e v)
  | .addObjectives s es => unit (Own.addObjectives s es)
  | .sample s d => one (Own.sample s d)
  | .samples s n ds => Own.samples s n ds
  | .treeSamples s ds => Own.treeSamples s ds []
  | .ask t n ds => Own.ask t n ds
  | .tell cmp t es => unit (Own.tell cmp t es)
  | .suggest t pick ds => Own.suggest t pick ds
  | .mapSet m k v => unit (Own.mapSet m k v)
  | .mapDel m k => unit (Own.mapDel m k)
  | .setChild t i c => unit (Own.setChild t i c)
  | .dynamicChild t i cb => unit (Own.dynamicChild t i cb)

/-- A program's view: the heap and the references the client owns. -/
structure State where
  heap : Heap
  ext : List Ref
  deriving DecidableEq, Repr

/-- The reference the client gives up by a call: one by `ccs_release_object`, whatever it returns, and the
one the user's `get_child` hands over, if it is called. -/
def Op.gives (h : Heap) : Op → Option Ref
  | .release r => some r
  | .dynamicChild t i (.gives r) =>
    match get h t with
    | .live _ (.tree cs _) => if cs[i]? = some none then some r else none
    | _ => none
  | _ => none

def without (ext : List Ref) : Option Ref → List Ref
  | some r => ext.erase r
  | none => ext

/-- A call: its result code and the state it leaves; `none` if undefined. -/
def step (s : State) (op : Op) : Option (Option Err × State) :=
  match op.act s.heap with
  | .ok (code, got) h => some (code, ⟨h, got ++ without s.ext (op.gives s.heap)⟩)
  | .err e h => some (some e, ⟨h, without s.ext (op.gives s.heap)⟩)
  | .ub => none

/-- A program: its calls in order, from a heap without objects. -/
def run : State → List Op → Option State
  | s, [] => some s
  | s, op :: ops =>
    match step s op with
    | some (_, s') => run s' ops
    | none => none

end CCS.Own
