import Verif.Model.Own

/-!
# What a program relies on about ownership

Independent of how releases propagate: which references an object stores, what the count of an object
should be, which objects a client can reach, what a client has to respect.
-/

namespace CCS.Own

open CCS

/-- The references an object owns.  Optima and parents are not among them. -/
def Obj.holds : Obj → List Ref
  | .rng | .parameter | .distribution | .literal => []
  | .composite parts => parts
  | .var p => [p]
  | .operation nodes => nodes
  | .configurationSpace g ps cl ds =>
    g :: (ps.map (·.1) ++ ps.filterMap (·.2) ++ cl ++ ds.map (·.1))
  | .featuresSpace ps => ps
  | .objectiveSpace ps os => ps ++ os
  | .configuration s => [s]
  | .features s => [s]
  | .evaluation os c => [os, c]
  | .featuresEvaluation os c f => [os, c, f]
  | .tuner cs os hist _ => cs :: os :: hist
  | .featuresTuner cs os fs hist _ => cs :: os :: fs :: hist
  | .userTuner cs os _ => [cs, os]
  | .userFeaturesTuner cs os fs _ => [cs, os, fs]
  | .map es => es.flatMap fun e => e.1.refs ++ e.2.refs
  | .tree cs _ => cs.filterMap id
  | .treeSpace g t => [g, t]
  | .dynamicTreeSpace g t _ => [g, t]
  | .treeConfiguration s => [s]
  | .treeEvaluation os c => [os, c]
  | .treeTuner ts os hist _ => ts :: os :: hist
  | .userTreeTuner ts os _ => [ts, os]

/-- The kinds of what an object refers to. -/
def Obj.wants : Obj → List (Ref × Kind)
  | .rng | .parameter | .distribution | .literal | .map _ => []
  | .composite parts => parts.map (·, .distribution)
  | .var p => [(p, .parameter)]
  | .operation nodes => nodes.map (·, .expression)
  | .configurationSpace g ps cl ds =>
    (g, .rng) :: (ps.map (fun p => (p.1, Kind.parameter)) ++
      (ps.filterMap (·.2)).map (·, .expression) ++ cl.map (·, .expression) ++
      ds.map (fun d => (d.1, Kind.distribution)))
  | .featuresSpace ps => ps.map (·, .parameter)
  | .objectiveSpace ps os => ps.map (·, .parameter) ++ os.map (·, .expression)
  | .configuration s => [(s, .configurationSpace)]
  | .features s => [(s, .featuresSpace)]
  | .evaluation os c => [(os, .objectiveSpace), (c, .configuration)]
  | .featuresEvaluation os c f =>
    [(os, .objectiveSpace), (c, .configuration), (f, .features)]
  | .tuner cs os hist _ =>
    (cs, .configurationSpace) :: (os, .objectiveSpace) :: hist.map (·, .evaluation)
  | .featuresTuner cs os fs hist _ =>
    (cs, .configurationSpace) :: (os, .objectiveSpace) :: (fs, .featuresSpace) ::
      hist.map (·, .featuresEvaluation)
  | .userTuner cs os _ => [(cs, .configurationSpace), (os, .objectiveSpace)]
  | .userFeaturesTuner cs os fs _ =>
    [(cs, .configurationSpace), (os, .objectiveSpace), (fs, .featuresSpace)]
  | .tree cs _ => (cs.filterMap id).map (·, .tree)
  | .treeSpace g t | .dynamicTreeSpace g t _ => [(g, .rng), (t, .tree)]
  | .treeConfiguration s => [(s, .treeSpace)]
  | .treeEvaluation os c => [(os, .objectiveSpace), (c, .treeConfiguration)]
  | .treeTuner ts os hist _ =>
    (ts, .treeSpace) :: (os, .objectiveSpace) :: hist.map (·, .treeEvaluation)
  | .userTreeTuner ts os _ => [(ts, .treeSpace), (os, .objectiveSpace)]

/-- How many stored references a cell has on an object. -/
def Cell.refs (r : Ref) : Cell → Nat
  | .live _ o => o.holds.count r
  | _ => 0

/-- How many references on an object are stored in objects. -/
def stored (h : Heap) (r : Ref) : Nat := (h.map (Cell.refs r)).sum

/-- The object exists. -/
def Alive (h : Heap) (r : Ref) : Prop := ∃ n o, get h r = .live n o

/-- Counts are right: the count of an object that exists is the number of references on it, of the client
and in objects; an object that does not exist is referred to by nobody. -/
def Counted (h : Heap) (ext : List Ref) : Prop :=
  ∀ r, match get h r with
    | .live n _ => 0 < n ∧ n = ext.count r + stored h r
    | _ => ext.count r = 0 ∧ stored h r = 0

/-- What a client can get at: its own references, and what these refer to. -/
inductive Reach (h : Heap) (ext : List Ref) : Ref → Prop
  | own {r} : r ∈ ext → Reach h ext r
  | field {x r n o} : Reach h ext x → get h x = .live n o → r ∈ o.holds → Reach h ext r

/-- Fields have the kinds they should. -/
def Typed (h : Heap) : Prop :=
  ∀ r n o, get h r = .live n o → ∀ x k, (x, k) ∈ o.wants →
    ∀ m o', get h x = .live m o' → o'.kind = k

/-- Map `a` contains map `b`, directly or in a map it contains. -/
inductive Contains (h : Heap) : Ref → Ref → Prop
  | entry {a b n m es es'} : get h a = .live n (.map es) → b ∈ (Obj.map es).holds →
    get h b = .live m (.map es') → Contains h a b
  | trans {a b c} : Contains h a b → Contains h b c → Contains h a c

/-- The history of a tuner. -/
def Obj.history : Obj → List Ref
  | .tuner _ _ hist _ | .featuresTuner _ _ _ hist _ | .treeTuner _ _ hist _ => hist
  | _ => []

/-- The optima of tuners, which they do not own, are in their histories, which they do. -/
def Borrowed (h : Heap) : Prop :=
  ∀ r n o, get h r = .live n o → ∀ e ∈ o.optima, e ∈ o.history

/-- Trees and their children agree: the parent a child points to, which it does not own, exists and has
it for child, and every child points to the tree it is in. -/
structure Linked (h : Heap) : Prop where
  up : ∀ c n cs t, get h c = .live n (.tree cs (some t)) →
    ∃ m cs' p, get h t = .live m (.tree cs' p) ∧ some c ∈ cs'
  down : ∀ t n cs p c m cs' q, get h t = .live n (.tree cs p) → some c ∈ cs →
    get h c = .live m (.tree cs' q) → q = some t

/-- `t` is `c` or a descendant of `c` in the trees. -/
inductive Below (h : Heap) (c : Ref) : Ref → Prop
  | refl : Below h c c
  | child {x y n cs p} : Below h c x → get h x = .live n (.tree cs p) → some y ∈ cs → Below h c y

/-- The objects a call is given. -/
def Op.args : Op → List Ref
  | .retain r | .release r => [r]
  | .leaf .. | .configurationSpace => []
  | .composite ps _ => ps
  | .var p => [p]
  | .expression ns _ => ns.filterMap fun n => match n with | .object r => some r | .value _ => none
  | .configuration s _ _ | .features s _ _ => [s]
  | .evaluation os c _ _ | .treeEvaluation os c _ _ => [os, c]
  | .featuresEvaluation os c f _ _ => [os, c, f]
  | .tuner a b | .userTuner a b _ | .treeTuner a b | .userTreeTuner a b _ => [a, b]
  | .featuresTuner a b c | .userFeaturesTuner a b c _ => [a, b, c]
  | .treeSpace t | .dynamicTreeSpace t _ => [t]
  | .treeConfiguration s => [s]
  | .setRng s g | .setTreeRng s g => [s, g]
  | .addParameter s p d _ _ => s :: p :: d.toList
  | .setDistribution s d _ _ _ => [s, d]
  | .setCondition s _ e _ | .addClause s e _ _ _ => [s, e]
  | .addFeature s p _ | .addObjectiveParameter s p _ | .addObjective s p _ => [s, p]
  | .addObjectives s es => s :: es.map (·.1)
  | .sample s _ | .samples s _ _ | .treeSamples s _ => [s]
  | .ask t _ _ | .suggest t _ _ => [t]
  | .tell _ t es => t :: es.map (·.1)
  | .mapSet m k v => m :: (k.refs ++ v.refs)
  | .mapDel m _ => [m]
  | .setChild t _ c => [t, c]
  | .dynamicChild t _ cb => t :: match cb with | .gives r => [r] | _ => []

/-- The references a call has to own, not only to reach: the one it gives up, and a map while its entries
are released. -/
def Op.owned : Op → List Ref
  | .release r => [r]
  | .mapSet m _ _ | .mapDel m _ => [m]
  | .dynamicChild _ _ (.gives r) => [r]
  | _ => []

/-- References a call may take on one object. -/
def Op.size : Op → Nat
  | .composite ps _ => ps.length
  | .expression ns _ => ns.length
  | .addObjectives _ es => es.length
  | .samples _ n _ => n + 1
  | .ask _ n _ => n + 1
  | .treeSamples _ ds => ds.length
  | .tell _ _ es => es.length
  | _ => 3

/-- Nothing changed: objects are exactly as they were, and what was created meanwhile is freed. -/
def Unchanged (h h' : Heap) : Prop :=
  h.length ≤ h'.length ∧ ∀ r, get h' r = get h r

/-- Calls that may leave a reference nobody owns when they fail. -/
def Op.careless : Op → Prop
  | .configuration .. | .samples .. | .ask .. | .suggest .. | .dynamicChild .. => True
  | _ => False

instance : DecidablePred Op.careless := fun op => by
  cases op <;> unfold Op.careless <;> infer_instance

/-- Calls that handle several objects one after the other, or hand over a user's error with the work
done: when they fail, some of it has been done. -/
def Op.gradual : Op → Prop
  | .release .. | .addObjectives .. | .treeSamples .. | .tell .. => True
  | _ => False

/-- The objects a call may modify. -/
def Op.targets : Op → List Ref
  | .setRng s _ | .setTreeRng s _ | .addParameter s .. | .setDistribution s .. | .setCondition s ..
  | .addClause s .. | .addFeature s .. | .addObjectiveParameter s .. | .addObjective s ..
  | .addObjectives s .. | .tell _ s _ | .mapSet s .. | .mapDel s .. => [s]
  | .setChild t _ c | .dynamicChild t _ (.gives c) => [t, c]
  | .dynamicChild t .. => [t]
  | _ => []

/-- The fields are the same, except that a tree may have lost its parent. -/
def Same (o o' : Obj) : Prop := o' = o ∨ ∃ cs p, o = .tree cs p ∧ o' = .tree cs none

/-- What the user's destructor of the object created will answer. -/
def Op.userDel : Op → Option Err
  | .userTuner _ _ d | .userFeaturesTuner _ _ _ d | .userTreeTuner _ _ d | .dynamicTreeSpace _ d => d
  | _ => none

/-- What a client has to respect: arguments are objects it can reach; what it releases it owns; no tree is
attached below itself (C71); and counts stay below 2³¹. -/
structure Fair (s : State) (op : Op) : Prop where
  args : ∀ r ∈ op.args, Reach s.heap s.ext r
  owned : ∀ r ∈ op.owned, r ∈ s.ext
  room : ∀ r n o, get s.heap r = .live n o → n + op.size < 2 ^ 31
  size : op.size < 2 ^ 31 - 1
  forest : ∀ t i c, op = .setChild t i c ∨ op = .dynamicChild t i (.gives c) →
    ¬ Below s.heap c t

/-- Every call of the program is fair. -/
def FairRun : State → List Op → Prop
  | _, [] => True
  | s, op :: ops => Fair s op ∧ ∀ code s', step s op = some (code, s') → FairRun s' ops

/-- Calls that fail and may leave a reference nobody owns. -/
def blunders : State → List Op → Nat
  | _, [] => 0
  | s, op :: ops =>
    match step s op with
    | some (code, s') => (if op.careless ∧ code ≠ none then 1 else 0) + blunders s' ops
    | none => 0

/-- The program starts without objects. -/
def State.start : State := ⟨[], []⟩

/-- The state after a fair program. -/
def Reached (ops : List Op) (s : State) : Prop := FairRun .start ops ∧ run .start ops = some s

end CCS.Own
