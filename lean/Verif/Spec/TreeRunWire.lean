import Verif.Model.TreeRunWire
import Verif.Spec.RunWire
import Verif.Spec.TreeWire

/-!
# Specification of the serialization of tree spaces, tree configurations, tree evaluations and tree tuners

What can be stored, and when what is read is the same up to addresses.
-/

namespace CCS.Spec

open CCS

/-- A tree space that can be stored: its tree was made by calls, and everything fits in memory. -/
structure StorableTreeSpace (ops : FloatOps) (g : Grove) (o : TreeSpaceObj) : Prop where
  name : CStr o.name
  rng : StorableRng o.rng
  made : GrownForest ops g.trees
  root : ∃ n, g.trees.node o.root = some n
  tree : StorableTree g o.root
  state : ∀ s, o.state = some s → s.length < 2 ^ 64
  data : o.data.length < 2 ^ 64

/-- Tree `h'` of `g'` is tree `h` of `g` planted next to the trees of `room`: it looks the same at every position, it is not
part of a larger tree, and the trees of `room` are as before. -/
structure Replanted (ops : FloatOps) (g : Grove) (h : Nat) (room g' : Grove) (h' : Nat) : Prop where
  grown : GrownForest ops g'.trees
  same : SameTree g h g' h'
  parent : g'.trees.getParent h' = .ok none
  kept : ∀ k, k < room.trees.length → g'.trees.node k = room.trees.node k ∧ g'.data k = room.data k

/-- A tree configuration that fits in memory. -/
structure StorableTreeConf (o : TreeConfObj) : Prop where
  position : o.config.position.length < 2 ^ 61
  data : o.data.length < 2 ^ 64

/-- Outcome of looking up a tree space by its written address: its address now. -/
inductive FoundSpace (m : Handles) (h : BitVec 64) : Out (BitVec 64) → Prop
  | unknown : m.get h = none → FoundSpace m h (.err .invalidHandle)
  | other {x} : m.get h = some x → x.type ≠ treeSpaceType → FoundSpace m h (.err .invalidObject)
  | found {x} : m.get h = some x → x.type = treeSpaceType → FoundSpace m h (.ok x.addr)

/-- A tree evaluation that can be stored. -/
structure StorableTreeEval (e : TreeEvalObj) : Prop where
  binding : StorableBinding e.binding
  configuration : StorableTreeConf e.configuration
  data : e.data.length < 2 ^ 64

/-- The same tree evaluation, at the place `p`, in spaces at the addresses of `P`. -/
structure SameTreeEval (P : Places) (p : EvalPlace) (e e' : TreeEvalObj) : Prop where
  handle : e'.handle = p.eval
  values : MovedTo P.objectives e.binding e'.binding
  configuration : e'.configuration = ⟨p.conf, ⟨P.space, e.configuration.config.position⟩, e.configuration.data⟩
  result : e'.result = e.result
  data : e'.data = e.data

/-- The evaluation belongs to the spaces of the tuner, and its values fit. -/
structure BelongsTo (o : TreeTunerObj) (e : TreeEvalObj) : Prop where
  configuration : e.configuration.config.space = o.space.handle
  objectives : e.binding.context = o.objectives.handle ∧ FitsSpace o.objectives.space.ctx e.binding

/-- A tree tuner that can be stored, and a process that reads it. -/
structure StoredTreeRun (H : TreeHost) (P : Places) (mem mem' : BitVec 64 → Param) (g : Grove) (pdata : BitVec 64 → Bytes)
    (o : TreeTunerObj) : Prop where
  name : CStr o.name
  data : o.data.length < 2 ^ 64
  space : StorableTreeSpace H.ops g o.space
  room : GrownForest H.ops H.room.trees
  objectives : StoredObjSpace H.ops H.jen H.little mem pdata o.objectives
  objAddrs : (writtenIn o.objectives.space).Nodup
  objPlaces : Lays P.objParamAt mem' o.objectives.space.ctx
  spaces : o.space.handle ≠ o.objectives.handle
  evals : ∀ h ∈ o.tuner.history, (o.evals h).handle = h ∧ StorableTreeEval (o.evals h)
  size : o.tuner.history.length + o.tuner.optima.length < 2 ^ 64

/-- A random tree tuner made by calls, that can be stored, and a process that reads it. -/
structure StoredTreeTuner (H : TreeHost) (P : Places) (mem mem' : BitVec 64 → Param) (g : Grove) (pdata : BitVec 64 → Bytes)
    (o : TreeTunerObj) : Prop extends StoredTreeRun H P mem mem' g pdata o where
  made : ∃ calls, o.tuner = Tuner.empty.tells calls

/-- The same tree tuner read back, up to its generator: same name and user data, the same tree under a space of the same name and
user data, an objective space that is the same up to the addresses of its parameters, the same evaluations in the same order,
and as optima the evaluations that took the place of the old ones. -/
structure SameTreeTuner (H : TreeHost) (P : Places) (mem' : BitVec 64 → Param) (g : Grove) (pdata : BitVec 64 → Bytes)
    (o : TreeTunerObj) (r : ReadTreeTuner) : Prop where
  handle : r.handle = o.handle
  name : r.name = o.name
  data : r.data = o.data
  spaceName : r.space.name = o.space.name
  spaceData : r.space.data = o.space.data
  tree : Replanted H.ops g o.space.root H.room r.trees r.space.root
  objectives : ObjTwin P.objParamAt o.objectives.space r.objectives.1.space ∧ ObjReachable mem' r.objectives.1.space ∧
    r.objectives.1.name = o.objectives.name ∧ r.objectives.1.data = o.objectives.data ∧ r.objectives.1.handle = P.objectives ∧
    r.objectives.2 = o.objectives.space.ctx.params.map fun x => pdata x.1
  count : r.history.length = o.tuner.history.length
  evals : ∀ (i : Nat) h, o.tuner.history[i]? = some h → ∃ e, r.history[i]? = some e ∧ SameTreeEval P (P.evalAt i) (o.evals h) e
  history : r.tuner.history = o.tuner.history.map (followEval P o.tuner)
  optima : r.tuner.optima = o.tuner.optima.map (followEval P o.tuner)

end CCS.Spec
