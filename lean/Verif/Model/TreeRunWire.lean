import Verif.Model.RunWire
import Verif.Model.TreeWire

/-!
# Serialization of tree spaces, tree configurations, tree evaluations and tree tuners

Models the serialization part of `src/tree_space_static.c`, `src/tree_space_dynamic.c`, `src/tree_configuration.c`,
`src/tree_evaluation.c` and `src/tree_tuner_random.c`, and the files that read these objects back.  The conventions are those of
`Model/RunWire`.
-/

namespace CCS

/-- `CCS_OBJECT_TYPE_TREE_SPACE` and the next ones, `include/cconfigspace/base.h:287-293`. -/
def treeSpaceType : BitVec 32 := 16#32
def treeConfigurationType : BitVec 32 := 17#32
def treeEvaluationType : BitVec 32 := 18#32
def treeTunerType : BitVec 32 := 19#32

/-- `CCS_TREE_SPACE_TYPE_STATIC` and `CCS_TREE_SPACE_TYPE_DYNAMIC`, `include/cconfigspace/tree_space.h:23-32`. -/
def staticSpace : BitVec 32 := 0#32
def dynamicSpace : BitVec 32 := 1#32

/-! ## Tree spaces -/

/-- A tree space object, `src/tree_space_internal.h:46-53`: its address, its name, the address and contents of its generator, the root
of its tree, for a dynamic space the bytes given by `serialize_user_state` (none without that callback), and its user data. -/
structure TreeSpaceObj where
  handle : BitVec 64
  name : Bytes
  rngHandle : BitVec 64
  rng : RngObj
  root : Nat
  state : Option Bytes
  data : Bytes

/-- The type of a tree space, `src/tree_space_static.c:200` and `src/tree_space_dynamic.c:282`. -/
def TreeSpaceObj.type (o : TreeSpaceObj) : BitVec 32 := if o.state.isSome then dynamicSpace else staticSpace

/-- The state of a dynamic space, `src/tree_space_dynamic.c:60-65`. -/
def szState : Option Bytes → Nat
  | none => 0
  | some s => szSize s.length + s.length

/-- The state of a dynamic space, `src/tree_space_dynamic.c:82-95`; the callback is assumed
to succeed and to write as many bytes as it announced. -/
def serState : Option Bytes → Wr
  | none => Wr.nop
  | some s => serSize s.length ⨟ serRaw s

/-- `_ccs_tree_space_static_serialize_size`, `src/tree_space_static.c:21-30,44-57,75-95`, and `_ccs_tree_space_dynamic_serialize_size`,
`src/tree_space_dynamic.c:25-34,48-67,99-119`, with `_ccs_serialize_bin_size_ccs_tree_space_common_data`,
`src/tree_space_internal.h:55-68`.  `g` holds the trees and `addr` gives the addresses of their nodes. -/
def szTreeSpace (little : Bool) (g : Grove) (addr : Nat → BitVec 64) (o : TreeSpaceObj) : Out Nat := do
  let t ← Forest.szTree g addr o.root
  .ok (szObj treeSpaceType o.handle + (szEnum o.type + szString o.name + szRng little o.rngHandle o.rng + t + szState o.state) +
    szUserData o.data)

/-- `_ccs_tree_space_static_serialize`, `src/tree_space_static.c:32-42,59-73,97-118`, and `_ccs_tree_space_dynamic_serialize`,
`src/tree_space_dynamic.c:36-46,69-97,121-142`, with `_ccs_serialize_bin_ccs_tree_space_common_data`,
`src/tree_space_internal.h:70-88`. -/
def serTreeSpace (little : Bool) (g : Grove) (addr : Nat → BitVec 64) (o : TreeSpaceObj) : Wr :=
  serObj treeSpaceType o.handle ⨟ (serEnum o.type ⨟ serString o.name ⨟ serRng little o.rngHandle o.rng ⨟
    Forest.serTree little g addr o.root ⨟ serState o.state) ⨟ serUserData o.data

/-- The callbacks given to read a dynamic tree space, `ccs_dynamic_tree_space_vector_t`: whether the mandatory ones are there, and
`deserialize_state`, by what it answers. -/
structure TreeVector where
  complete : Bool
  restore : Option (Bytes → Out Unit)

/-- What reading a tree space creates: its address in the writing process, its name, its generator, its root, the state handed to
`deserialize_state` if it is called, and its user data. -/
structure ReadTreeSpace where
  handle : BitVec 64
  name : Bytes
  rng : RngObj
  root : Nat
  restored : Option Bytes
  data : Bytes

/-- The creation of the space once its data are read.  A static space, `src/tree_space_deserialize.h:47-54` and
`ccs_create_static_tree_space`, `src/tree_space_static.c:171-213`: it has a new generator, the one that was read is released.  A
dynamic space, `src/tree_space_deserialize.h:85-101` and `ccs_create_dynamic_tree_space`, `src/tree_space_dynamic.c:250-299`: the
generator that was read is set; `data.blob` is still empty when it is handed to the callback. -/
def makeTreeSpace (fresh : RngObj) (vector : Option TreeVector) (type : BitVec 32) (rng : RngObj) : Out (RngObj × Option Bytes) :=
  if type = staticSpace then .ok (fresh, none)
  else match vector with
    | none => .err .invalidValue
    | some v =>
      if v.complete then
        match v.restore with
        | none => .ok (rng, none)
        | some f => do
          f []
          .ok (rng, some [])
      else .err .invalidValue

/-- `_ccs_tree_space_deserialize`, `src/tree_space_deserialize.h:8-58,67-185`: the map with the space, the trees, and the space.  `gens`
are the types of generators, `fresh` is a new generator of the default type, `g` are the trees of the process so far and
`addr` the address given to the space.  Simplifications: without a map, `m` is empty and what becomes of it is ignored; what
a failed call leaves behind is not represented. -/
def deTreeSpace (ops : FloatOps) (little : Bool) (gens : List (Bytes × Bytes)) (fresh : RngObj) (vector : Option TreeVector)
    (g : Grove) (m : Handles) (addr : BitVec 64) : Rd (Handles × Grove × ReadTreeSpace) := do
  let o ← deObj
  Rd.lift (refute (o.1 ≠ treeSpaceType) .invalidType)
  let t ← deEnum
  Rd.lift (refute (t ≠ staticSpace ∧ t ≠ dynamicSpace) .unsupportedOperation)
  let name ← deString
  let rng ← deRng little gens
  let tree ← Forest.deTree ops little g
  let s ← Rd.lift (makeTreeSpace fresh vector t rng.2)
  let m' ← Rd.lift (m.add o.2 ⟨treeSpaceType, addr, Ctx.empty⟩)
  let data ← deUserData
  pure (m', tree.1, ⟨o.2, name, s.1, tree.2, s.2, data⟩)

/-! ## Tree configurations -/

/-- A tree configuration object: its address, its space and position, and the bytes of its user data. -/
structure TreeConfObj where
  handle : BitVec 64
  config : TreeConfig
  data : Bytes
  deriving DecidableEq

/-- `_ccs_tree_configuration_serialize_size`, `src/tree_configuration.c:14-27,44-54,66-86`. -/
def szTreeConf (o : TreeConfObj) : Nat :=
  szObj treeConfigurationType o.handle + (szHandle o.config.space + szSize o.config.position.length +
    (o.config.position.map fun i => szSize i.toNat).sum) + szUserData o.data

/-- `_ccs_tree_configuration_serialize`, `src/tree_configuration.c:29-42,56-64,88-110`. -/
def serTreeConf (o : TreeConfObj) : Wr :=
  serObj treeConfigurationType o.handle ⨟ (serHandle o.config.space ⨟ serSize o.config.position.length ⨟
    Wr.all (fun i => serSize i.toNat) o.config.position) ⨟ serUserData o.data

/-- The position, `src/tree_configuration_deserialize.h:16-25`.  The size of the array, `8 * n`, is computed modulo 2^64: from
2^61 indexes on the array is too small, and the first index beyond its end is written outside of it.  Allocation is
assumed to succeed. -/
def dePosition : Rd (List (BitVec 64)) := do
  let n ← deSize
  if 2 ^ 61 ≤ n then do
    let _ ← deSize.times (8 * n % 2 ^ 64 / 8 + 1)
    Rd.undef
  else do
    let is ← deSize.times n
    pure (is.map (BitVec.ofNat 64))

/-- `_ccs_tree_configuration_deserialize`, `src/tree_configuration_deserialize.h:6-113`, with `ccs_create_tree_configuration`,
`src/tree_configuration.c:112-152`, which does not look at the position: `mapped` tells whether the handle of the configuration is
added to the map, `none` is a NULL map and `addr` the address given to the configuration. -/
def deTreeConf (mapped : Bool) (m : Option Handles) (addr : BitVec 64) : Rd (Handles × TreeConfObj) :=
  match m with
  | none => Rd.fail .invalidObject
  | some m => do
    let o ← deObj
    Rd.lift (refute (o.1 ≠ treeConfigurationType) .invalidType)
    let h ← deHandle
    let p ← dePosition
    let s ← Rd.lift (m.space treeSpaceType h)
    let m' ← Rd.lift (if mapped then m.add o.2 ⟨treeConfigurationType, addr, Ctx.empty⟩ else .ok m)
    let data ← deUserData
    pure (m', ⟨addr, ⟨s.1, p⟩, data⟩)

/-! ## Tree evaluations -/

/-- A tree evaluation object, with its configuration. -/
structure TreeEvalObj where
  handle : BitVec 64
  binding : Binding
  configuration : TreeConfObj
  result : BitVec 32
  data : Bytes
  deriving DecidableEq

/-- The evaluation as `Model/TreeRun` sees it. -/
def TreeEvalObj.evaluation (e : TreeEvalObj) : Evaluation := ⟨e.binding, e.configuration.handle, e.result⟩

/-- `_ccs_tree_evaluation_serialize_size`, `src/tree_evaluation.c:21-35,54-65,81-101`. -/
def szTreeEval (e : TreeEvalObj) : Out Nat := do
  let b ← szBindingData e.binding
  .ok (szObj treeEvaluationType e.handle + (b + szTreeConf e.configuration + szResult e.result) + szUserData e.data)

/-- `_ccs_tree_evaluation_serialize`, `src/tree_evaluation.c:37-52,67-79,103-125`. -/
def serTreeEval (little : Bool) (e : TreeEvalObj) : Wr :=
  serObj treeEvaluationType e.handle ⨟ (serBindingData little e.binding ⨟ serTreeConf e.configuration ⨟ serResult e.result) ⨟
    serUserData e.data

/-- `_ccs_tree_evaluation_deserialize`, `src/tree_evaluation_deserialize.h:14-121`, with `ccs_create_tree_evaluation`,
`src/tree_evaluation.c:163-228`. -/
def deTreeEval (jen : Bytes → BitVec 32) (little mapped : Bool) (m : Option Handles) (place : EvalPlace) :
    Rd (Handles × TreeEvalObj) :=
  match m with
  | none => Rd.fail .invalidObject
  | some m => do
    let o ← deObj
    Rd.lift (refute (o.1 ≠ treeEvaluationType) .invalidType)
    let d ← deBindingData little
    let conf ← deTreeConf false (some m) place.conf
    let result ← deResult
    let c ← Rd.lift (m.space objectiveSpaceType d.1)
    let b ← Rd.lift (createBinding jen little c.1 c.2 (givenValues d.2))
    let m' ← Rd.lift (if mapped then m.add o.2 ⟨treeEvaluationType, place.eval, Ctx.empty⟩ else .ok m)
    let data ← deUserData
    pure (m', ⟨place.eval, b, conf.2, result, data⟩)

/-! ## Tree tuners -/

/-- A random tree tuner object: its address, name, spaces, its history and optima, what lies at the addresses of the history, and
its user data. -/
structure TreeTunerObj where
  handle : BitVec 64
  name : Bytes
  space : TreeSpaceObj
  objectives : ObjSpaceObj
  tuner : Tuner
  evals : BitVec 64 → TreeEvalObj
  data : Bytes

/-- What a tree tuner is made of after its type, `src/tree_tuner_random.c:31-49` and `src/tree_tuner_user_defined.c:38-80`, with
`_ccs_serialize_bin_size_ccs_tree_tuner_common_data`, `src/tree_tuner_internal.h:55-70`. -/
def szTreeRun (little : Bool) (g : Grove) (addr : Nat → BitVec 64) (pdata : BitVec 64 → Bytes) (o : TreeTunerObj) : Out Nat := do
  let s ← szTreeSpace little g addr o.space
  let os ← szObjSpace pdata o.objectives
  let h ← szAll (fun e => szTreeEval (o.evals e)) o.tuner.history
  .ok (szString o.name + s + os + szSize o.tuner.history.length + szSize o.tuner.optima.length + h +
    (o.tuner.optima.map szHandle).sum)

/-- `_ccs_tree_tuner_random_serialize_size`, `src/tree_tuner_random.c:76-89,107-127`. -/
def szTreeTuner (little : Bool) (g : Grove) (addr : Nat → BitVec 64) (pdata : BitVec 64 → Bytes) (o : TreeTunerObj) : Out Nat := do
  let r ← szTreeRun little g addr pdata o
  .ok (szObj treeTunerType o.handle + (szEnum randomTuner + r) + szUserData o.data)

/-- What a tree tuner is made of after its type, `src/tree_tuner_random.c:51-74` and `src/tree_tuner_user_defined.c:107-158`, with
`_ccs_serialize_bin_ccs_tree_tuner_common_data`, `src/tree_tuner_internal.h:72-89`. -/
def serTreeRun (little : Bool) (g : Grove) (addr : Nat → BitVec 64) (pdata : BitVec 64 → Bytes) (o : TreeTunerObj) : Wr :=
  serString o.name ⨟ serTreeSpace little g addr o.space ⨟
    serObjSpace little pdata o.objectives ⨟ serSize o.tuner.history.length ⨟ serSize o.tuner.optima.length ⨟
    Wr.all (fun e => serTreeEval little (o.evals e)) o.tuner.history ⨟ Wr.all serHandle o.tuner.optima

/-- `_ccs_tree_tuner_random_serialize`, `src/tree_tuner_random.c:91-105,129-150`. -/
def serTreeTuner (little : Bool) (g : Grove) (addr : Nat → BitVec 64) (pdata : BitVec 64 → Bytes) (o : TreeTunerObj) : Wr :=
  serObj treeTunerType o.handle ⨟ (serEnum randomTuner ⨟ serTreeRun little g addr pdata o) ⨟ serUserData o.data

/-- What reading a tree tuner creates, with the trees of the process and the user data of the parameters of the objective
space. -/
structure ReadTreeTuner where
  handle : BitVec 64
  name : Bytes
  trees : Grove
  space : ReadTreeSpace
  objectives : ObjSpaceObj × List Bytes
  history : List TreeEvalObj
  tuner : Tuner
  data : Bytes

/-- The loop on the history, `src/tree_tuner_deserialize.h:67-70`, from evaluation `i` on. -/
def deTreeHistory (jen : Bytes → BitVec 32) (little : Bool) (P : Places) : Nat → Nat → Handles → Rd (Handles × List TreeEvalObj)
  | 0, _, m => pure (m, [])
  | n + 1, i, m => do
    let e ← deTreeEval jen little true (some m) (P.evalAt i)
    let r ← deTreeHistory jen little P n (i + 1) e.1
    pure (r.1, e.2 :: r.2)

/-- What the reading process brings to a tree tuner: its arithmetic, hash function and byte order, its types of generators, a new
generator of the default type, the callbacks for dynamic tree spaces and the trees that exist already. -/
structure TreeHost where
  ops : FloatOps
  jen : Bytes → BitVec 32
  little : Bool
  gens : List (Bytes × Bytes)
  fresh : RngObj
  vector : Option TreeVector
  room : Grove

/-- What is read of a tree tuner after its type, with the trees of the process. -/
structure ReadTreeRun where
  name : Bytes
  trees : Grove
  space : ReadTreeSpace
  objectives : ObjSpaceObj × List Bytes
  history : List TreeEvalObj
  optima : List (BitVec 64)

/-- `_ccs_deserialize_bin_ccs_random_tree_tuner_data`, `src/tree_tuner_deserialize.h:18-85`, after the type; the fields of `P` about
features are not used.  Simplifications: as in `deRun`; `findOptima` is the loop of `:75-83`. -/
def deTreeRun (H : TreeHost) (P : Places) : Rd ReadTreeRun := do
  let name ← deString
  let s ← deTreeSpace H.ops H.little H.gens H.fresh H.vector H.room [] P.space
  let os ← deObjSpace H.ops H.jen H.little P.objParamAt s.1 P.objectives
  let nh ← deSize
  let no ← deSize
  if 2 ^ 64 ≤ nh + no then Rd.undef
  else do
    let es ← deTreeHistory H.jen H.little P nh 0 os.1
    let hs ← deHandle.times no
    let optima ← Rd.lift (findOptima es.1 hs)
    pure ⟨name, s.2.1, s.2.2, os.2, es.2, optima⟩

/-- `_ccs_tree_tuner_deserialize`, `src/tree_tuner_deserialize.h:104-149,237-326`, for random tuners, with no outer handle map.
Simplifications: as in `deTuner`. -/
def deTreeTuner (H : TreeHost) (P : Places) : Rd ReadTreeTuner := do
  let o ← deObj
  Rd.lift (refute (o.1 ≠ treeTunerType) .invalidType)
  let t ← deEnum
  Rd.lift (refute (t ≠ randomTuner) .invalidType)
  let r ← deTreeRun H P
  let data ← deUserData
  pure ⟨o.2, r.name, r.trees, r.space, r.objectives, r.history, ⟨r.history.map (·.handle), r.optima⟩, data⟩

end CCS
