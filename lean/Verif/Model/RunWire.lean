import Verif.Model.SpaceWire
import Verif.Model.Tuner

/-!
# Serialization of features and objective spaces, configurations, features, evaluations and tuners

Models the serialization part of `src/context_internal.h`, `src/objective_space.c`, `src/binding_internal.h`, `src/configuration.c`,
`src/features.c`, `src/evaluation.c`, `src/features_evaluation.c`, `src/tuner_random.c` and `src/features_tuner_random.c`, and the files
`src/context_deserialize.h`, `src/features_space_deserialize.h`, `src/objective_space_deserialize.h`, `src/configuration_deserialize.h`,
`src/features_deserialize.h`, `src/evaluation_deserialize.h`, `src/features_evaluation_deserialize.h`, `src/tuner_deserialize.h` and
`src/features_tuner_deserialize.h`.

Objects read are represented by what they contain, with the addresses the reading process gives them.
-/

namespace CCS

/-! ## Object types, `include/cconfigspace/base.h:253-279` -/

def configurationType : BitVec 32 := 5#32
def objectiveSpaceType : BitVec 32 := 6#32
def evaluationType : BitVec 32 := 7#32
def tunerType : BitVec 32 := 8#32
def featuresSpaceType : BitVec 32 := 9#32
def featuresType : BitVec 32 := 10#32
def featuresEvaluationType : BitVec 32 := 11#32
def featuresTunerType : BitVec 32 := 12#32

/-! ## The handle map -/

/-- An object known to the handle map: its type, its address in the reading process and, for a space, its parameters. -/
structure Mapped where
  type : BitVec 32
  addr : BitVec 64
  ctx : Ctx

/-- The handle map of the options, `src/cconfigspace_internal.h:1068-1076`: written address and object. -/
abbrev Handles := List (BitVec 64 × Mapped)

/-- `ccs_map_get(handle_map, ccs_object(handle), &d)`, `src/map.c:255-267`. -/
def Handles.get (m : Handles) (h : BitVec 64) : Option Mapped := (m.find? fun x => decide (x.1 = h)).map (·.2)

/-- `_ccs_object_handle_check_add`, `src/cconfigspace_internal.h:1053-1066`. -/
def Handles.add (m : Handles) (h : BitVec 64) (x : Mapped) : Out Handles :=
  match m.get h with
  | some _ => .err .duplicateHandle
  | none => .ok ((h, x) :: m)

/-- The lookup of a space and the `CCS_CHECK_OBJ` of the function that creates the binding,
`src/configuration_deserialize.h:34-41` and `src/configuration.c:93` (same in `src/features_deserialize.h:33-40`,
`src/evaluation_deserialize.h:62-69`, `src/features_evaluation_deserialize.h:68-75`). -/
def Handles.space (m : Handles) (type : BitVec 32) (h : BitVec 64) : Out (BitVec 64 × Ctx) :=
  match m.get h with
  | none => .err .invalidHandle
  | some x => if x.type = type then .ok (x.addr, x.ctx) else .err .invalidObject

/-! ## Bindings -/

/-- A configuration or features object: its address, its space and values, and the bytes of its user data. -/
structure BindObj where
  handle : BitVec 64
  binding : Binding
  data : Bytes
  deriving DecidableEq, Repr

/-- `_ccs_serialize_bin_size_ccs_binding_data`, `src/binding_internal.h:211-219`. -/
def szBindingData (b : Binding) : Out Nat := do
  let vs ← szDatums (b.values.map (·.v))
  .ok (szHandle b.context + szSize b.values.length + vs)

/-- `_ccs_serialize_bin_ccs_binding_data`, `src/binding_internal.h:221-235`. -/
def serBindingData (little : Bool) (b : Binding) : Wr :=
  serHandle b.context ⨟ serSize b.values.length ⨟ Wr.all (fun d : Datum => serDatum little d.v) b.values

/-- `_ccs_deserialize_bin_ccs_binding_data`, `src/binding_internal.h:259-280`: the address of the space and the values.  The
array of values is assumed to be allocated. -/
def deBindingData (little : Bool) : Rd (BitVec 64 × List Datum) := do
  let context ← deHandle
  let n ← deSize
  let values ← (deDatum little).times n
  pure (context, values)

/-- `_ccs_configuration_serialize_size`, `src/configuration.c:19-39`, and `_ccs_features_serialize_size`,
`src/features.c:20-40`, with `_ccs_serialize_bin_size_ccs_binding`, `src/binding_internal.h:237-244`. -/
def szBound (type : BitVec 32) (o : BindObj) : Out Nat := do
  let d ← szBindingData o.binding
  .ok (szObj type o.handle + d + szUserData o.data)

/-- `_ccs_configuration_serialize`, `src/configuration.c:41-62`, and `_ccs_features_serialize`, `src/features.c:42-63`, with
`_ccs_serialize_bin_ccs_binding`, `src/binding_internal.h:246-257`. -/
def serBound (little : Bool) (type : BitVec 32) (o : BindObj) : Wr :=
  serObj type o.handle ⨟ serBindingData little o.binding ⨟ serUserData o.data

/-- The array given to the creation function: NULL when there are no values, `src/binding_internal.h:271`. -/
def givenValues (ds : List Datum) : Option (List Datum) := if ds.isEmpty then none else some ds

/-- `_ccs_configuration_deserialize`, `src/configuration_deserialize.h:6-90`, and `_ccs_features_deserialize`,
`src/features_deserialize.h:6-89`: `type` and `spaceType` are those of the object and of its space, `addr` the address given to the
object and `mapped` tells whether its own handle is added to the map.  `none` is a NULL map.  The result is the map and
the object. -/
def deBound (jen : Bytes → BitVec 32) (little : Bool) (type spaceType : BitVec 32) (mapped : Bool) (m : Option Handles)
    (addr : BitVec 64) : Rd (Handles × BindObj) :=
  match m with
  | none => Rd.fail .invalidObject
  | some m => do
    let o ← deObj
    Rd.lift (refute (o.1 ≠ type) .invalidType)
    let d ← deBindingData little
    let c ← Rd.lift (m.space spaceType d.1)
    let b ← Rd.lift (createBinding jen little c.1 c.2 (givenValues d.2))
    let m' ← Rd.lift (if mapped then m.add o.2 ⟨type, addr, Ctx.empty⟩ else .ok m)
    let data ← deUserData
    pure (m', ⟨addr, b, data⟩)

/-! ## Features spaces -/

/-- A features space object: address, name, parameters and user data. -/
structure FeatSpaceObj where
  handle : BitVec 64
  name : Bytes
  ctx : Ctx
  data : Bytes

/-- `_ccs_features_space_serialize_size`, `src/features_space.c:27-47`, with `_ccs_serialize_bin_size_ccs_context`,
`src/context_internal.h:196-212,234-245`; `pdata` gives the user data of the parameters. -/
def szFeatSpace (pdata : BitVec 64 → Bytes) (o : FeatSpaceObj) : Out Nat := do
  let ps ← szAll (fun p : BitVec 64 × Param => szParam p.2 p.1 (pdata p.1)) o.ctx.params
  .ok (szObj featuresSpaceType o.handle + (szString o.name + szSize o.ctx.params.length + ps) + szUserData o.data)

/-- `_ccs_features_space_serialize`, `src/features_space.c:49-70`, with `_ccs_serialize_bin_ccs_context`,
`src/context_internal.h:214-232,247-259`. -/
def serFeatSpace (little : Bool) (pdata : BitVec 64 → Bytes) (o : FeatSpaceObj) : Wr :=
  serObj featuresSpaceType o.handle ⨟ (serString o.name ⨟ serSize o.ctx.params.length ⨟
    Wr.all (fun p : BitVec 64 × Param => serParam little p.2 p.1 (pdata p.1)) o.ctx.params) ⨟ serUserData o.data

/-- The space after a call, when it succeeds. -/
def afterAdd {α : Type} (r : α × Out Unit) : Out α :=
  match r.2 with
  | .ok _ => .ok r.1
  | .err e => .err e
  | .ub => .ub

/-- `ccs_features_space_add_parameters`, `src/features_space.c:206-218`, and `ccs_objective_space_add_parameters`,
`src/objective_space.c:334-346`, on the parameters read, from position `i` on. -/
def addRead (paramAt : Nat → BitVec 64) : Nat → Ctx → List Param → Out Ctx
  | _, c, [] => .ok c
  | i, c, p :: ps => do
    let c' ← afterAdd (c.add (fun _ => p) (paramAt i))
    addRead paramAt (i + 1) c' ps

/-- `_ccs_features_space_deserialize`, `src/features_space_deserialize.h:5-85`, with `_ccs_deserialize_bin_ccs_context_data`,
`src/context_deserialize.h:13-38`: the map with the space, and the user data of the parameters.  The handles of the parameters are
not put in a map.  The array of parameters is assumed to be allocated. -/
def deFeatSpace (ops : FloatOps) (jen : Bytes → BitVec 32) (little : Bool) (paramAt : Nat → BitVec 64) (m : Handles)
    (addr : BitVec 64) : Rd (Handles × FeatSpaceObj × List Bytes) := do
  let o ← deObj
  Rd.lift (refute (o.1 ≠ featuresSpaceType) .invalidType)
  let name ← deString
  let np ← deSize
  let ps ← (deParam ops jen little).times np
  let c ← Rd.lift (addRead paramAt 0 Ctx.empty (ps.map (·.2.1)))
  let m' ← Rd.lift (m.add o.2 ⟨featuresSpaceType, addr, c⟩)
  let data ← deUserData
  pure (m', ⟨addr, name, c, data⟩, ps.map (·.2.2))

/-! ## Objective spaces -/

/-- An objective space object. -/
structure ObjSpaceObj where
  handle : BitVec 64
  name : Bytes
  space : ObjSpace
  data : Bytes

/-- One turn of the loop on the objectives, `src/objective_space.c:57-66`. -/
def szObjective (o : Objective) : Out Nat := do
  let e ← szExpr o.expression
  .ok (e + szEnum o.type)

/-- `_ccs_objective_space_serialize_size`, `src/objective_space.c:34-69,110-123,142-162`. -/
def szObjSpace (pdata : BitVec 64 → Bytes) (o : ObjSpaceObj) : Out Nat := do
  let ps ← szAll (fun p : BitVec 64 × Param => szParam p.2 p.1 (pdata p.1)) o.space.ctx.params
  let os ← szAll szObjective o.space.objectives
  .ok (szObj objectiveSpaceType o.handle + (szString o.name + szSize o.space.ctx.params.length +
    szSize o.space.objectives.length + ps + os) + szUserData o.data)

/-- One turn of the loop on the objectives, `src/objective_space.c:96-105`. -/
def serObjective (little : Bool) (o : Objective) : Wr := serExpr little o.expression ⨟ serEnum o.type

/-- `_ccs_objective_space_serialize`, `src/objective_space.c:71-108,125-140,164-186`. -/
def serObjSpace (little : Bool) (pdata : BitVec 64 → Bytes) (o : ObjSpaceObj) : Wr :=
  serObj objectiveSpaceType o.handle ⨟ (serString o.name ⨟ serSize o.space.ctx.params.length ⨟
    serSize o.space.objectives.length ⨟
    Wr.all (fun p : BitVec 64 × Param => serParam little p.2 p.1 (pdata p.1)) o.space.ctx.params ⨟
    Wr.all (serObjective little) o.space.objectives) ⨟ serUserData o.data

/-- The loop on the objectives, `src/objective_space_deserialize.h:52-58`. -/
def deObjectives (little : Bool) (map : List (BitVec 64) → HandleMap) : Nat → List (BitVec 64) → Rd (List Objective)
  | 0, _ => pure []
  | n + 1, seen => do
    let seen' ← claim seen
    let e ← deExpr little (map seen)
    let t ← deEnum
    let os ← deObjectives little map n seen'
    pure (⟨e, t⟩ :: os)

/-- `_ccs_objective_space_deserialize`, `src/objective_space_deserialize.h:16-156`: the map with the space, the space and the user data
of its parameters.  Simplifications: as in `deSpace`. -/
def deObjSpace (ops : FloatOps) (jen : Bytes → BitVec 32) (little : Bool) (paramAt : Nat → BitVec 64) (m : Handles)
    (addr : BitVec 64) : Rd (Handles × ObjSpaceObj × List Bytes) := do
  let o ← deObj
  Rd.lift (refute (o.1 ≠ objectiveSpaceType) .invalidType)
  let name ← deString
  let np ← deSize
  let no ← deSize
  if 2 ^ 64 ≤ 8 * np + 12 * no then Rd.undef
  else do
    let ps ← deParams ops jen little np []
    let os ← deObjectives little (spaceMap paramAt ps.2) no ps.1
    let c ← Rd.lift (addRead paramAt 0 Ctx.empty (ps.2.map (·.2.1)))
    let s ← Rd.lift (afterAdd (ObjSpace.addObjectives ⟨c, []⟩ os))
    let m' ← Rd.lift (m.add o.2 ⟨objectiveSpaceType, addr, s.ctx⟩)
    let data ← deUserData
    pure (m', ⟨addr, name, s, data⟩, ps.2.map (·.2.2))

/-! ## Evaluations -/

/-- An evaluation object, with its configuration, and its features if it is a features evaluation. -/
structure EvalObj where
  handle : BitVec 64
  binding : Binding
  configuration : BindObj
  features : Option BindObj
  result : BitVec 32
  data : Bytes
  deriving DecidableEq, Repr

/-- The evaluation as `Model/Binding` sees it. -/
def EvalObj.evaluation (e : EvalObj) : Evaluation := ⟨e.binding, e.configuration.handle, e.result⟩

/-- The object type of evaluations with or without features. -/
def evalType (withFeatures : Bool) : BitVec 32 := if withFeatures then featuresEvaluationType else evaluationType

/-- The features in a features evaluation, `src/features_evaluation.c:35-36`. -/
def szFeatures : Option BindObj → Out Nat
  | none => .ok 0
  | some f => szBound featuresType f

/-- The features in a features evaluation, `src/features_evaluation.c:54-56`. -/
def serFeatures (little : Bool) : Option BindObj → Wr
  | none => Wr.nop
  | some f => serBound little featuresType f

/-- `_ccs_evaluation_serialize_size`, `src/evaluation.c:21-35,54-65,81-101`, and `_ccs_features_evaluation_serialize_size`,
`src/features_evaluation.c:24-40,62-73,90-110`. -/
def szEval (e : EvalObj) : Out Nat := do
  let b ← szBindingData e.binding
  let c ← szBound configurationType e.configuration
  let f ← szFeatures e.features
  .ok (szObj (evalType e.features.isSome) e.handle + (b + c + f + szResult e.result) + szUserData e.data)

/-- `_ccs_evaluation_serialize`, `src/evaluation.c:37-52,67-79,103-124`, and `_ccs_features_evaluation_serialize`,
`src/features_evaluation.c:42-60,75-88,112-134`. -/
def serEval (little : Bool) (e : EvalObj) : Wr :=
  serObj (evalType e.features.isSome) e.handle ⨟ (serBindingData little e.binding ⨟
    serBound little configurationType e.configuration ⨟ serFeatures little e.features ⨟ serResult e.result) ⨟ serUserData e.data

/-- The features in a features evaluation, `src/features_evaluation_deserialize.h:30-32`. -/
def deFeatures (jen : Bytes → BitVec 32) (little withFeatures : Bool) (m : Handles) (addr : BitVec 64) : Rd (Option BindObj) :=
  if withFeatures then do
    let f ← deBound jen little featuresType featuresSpaceType false (some m) addr
    pure (some f.2)
  else pure none

/-- The addresses given to an evaluation, to its configuration and to its features. -/
structure EvalPlace where
  eval : BitVec 64
  conf : BitVec 64
  feat : BitVec 64

/-- `_ccs_evaluation_deserialize`, `src/evaluation_deserialize.h:14-121`, and `_ccs_features_evaluation_deserialize`,
`src/features_evaluation_deserialize.h:17-131`. -/
def deEval (jen : Bytes → BitVec 32) (little withFeatures mapped : Bool) (m : Option Handles) (place : EvalPlace) :
    Rd (Handles × EvalObj) :=
  match m with
  | none => Rd.fail .invalidObject
  | some m => do
    let o ← deObj
    Rd.lift (refute (o.1 ≠ evalType withFeatures) .invalidType)
    let d ← deBindingData little
    let conf ← deBound jen little configurationType configurationSpaceType false (some m) place.conf
    let feat ← deFeatures jen little withFeatures m place.feat
    let result ← deResult
    let c ← Rd.lift (m.space objectiveSpaceType d.1)
    let b ← Rd.lift (createBinding jen little c.1 c.2 (givenValues d.2))
    let m' ← Rd.lift (if mapped then m.add o.2 ⟨evalType withFeatures, place.eval, Ctx.empty⟩ else .ok m)
    let data ← deUserData
    pure (m', ⟨place.eval, b, conf.2, feat, result, data⟩)

/-! ## Tuners -/

/-- A random tuner object: its address, name, spaces, its history and optima, what lies at the addresses of the history, and its
user data.  A features tuner has a features space. -/
structure TunerObj where
  handle : BitVec 64
  name : Bytes
  space : SpaceObj
  objectives : ObjSpaceObj
  features : Option FeatSpaceObj
  tuner : Tuner
  evals : BitVec 64 → EvalObj
  data : Bytes

/-- `CCS_TUNER_TYPE_RANDOM`, `include/cconfigspace/tuner.h:19-28`, and `CCS_FEATURES_TUNER_TYPE_RANDOM`,
`include/cconfigspace/features_tuner.h:20-29`. -/
def randomTuner : BitVec 32 := 0#32

/-- The object type of tuners with or without features. -/
def tunerTypeOf (withFeatures : Bool) : BitVec 32 := if withFeatures then featuresTunerType else tunerType

/-- The features space in a features tuner, `src/features_tuner_internal.h:77-79`. -/
def szFeaturesOf (pdata : BitVec 64 → Bytes) : Option FeatSpaceObj → Out Nat
  | none => .ok 0
  | some f => szFeatSpace pdata f

/-- The features space in a features tuner, `src/features_tuner_internal.h:100-102`. -/
def serFeaturesOf (little : Bool) (pdata : BitVec 64 → Bytes) : Option FeatSpaceObj → Wr
  | none => Wr.nop
  | some f => serFeatSpace little pdata f

/-- What a tuner is made of after its type, `src/tuner_random.c:31-49` and `src/tuner_user_defined.c:36-77`, with
`_ccs_serialize_bin_size_ccs_tuner_common_data`, `src/tuner_internal.h:55-70`, and for features tuners
`src/features_tuner_random.c:35-53`, `src/features_tuner_user_defined.c:39-83`, with `_ccs_serialize_bin_size_ccs_features_tuner_common_data`,
`src/features_tuner_internal.h:62-81`; `pdata` gives the user data of the parameters of the objective space and of the features
space. -/
def szRun (ops : FloatOps) (little : Bool) (hp : Heap) (pdata : BitVec 64 → Bytes) (o : TunerObj) : Out Nat := do
  let s ← szSpace ops little hp o.space
  let os ← szObjSpace pdata o.objectives
  let fs ← szFeaturesOf pdata o.features
  let h ← szAll (fun e => szEval (o.evals e)) o.tuner.history
  .ok (szString o.name + s + os + fs + szSize o.tuner.history.length + szSize o.tuner.optima.length + h +
    (o.tuner.optima.map szHandle).sum)

/-- `_ccs_tuner_random_serialize_size`, `src/tuner_random.c:76-89,107-127`, and `_ccs_random_features_tuner_serialize_size`,
`src/features_tuner_random.c:80-93,111-131`. -/
def szTuner (ops : FloatOps) (little : Bool) (hp : Heap) (pdata : BitVec 64 → Bytes) (o : TunerObj) : Out Nat := do
  let r ← szRun ops little hp pdata o
  .ok (szObj (tunerTypeOf o.features.isSome) o.handle + (szEnum randomTuner + r) + szUserData o.data)

/-- What a tuner is made of after its type, `src/tuner_random.c:51-74` and `src/tuner_user_defined.c:103-155`, with
`_ccs_serialize_bin_ccs_tuner_common_data`, `src/tuner_internal.h:72-90`, and for features tuners
`src/features_tuner_random.c:55-78`, `src/features_tuner_user_defined.c:108-164`, with `_ccs_serialize_bin_ccs_features_tuner_common_data`,
`src/features_tuner_internal.h:83-104`. -/
def serRun (ops : FloatOps) (little : Bool) (hp : Heap) (pdata : BitVec 64 → Bytes) (o : TunerObj) : Wr :=
  serString o.name ⨟ serSpace ops little hp o.space ⨟
    serObjSpace little pdata o.objectives ⨟ serFeaturesOf little pdata o.features ⨟ serSize o.tuner.history.length ⨟
    serSize o.tuner.optima.length ⨟ Wr.all (fun e => serEval little (o.evals e)) o.tuner.history ⨟
    Wr.all serHandle o.tuner.optima

/-- `_ccs_tuner_random_serialize`, `src/tuner_random.c:91-105,129-150`, and `_ccs_random_features_tuner_serialize`,
`src/features_tuner_random.c:95-109,133-155`. -/
def serTuner (ops : FloatOps) (little : Bool) (hp : Heap) (pdata : BitVec 64 → Bytes) (o : TunerObj) : Wr :=
  serObj (tunerTypeOf o.features.isSome) o.handle ⨟ (serEnum randomTuner ⨟ serRun ops little hp pdata o) ⨟ serUserData o.data

/-- The addresses the reading process gives: to the spaces, to the parameters of the objective space and of the features space,
and to the evaluations, in order. -/
structure Places where
  space : BitVec 64
  objectives : BitVec 64
  objParamAt : Nat → BitVec 64
  features : BitVec 64
  featParamAt : Nat → BitVec 64
  evalAt : Nat → EvalPlace

/-- What reading a tuner creates, with the user data of the parameters of the objective space and of the features space. -/
structure ReadTuner where
  handle : BitVec 64
  name : Bytes
  space : ReadSpace
  objectives : ObjSpaceObj × List Bytes
  features : Option (FeatSpaceObj × List Bytes)
  history : List EvalObj
  tuner : Tuner
  data : Bytes

/-- The features space in a features tuner, `src/features_tuner_deserialize.h:37-39`. -/
def deFeaturesOf (ops : FloatOps) (jen : Bytes → BitVec 32) (little withFeatures : Bool) (P : Places) (m : Handles) :
    Rd (Handles × Option (FeatSpaceObj × List Bytes)) :=
  if withFeatures then do
    let f ← deFeatSpace ops jen little P.featParamAt m P.features
    pure (f.1, some f.2)
  else pure (m, none)

/-- The loop on the history, `src/tuner_deserialize.h:66-69` and `src/features_tuner_deserialize.h:70-73`, from evaluation `i` on. -/
def deHistory (jen : Bytes → BitVec 32) (little withFeatures : Bool) (P : Places) :
    Nat → Nat → Handles → Rd (Handles × List EvalObj)
  | 0, _, m => pure (m, [])
  | n + 1, i, m => do
    let e ← deEval jen little withFeatures true (some m) (P.evalAt i)
    let r ← deHistory jen little withFeatures P n (i + 1) e.1
    pure (r.1, e.2 :: r.2)

/-- The object at a written address, `src/tuner_deserialize.h:75-81`.  Its type is not checked. -/
def findOptimum (m : Handles) (h : BitVec 64) : Out (BitVec 64) :=
  match m.get h with
  | some x => .ok x.addr
  | none => .err .invalidHandle

/-- The loop on the optima, `src/tuner_deserialize.h:74-82` and `src/features_tuner_deserialize.h:78-86`. -/
def findOptima (m : Handles) : List (BitVec 64) → Out (List (BitVec 64))
  | [] => .ok []
  | h :: hs => do
    let x ← findOptimum m h
    let xs ← findOptima m hs
    .ok (x :: xs)

/-- The answer to an unknown type of tuner, `src/tuner_deserialize.h:280-283` and `src/features_tuner_deserialize.h:300-303`. -/
def wrongTuner (withFeatures : Bool) : Err := if withFeatures then .unsupportedOperation else .invalidType

/-- What is read of a tuner after its type. -/
structure ReadRun where
  name : Bytes
  space : ReadSpace
  objectives : ObjSpaceObj × List Bytes
  features : Option (FeatSpaceObj × List Bytes)
  history : List EvalObj
  optima : List (BitVec 64)

/-- `_ccs_deserialize_bin_ccs_random_tuner_data`, `src/tuner_deserialize.h:17-84`, and `_ccs_deserialize_bin_ccs_random_features_tuner_data`,
`src/features_tuner_deserialize.h:19-89`, after the type.  Simplifications: the array of evaluations is assumed to be allocated, and
counts whose sum does not fit in 64 bits are called undefined. -/
def deRun (H : Host σ) (withFeatures : Bool) (P : Places) : Rd ReadRun := do
  let name ← deString
  let s ← deSpace H
  let os ← deObjSpace H.M.ops H.jen H.little P.objParamAt [(s.handle, ⟨configurationSpaceType, P.space, s.space.ctx⟩)] P.objectives
  let fs ← deFeaturesOf H.M.ops H.jen H.little withFeatures P os.1
  let nh ← deSize
  let no ← deSize
  if 2 ^ 64 ≤ nh + no then Rd.undef
  else do
    let es ← deHistory H.jen H.little withFeatures P nh 0 fs.1
    let hs ← deHandle.times no
    let optima ← Rd.lift (findOptima es.1 hs)
    pure ⟨name, s, os.2, fs.2, es.2, optima⟩

/-- `_ccs_tuner_deserialize`, `src/tuner_deserialize.h:102-148,237-325`, and `_ccs_features_tuner_deserialize`,
`src/features_tuner_deserialize.h:108-160,257-347`, for random tuners, with no outer handle map.  Simplifications: what a failed call
leaves behind is not represented; user defined tuners are in `Model/UserTuner`, and their type is refused here. -/
def deTuner (H : Host σ) (withFeatures : Bool) (P : Places) : Rd ReadTuner := do
  let o ← deObj
  Rd.lift (refute (o.1 ≠ tunerTypeOf withFeatures) .invalidType)
  let t ← deEnum
  Rd.lift (refute (t ≠ randomTuner) (wrongTuner withFeatures))
  let r ← deRun H withFeatures P
  let data ← deUserData
  pure ⟨o.2, r.name, r.space, r.objectives, r.features, r.history, ⟨r.history.map (·.handle), r.optima⟩, data⟩

end CCS
