import Verif.Model.Fd
import Verif.Model.Map
import Verif.Model.UserTuner

/-!
# The serialization entry points

Models `src/cconfigspace.c:219-386` (options, sizes, memory and files), `:468-514` (`ccs_object_serialize`), `:537-803` (options,
choice of the reader, memory and files), `:949-985` (`ccs_object_deserialize`) and the user data callbacks of
`src/cconfigspace_internal.h:1080-1197`, in the binary format.  Descriptors are in `Verif.Model.Fd`.
-/

namespace CCS

/-! ## User data callbacks -/

/-- A `ccs_object_serialize_callback_t` for a given object: its answer when asked for a size, and what it writes in a buffer of a
given size. Simplification: the answers do not change from one call to the next. -/
structure SaveCallback where
  size : Out Nat
  fill : Nat → Out Bytes

/-- What an object knows of its user data, `src/cconfigspace_internal.h:236-246`: whether there is some, and its callback. -/
structure Attached where
  present : Bool
  callback : Option SaveCallback

/-- The choice made at `src/cconfigspace_internal.h:1091-1100`: the callback of the object, or else the one of the options, and none
without user data. -/
def Attached.chosen (a : Attached) (opt : Option SaveCallback) : Option SaveCallback :=
  if a.present then
    match a.callback with
    | some cb => some cb
    | none => opt
  else none

/-- The size asked at `src/cconfigspace_internal.h:1090-1100` and `:1126-1136`. -/
def dataSize (cb : Option SaveCallback) : Out Nat :=
  match cb with
  | none => .ok 0
  | some cb => cb.size

/-- `_ccs_object_serialize_user_data_size`, `src/cconfigspace_internal.h:1080-1112`: what is added to `*buffer_size`. -/
def szAttached (a : Attached) (opt : Option SaveCallback) : Out Nat := do
  let n ← dataSize (a.chosen opt)
  .ok (szSize n + n)

/-- The bytes that a callback leaves in `n` bytes of the buffer: what it does not write stays as it is (zero here), and writing more is
undefined behaviour. -/
def filled (n : Nat) (cb : Option SaveCallback) : Out Bytes :=
  match cb with
  | none => .ok []
  | some cb => do
    let bs ← cb.fill n
    if n < bs.length then .ub else .ok (bs ++ List.replicate (n - bs.length) 0#8)

/-- `_ccs_object_serialize_user_data`, `src/cconfigspace_internal.h:1114-1164`. -/
def serAttached (a : Attached) (opt : Option SaveCallback) : Wr := fun b => do
  let n ← dataSize (a.chosen opt)
  let b₁ ← serSize n b
  if a.present then do
    refute (b₁.left < n) .notEnoughData
    let bs ← filled n (a.chosen opt)
    .ok ⟨b₁.data ++ bs, b₁.left - n⟩
  else .ok b₁

/-- `_ccs_object_deserialize_user_data`, `src/cconfigspace_internal.h:1166-1197`, with a callback that answers `cb`: the calls made to it.
The size is not compared to the space left. -/
def deAttached (cb : Option (Bytes → Out Unit)) : Rd (List Bytes) := do
  let n ← deSize
  if n = 0 then pure []
  else do
    let bs ← deUnchecked n
    match cb with
    | none => pure []
    | some f => do
      Rd.lift (f bs)
      pure [bs]

/-! ## Options -/

/-- `ccs_serialize_operation_t`, `include/cconfigspace/base.h:890-908`. -/
inductive Operation
  | size | memory | file | descriptor
  deriving DecidableEq, Repr

/-- One option of `ccs_object_serialize` with its arguments; pointers are `none` when NULL. -/
inductive SerOption
  | nonBlocking (state : Option Nat)
  | callback (cb : Option SaveCallback)
  | other

/-- `_ccs_object_serialize_options_t`, `src/cconfigspace_internal.h:205-210`. -/
structure SerOpts where
  state : Option Nat := none
  callback : Option SaveCallback := none

/-- One turn of the loop of `_ccs_object_serialize_options`, `src/cconfigspace.c:229-253`. -/
def SerOption.apply (op : Operation) (o : SerOption) (opts : SerOpts) : Out SerOpts :=
  match o with
  | .nonBlocking p => do
    refute (op ≠ .descriptor) .invalidValue
    refute p.isNone .invalidValue
    .ok { opts with state := p }
  | .callback cb => do
    refute cb.isNone .invalidValue
    .ok { opts with callback := cb }
  | .other => .err .invalidValue

/-- `_ccs_object_serialize_options`, `src/cconfigspace.c:219-256`. -/
def serOptions (op : Operation) : List SerOption → SerOpts → Out SerOpts
  | [], opts => .ok opts
  | o :: os, opts => do
    let opts' ← o.apply op opts
    serOptions op os opts'

/-- One option of `ccs_object_deserialize`; an object given as handle map is `some true` when it is a map. -/
inductive DeOption (V : Type)
  | handleMap (m : Option (Bool × Handles))
  | vector (v : Option V)
  | data (p : BitVec 64)
  | nonBlocking (state : Option Nat)
  | callback (cb : Option (Bytes → Out Unit))
  | other

/-- `_ccs_object_deserialize_options_t`, `src/cconfigspace_internal.h:1068-1078`. -/
structure DeOpts (V : Type) where
  map : Option Handles := none
  vector : Option V := none
  data : BitVec 64 := 0#64
  state : Option Nat := none
  callback : Option (Bytes → Out Unit) := none

/-- One turn of the loop of `_ccs_object_deserialize_options`, `src/cconfigspace.c:547-583`. -/
def DeOption.apply {V : Type} (op : Operation) (o : DeOption V) (opts : DeOpts V) : Out (DeOpts V) :=
  match o with
  | .handleMap none => .err .invalidObject
  | .handleMap (some (isMap, m)) => if isMap then .ok { opts with map := some m } else .err .invalidObject
  | .vector v => do
    refute v.isNone .invalidValue
    .ok { opts with vector := v }
  | .data p => .ok { opts with data := p }
  | .nonBlocking p => do
    refute (op ≠ .descriptor) .invalidValue
    refute p.isNone .invalidValue
    .ok { opts with state := p }
  | .callback cb => do
    refute cb.isNone .invalidValue
    .ok { opts with callback := cb }
  | .other => .err .invalidValue

/-- `_ccs_object_deserialize_options`, `src/cconfigspace.c:537-586`. -/
def deOptions {V : Type} (op : Operation) : List (DeOption V) → DeOpts V → Out (DeOpts V)
  | [], opts => .ok opts
  | o :: os, opts => do
    let opts' ← o.apply op opts
    deOptions op os opts'

/-! ## Writing -/

/-- What the entry points use of an object: whether its kind can be serialized (`ops->serialize`), the size its kind announces after the header
(`ops->serialize_size`) and its bytes, both under options. -/
structure Sendable where
  supported : Bool
  size : SerOpts → Out Nat
  write : SerOpts → Wr

/-- The checks at the top of `ccs_object_serialize`, `src/cconfigspace.c:480-482`; `none` is NULL. -/
def sendable (obj : Option Sendable) : Out Sendable :=
  match obj with
  | none => .err .invalidObject
  | some o => if o.supported then .ok o else .err .unsupportedOperation

/-- `_ccs_object_serialize_size_with_opts`, `src/cconfigspace.c:258-270`. -/
def Sendable.total (o : Sendable) (opts : SerOpts) : Out Nat := do
  let n ← o.size opts
  .ok (szHeader + n)

/-- `CCS_SERIALIZE_OPERATION_SIZE`, `src/cconfigspace.c:272-286` and `:486-489`: what is stored in `*p_buffer_size`. `place` says that the
pointer is not NULL. -/
def sendSize (obj : Option Sendable) (place : Bool) (options : List SerOption) : Out Nat := do
  let o ← sendable obj
  let opts ← serOptions .size options {}
  refute (!place) .invalidValue
  o.total opts

/-- `CCS_SERIALIZE_OPERATION_MEMORY`, `src/cconfigspace.c:306-323` and `:490-493`: what is stored in the buffer. -/
def sendMemory (little : Bool) (obj : Option Sendable) (place : Bool) (cap : Nat) (options : List SerOption) : Out Bytes := do
  let o ← sendable obj
  refute (!place) .invalidValue
  let opts ← serOptions .memory options {}
  serMemory little (o.write opts) cap

/-- `errno` after `mmap` has failed. -/
inductive MapFault
  | noMemory | access | otherFault
  deriving DecidableEq, Repr

/-- The result code for it, `src/cconfigspace.c:352-368` and `:768-784`. -/
def MapFault.code : MapFault → Err
  | .noMemory => .outOfMemory
  | .access => .invalidFilePath
  | .otherFault => .system

/-- What the system answers to the calls made on one file. -/
structure System where
  opens : Bool := true
  stats : Bool := true
  mapping : Option MapFault := none
  truncates : Bool := true
  syncs : Bool := true
  deriving DecidableEq, Repr

/-- The outcome of a file operation: the result and the files afterwards. -/
structure FileResult (α : Type) where
  result : Out α
  files : Nat → Option Bytes

/-- The files after the one at `path` has got a new content. -/
def fileSet (files : Nat → Option Bytes) (path : Nat) (bs : Bytes) : Nat → Option Bytes :=
  fun p => if p = path then some bs else files p

/-- From the `open` of `src/cconfigspace.c:340` on: the file is emptied, extended to the announced size, and filled.  `scrap` is what an
unsuccessful serialization leaves in the mapping. -/
def storeFile (little : Bool) (sys : System) (scrap : Bytes) (o : Sendable) (opts : SerOpts) (path : Nat) (files : Nat → Option Bytes) :
    FileResult Unit :=
  if !sys.opens then ⟨.err .invalidFilePath, files⟩
  else
    let emptied := fileSet files path []
    match o.total opts with
    | .err e => ⟨.err e, emptied⟩
    | .ub => ⟨.ub, emptied⟩
    | .ok n =>
      match sys.mapping with
      | some fault => ⟨.err fault.code, emptied⟩
      | none =>
        if !sys.truncates then ⟨.err .system, emptied⟩
        else
          match serMemory little (o.write opts) n with
          | .err e => ⟨.err e, fileSet files path scrap⟩
          | .ub => ⟨.ub, fileSet files path scrap⟩
          | .ok bs =>
            let stored := fileSet files path (bs ++ List.replicate (n - bs.length) 0#8)
            if !sys.syncs then ⟨.err .system, stored⟩ else ⟨.ok (), stored⟩

/-- `CCS_SERIALIZE_OPERATION_FILE`, `src/cconfigspace.c:325-386` and `:494-497`. -/
def sendFile (little : Bool) (sys : System) (scrap : Bytes) (obj : Option Sendable) (path : Option Nat) (options : List SerOption)
    (files : Nat → Option Bytes) : FileResult Unit :=
  match sendable obj with
  | .err e => ⟨.err e, files⟩
  | .ub => ⟨.ub, files⟩
  | .ok o =>
    match path with
    | none => ⟨.err .invalidValue, files⟩
    | some path =>
      match serOptions .file options {} with
      | .err e => ⟨.err e, files⟩
      | .ub => ⟨.ub, files⟩
      | .ok opts => storeFile little sys scrap o opts path files

/-- `CCS_SERIALIZE_OPERATION_FILE_DESCRIPTOR` without the non-blocking option, `src/cconfigspace.c:388-466` and `:498-503`; the options
come first. -/
def sendDescriptor (little : Bool) (obj : Option Sendable) (options : List SerOption) (sched : List WriteRes) : Out (Bytes × WStop) := do
  let o ← sendable obj
  let opts ← serOptions .descriptor options {}
  let n ← o.size opts
  fdWrite little (o.write opts) n sched

/-! ## Reading -/

/-- `CCS_SERIALIZE_OPERATION_MEMORY`, `src/cconfigspace.c:711-748` and `:962-966`: `rd opts` reads an object under options, `memory` is
NULL or the bytes given. -/
def takeMemory {V α : Type} (little : Bool) (rd : DeOpts V → Rd α) (place : Bool) (memory : Option Bytes) (options : List (DeOption V)) :
    Out α := do
  refute (!place) .invalidValue
  match memory with
  | none => .err .invalidValue
  | some bs => do
    let opts ← deOptions .memory options {}
    let r ← deMemory little (rd opts) bs
    .ok r.1

/-- `CCS_SERIALIZE_OPERATION_FILE`, `src/cconfigspace.c:750-803` and `:967-971`.  Mapping an empty file is refused by the system with `EINVAL`. -/
def takeFile {V α : Type} (little : Bool) (sys : System) (rd : DeOpts V → Rd α) (place : Bool) (path : Option Nat)
    (options : List (DeOption V)) (files : Nat → Option Bytes) : Out α := do
  refute (!place) .invalidValue
  match path with
  | none => .err .invalidValue
  | some path =>
    match files path with
    | none => .err .invalidFilePath
    | some bs =>
      if !sys.opens then .err .invalidFilePath
      else if !sys.stats then .err .system
      else
        match sys.mapping with
        | some fault => .err fault.code
        | none =>
          if bs = [] then .err .system
          else do
            let opts ← deOptions .file options {}
            let r ← deMemory little (rd opts) bs
            .ok r.1

/-- `CCS_SERIALIZE_OPERATION_FILE_DESCRIPTOR` without the non-blocking option, `src/cconfigspace.c:839-947` and `:972-977`; the options come
first. -/
def takeDescriptor {V α : Type} (little : Bool) (rd : DeOpts V → Rd α) (place : Bool) (options : List (DeOption V)) (input : Bytes)
    (sched : List ReadRes) : FdRead α :=
  if !place then ⟨[], some (.err .invalidValue), sched⟩
  else
    match deOptions .descriptor options {} with
    | .err e => ⟨[], some (.err e), sched⟩
    | .ub => ⟨[], some .ub, sched⟩
    | .ok opts => fdRead little (rd opts) input sched

/-! ## The choice of the reader -/

/-- The kinds of objects that can be read, in the order of `src/cconfigspace.c:601-695`. -/
inductive Kind
  | rng | distribution | parameter | expression | featuresSpace | configurationSpace | objectiveSpace | configuration | evaluation
  | features | featuresEvaluation | tuner | featuresTuner | map | tree | treeSpace | treeConfiguration | treeEvaluation | treeTuner
  deriving DecidableEq, Repr

/-- `CCS_OBJECT_TYPE_…` of a kind, `include/cconfigspace/base.h:253-298`. -/
def Kind.code : Kind → BitVec 32
  | .rng => rngType
  | .distribution => distributionType
  | .parameter => parameterType
  | .expression => expressionType
  | .featuresSpace => featuresSpaceType
  | .configurationSpace => configurationSpaceType
  | .objectiveSpace => objectiveSpaceType
  | .configuration => configurationType
  | .evaluation => evalType false
  | .features => featuresType
  | .featuresEvaluation => evalType true
  | .tuner => tunerTypeOf false
  | .featuresTuner => tunerTypeOf true
  | .map => mapType
  | .tree => treeType
  | .treeSpace => treeSpaceType
  | .treeConfiguration => treeConfigurationType
  | .treeEvaluation => treeEvaluationType
  | .treeTuner => treeTunerType

/-- The `switch` on the type, `src/cconfigspace.c:600-699`. -/
def Kind.ofCode (t : BitVec 32) : Option Kind :=
  match t.toNat with
  | 0 => some .rng
  | 1 => some .distribution
  | 2 => some .parameter
  | 3 => some .expression
  | 4 => some .configurationSpace
  | 5 => some .configuration
  | 6 => some .objectiveSpace
  | 7 => some .evaluation
  | 8 => some .tuner
  | 9 => some .featuresSpace
  | 10 => some .features
  | 11 => some .featuresEvaluation
  | 12 => some .featuresTuner
  | 13 => some .map
  | 15 => some .tree
  | 16 => some .treeSpace
  | 17 => some .treeConfiguration
  | 18 => some .treeEvaluation
  | 19 => some .treeTuner
  | _ => none

/-- What is read of a tuner: a random one, or a user defined one with the state of the user after its callback. -/
inductive TunerRead (τ R : Type)
  | random (r : R)
  | userDefined (s : τ) (t : UserTuner τ) (r : R)

/-- An object just read. -/
inductive AnyObj (τ : Type)
  | rng (handle : BitVec 64) (r : RngObj)
  | distribution (d : DistObj)
  | parameter (handle : BitVec 64) (p : Param) (data : Bytes)
  | expression (e : Expr)
  | featuresSpace (m : Handles) (s : FeatSpaceObj) (paramData : List Bytes)
  | configurationSpace (s : ReadSpace)
  | objectiveSpace (m : Handles) (s : ObjSpaceObj) (paramData : List Bytes)
  | configuration (m : Handles) (c : BindObj)
  | evaluation (m : Handles) (e : EvalObj)
  | features (m : Handles) (f : BindObj)
  | featuresEvaluation (m : Handles) (e : EvalObj)
  | tuner (t : TunerRead τ ReadTuner)
  | featuresTuner (t : TunerRead τ ReadTuner)
  | map (m : MapState) (handle : BitVec 64) (data : Bytes)
  | tree (g : Grove) (root : Nat)
  | treeSpace (m : Handles) (g : Grove) (s : ReadTreeSpace)
  | treeConfiguration (m : Handles) (c : TreeConfObj)
  | treeEvaluation (m : Handles) (e : TreeEvalObj)
  | treeTuner (t : TunerRead τ ReadTreeTuner)

/-- The kind of an object, as `ccs_object_get_type` tells it, `src/cconfigspace.c:73-81`. -/
def AnyObj.kind {τ : Type} : AnyObj τ → Kind
  | .rng .. => .rng
  | .distribution .. => .distribution
  | .parameter .. => .parameter
  | .expression .. => .expression
  | .featuresSpace .. => .featuresSpace
  | .configurationSpace .. => .configurationSpace
  | .objectiveSpace .. => .objectiveSpace
  | .configuration .. => .configuration
  | .evaluation .. => .evaluation
  | .features .. => .features
  | .featuresEvaluation .. => .featuresEvaluation
  | .tuner .. => .tuner
  | .featuresTuner .. => .featuresTuner
  | .map .. => .map
  | .tree .. => .tree
  | .treeSpace .. => .treeSpace
  | .treeConfiguration .. => .treeConfiguration
  | .treeEvaluation .. => .treeEvaluation
  | .treeTuner .. => .treeTuner

/-- Everything the readers use besides the bytes: the two hosts, where objects are created, the handle map as each kind uses it, and the
vector, data and state of user defined tuners. -/
structure Desk (σ τ : Type) where
  H : Host σ
  T : TreeHost
  P : Places
  handles : Option Handles
  targets : HandleMap
  refs : Refs
  addr : BitVec 64
  place : EvalPlace
  vector : Option (UserVector τ)
  pointer : BitVec 64
  state : τ

/-- The type of a tuner in a message, after the object header, as `_ccs_tuner_deserialize` peeks at it (`src/tuner_deserialize.h:255-256`,
`src/features_tuner_deserialize.h:275-277`, `src/tree_tuner_deserialize.h:255-257`). -/
def peekTuner : Rd (BitVec 32) := Rd.peek do
  let _ ← deObj
  deEnum

/-- `_ccs_tuner_deserialize` and `_ccs_features_tuner_deserialize`, the choice between the two types of tuners
(`src/tuner_deserialize.h:257-284`, `src/features_tuner_deserialize.h:278-305`).  Simplification: the choice is made before the object header is
read, the header being read again by both readers. -/
def deAnyTuner {σ τ : Type} (D : Desk σ τ) (withFeatures : Bool) : Rd (TunerRead τ ReadTuner) := do
  let t ← peekTuner
  if t = userDefinedTuner then do
    let r ← deUserTuner D.H withFeatures D.P D.vector D.pointer D.state
    pure (.userDefined r.1 r.2.1 r.2.2)
  else do
    let r ← deTuner D.H withFeatures D.P
    pure (.random r)

/-- `_ccs_tree_tuner_deserialize`, `src/tree_tuner_deserialize.h:258-285`, likewise. -/
def deAnyTreeTuner {σ τ : Type} (D : Desk σ τ) : Rd (TunerRead τ ReadTreeTuner) := do
  let t ← peekTuner
  if t = userDefinedTuner then do
    let r ← deUserTreeTuner D.T D.P D.vector D.pointer D.state
    pure (.userDefined r.1 r.2.1 r.2.2)
  else do
    let r ← deTreeTuner D.T D.P
    pure (.random r)

/-- The reader of a kind: the call made in each case of `src/cconfigspace.c:601-695`. -/
def Kind.reader {σ τ : Type} (D : Desk σ τ) : Kind → Rd (AnyObj τ)
  | .rng => do
    let r ← deRng D.H.little D.H.gens
    pure (.rng r.1 r.2)
  | .distribution => do
    let d ← DistObj.read D.H.M D.H.little
    pure (.distribution d)
  | .parameter => do
    let p ← deParam D.H.M.ops D.H.jen D.H.little
    pure (.parameter p.1 p.2.1 p.2.2)
  | .expression => do
    let e ← deExpr D.H.little D.targets
    pure (.expression e)
  | .featuresSpace => do
    let s ← deFeatSpace D.H.M.ops D.H.jen D.H.little D.P.featParamAt (D.handles.getD []) D.addr
    pure (.featuresSpace s.1 s.2.1 s.2.2)
  | .configurationSpace => do
    let s ← deSpace D.H
    pure (.configurationSpace s)
  | .objectiveSpace => do
    let s ← deObjSpace D.H.M.ops D.H.jen D.H.little D.P.objParamAt (D.handles.getD []) D.addr
    pure (.objectiveSpace s.1 s.2.1 s.2.2)
  | .configuration => do
    let c ← deBound D.H.jen D.H.little configurationType configurationSpaceType true D.handles D.addr
    pure (.configuration c.1 c.2)
  | .evaluation => do
    let e ← deEval D.H.jen D.H.little false true D.handles D.place
    pure (.evaluation e.1 e.2)
  | .features => do
    let c ← deBound D.H.jen D.H.little featuresType featuresSpaceType true D.handles D.addr
    pure (.features c.1 c.2)
  | .featuresEvaluation => do
    let e ← deEval D.H.jen D.H.little true true D.handles D.place
    pure (.featuresEvaluation e.1 e.2)
  | .tuner => do
    let t ← deAnyTuner D false
    pure (.tuner t)
  | .featuresTuner => do
    let t ← deAnyTuner D true
    pure (.featuresTuner t)
  | .map => do
    let m ← deMap D.H.jen D.H.little D.refs
    pure (.map m.1 m.2.1 m.2.2)
  | .tree => do
    let t ← Forest.deTree D.T.ops D.T.little D.T.room
    pure (.tree t.1 t.2)
  | .treeSpace => do
    let s ← deTreeSpace D.T.ops D.T.little D.T.gens D.T.fresh D.T.vector D.T.room (D.handles.getD []) D.addr
    pure (.treeSpace s.1 s.2.1 s.2.2)
  | .treeConfiguration => do
    let c ← deTreeConf true D.handles D.addr
    pure (.treeConfiguration c.1 c.2)
  | .treeEvaluation => do
    let e ← deTreeEval D.H.jen D.H.little true D.handles D.place
    pure (.treeEvaluation e.1 e.2)
  | .treeTuner => do
    let t ← deAnyTreeTuner D
    pure (.treeTuner t)

/-! ## What a reader leaves in `*object_ret` -/

/-- What the pointer given by the caller designates after the call. -/
inductive Handout
  /-- No object: not written, or set to NULL. -/
  | empty
  /-- An object with one reference. -/
  | live
  /-- An object that has been released. -/
  | dangling
  deriving DecidableEq, Repr

/-- Whether the reader of a kind clears the pointer when the handle is already in the map.  It is not cleared, after the release, in
`src/distribution_deserialize.h:373-375`, `src/parameter_deserialize.h:205-207`, `src/expression_deserialize.h:219-221`,
`src/tuner_deserialize.h:293-297`, `src/features_tuner_deserialize.h:316-320`, `src/tree_space_deserialize.h:155-157` and
`src/tree_tuner_deserialize.h:296-300`; it is in `src/rng_deserialize.h:58-61`, `src/features_space_deserialize.h:48-50`,
`src/configuration_space_deserialize.h:196-198`, `src/objective_space_deserialize.h:114-116`, `src/evaluation_deserialize.h:87-89`,
`src/features_deserialize.h:57-59`, `src/features_evaluation_deserialize.h:94-96`, `src/map_deserialize.h:76-78` and
`src/tree_evaluation_deserialize.h:87-89`, and not yet written in `src/configuration_deserialize.h:56-60`,
`src/tree_configuration_deserialize.h:79-83` and `src/tree_deserialize.h:104-107`. -/
def Kind.clears : Kind → Bool
  | .distribution | .parameter | .expression | .tuner | .featuresTuner | .treeSpace | .treeTuner => false
  | _ => true

/-- The common shape of the 19 functions `_ccs_…_deserialize` (`src/rng_deserialize.h:12-87` for instance): `create` reads the object header and
the contents and makes the object, the handle is entered in the map given with the options if there is one, and the user data comes
last, its failure being returned as such.  Simplification: `handles` are the handles in the map of the caller. -/
def readHandout {α : Type} (k : Kind) (create : Rd (BitVec 64 × α)) (handles : Option (List (BitVec 64))) (cb : Option (Bytes → Out Unit))
    (bs : Bytes) : Out α × Handout :=
  match create bs with
  | .err e => (.err e, .empty)
  | .ub => (.ub, .empty)
  | .ok ((h, x), rest) =>
    if h ∈ handles.getD [] then (.err .duplicateHandle, if k.clears then .empty else .dangling)
    else
      match deAttached cb rest with
      | .err e => (.err e, .live)
      | .ub => (.ub, .live)
      | .ok _ => (.ok x, .live)

/-- `_ccs_object_deserialize_with_opts`, `src/cconfigspace.c:588-709`, binary format. -/
def deAny {σ τ : Type} (D : Desk σ τ) : Rd (AnyObj τ) := do
  let t ← Rd.peek deEnum
  match Kind.ofCode t with
  | some k => k.reader D
  | none => Rd.fail .unsupportedOperation

end CCS
