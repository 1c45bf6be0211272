import Verif.Model.Space
import Verif.Model.DistWire

/-!
# Serialization of random generators and of configuration spaces

Models the serialization part of `src/rng.c` and of `src/configuration_space.c`, `src/rng_deserialize.h` and
`src/configuration_space_deserialize.h`.
-/

namespace CCS

/-! ## Random generators -/

/-- `CCS_OBJECT_TYPE_RNG`, `include/cconfigspace/base.h:256`. -/
def rngType : BitVec 32 := 0#32

/-- A random generator object, `src/rng_internal.h`: the name of its GSL type, the bytes of its GSL state, and the bytes
of its user data. -/
structure RngObj where
  name : Bytes
  state : Bytes
  data : Bytes
  deriving DecidableEq, Repr

/-- `ccs_is_little_endian()` as a `ccs_bool_t`, `src/cconfigspace_internal.h`. -/
def littleCode (little : Bool) : BitVec 32 := if little then 1#32 else 0#32

/-- `_ccs_rng_serialize_size`, `src/rng.c:13-20,37-44,57-76`. -/
def szRng (little : Bool) (handle : BitVec 64) (r : RngObj) : Nat :=
  szObj rngType handle + (szString r.name + szBool (littleCode little) + szBlob r.state) + szUserData r.data

/-- `_ccs_rng_serialize`, `src/rng.c:22-35,46-55,78-99`. -/
def serRng (little : Bool) (handle : BitVec 64) (r : RngObj) : Wr :=
  serObj rngType handle ⨟ (serString r.name ⨟ serBool (littleCode little) ⨟ serBlob r.state) ⨟ serUserData r.data

/-- The loop of `src/rng_deserialize.h:36-39` and `ccs_create_rng_with_type`: `gens` lists the GSL generator types with
the state of a new generator of each. -/
def newGenerator (gens : List (Bytes × Bytes)) (name : Bytes) : Out Bytes :=
  match gens.find? (fun g => decide (g.1 = name)) with
  | some g => .ok g.2
  | none => .err .invalidValue

/-- The state after `src/rng_deserialize.h:44-46`: what was read when it has the size of the state and was written on a
machine of the same byte order, else that of a new generator. -/
def restoreState (little : Bool) (flag : BitVec 32) (blob fresh : Bytes) : Bytes :=
  if blob.length = fresh.length ∧ flag = littleCode little then blob else fresh

/-- `_ccs_deserialize_bin_rng` and `_ccs_rng_deserialize`, `src/rng_deserialize.h:8-87`: handle and generator.  The
insertion in the handle map (`:47-53`) is modelled with the containing objects. -/
def deRng (little : Bool) (gens : List (Bytes × Bytes)) : Rd (BitVec 64 × RngObj) := do
  let o ← deObj
  Rd.lift (refute (o.1 ≠ rngType) .invalidType)
  let name ← deString
  let flag ← deBool
  let blob ← deBlob
  let fresh ← Rd.lift (newGenerator gens name)
  let data ← deUserData
  pure (o.2, ⟨name, restoreState little flag blob fresh, data⟩)

/-! ## Writing a configuration space -/

/-- `CCS_OBJECT_TYPE_CONFIGURATION_SPACE`, `include/cconfigspace/base.h:260`. -/
def configurationSpaceType : BitVec 32 := 4#32

/-- The objects a configuration space refers to, by address: the user data of the parameters, the distributions, and the
addresses of the components of a distribution, down a path of component numbers. -/
structure Heap where
  data : BitVec 64 → Bytes
  dist : BitVec 64 → DistObj
  comp : BitVec 64 → List Nat → BitVec 64

/-- A configuration space object: `_ccs_configuration_space_data_s` (`src/configuration_space_internal.h:39-49`) with its
own address, the address of its generator and its user data. -/
structure SpaceObj where
  handle : BitVec 64
  name : Bytes
  rngHandle : BitVec 64
  rng : RngObj
  space : Space
  data : Bytes

/-- The addresses of a distribution and of its components. -/
def Heap.addr (hp : Heap) (h : BitVec 64) : List Nat → BitVec 64
  | [] => h
  | i :: p => hp.comp h (i :: p)

/-- The conditions with the positions of their parameters, from position `i` on, in order. -/
def conditionList : Nat → List PWrap → List (Nat × Expr)
  | _, [] => []
  | i, w :: ws =>
    match w.condition with
    | some e => (i, e) :: conditionList (i + 1) ws
    | none => conditionList (i + 1) ws

/-- Sum of sizes, stopping at the first failure. -/
def szAll {α : Type} (f : α → Out Nat) : List α → Out Nat
  | [] => .ok 0
  | x :: xs => do
    let a ← f x
    let b ← szAll f xs
    .ok (a + b)

/-- One turn of the loop on the conditions, `src/configuration_space.c:103-116`. -/
def szCondition (c : Nat × Expr) : Out Nat := do
  let e ← szExpr c.2
  .ok (szSize c.1 + e)

/-- One turn of the loop on the distributions, `src/configuration_space.c:120-129`. -/
def szDWrap (ops : FloatOps) (hp : Heap) (d : DWrap) : Nat :=
  DistObj.size ops (hp.addr d.dist.handle) (hp.dist d.dist.handle) + szSize d.indexes.length +
    (d.indexes.map szSize).sum

/-- `_ccs_configuration_space_serialize_size`, `src/configuration_space.c:58-135,223-236,255-275`. -/
def szSpace (ops : FloatOps) (little : Bool) (hp : Heap) (o : SpaceObj) : Out Nat := do
  let ps ← szAll (fun w : PWrap => szParam w.param w.handle (hp.data w.handle)) o.space.params
  let cs ← szAll szCondition (conditionList 0 o.space.params)
  let fs ← szAll szExpr o.space.clauses
  .ok (szObj configurationSpaceType o.handle + (szString o.name + szSize o.space.params.length +
    szSize (conditionList 0 o.space.params).length + szSize o.space.dists.length + szSize o.space.clauses.length +
    szRng little o.rngHandle o.rng + ps + cs + (o.space.dists.map (szDWrap ops hp)).sum + fs) + szUserData o.data)

/-- One turn of the loop on the conditions, `src/configuration_space.c:183-195`. -/
def serCondition (little : Bool) (c : Nat × Expr) : Wr := serSize c.1 ⨟ serExpr little c.2

/-- One turn of the loop on the distributions, `src/configuration_space.c:199-210`. -/
def serDWrap (ops : FloatOps) (little : Bool) (hp : Heap) (d : DWrap) : Wr :=
  DistObj.write ops little (hp.addr d.dist.handle) (hp.dist d.dist.handle) ⨟ serSize d.indexes.length ⨟
    Wr.all serSize d.indexes

/-- `_ccs_configuration_space_serialize`, `src/configuration_space.c:137-221,238-253,277-299`. -/
def serSpace (ops : FloatOps) (little : Bool) (hp : Heap) (o : SpaceObj) : Wr :=
  serObj configurationSpaceType o.handle ⨟ (serString o.name ⨟ serSize o.space.params.length ⨟
    serSize (conditionList 0 o.space.params).length ⨟ serSize o.space.dists.length ⨟ serSize o.space.clauses.length ⨟
    serRng little o.rngHandle o.rng ⨟
    Wr.all (fun w : PWrap => serParam little w.param w.handle (hp.data w.handle)) o.space.params ⨟
    Wr.all (serCondition little) (conditionList 0 o.space.params) ⨟
    Wr.all (serDWrap ops little hp) o.space.dists ⨟
    Wr.all (serExpr little) o.space.clauses) ⨟ serUserData o.data

/-! ## Reading a configuration space -/

/-- The process that reads: its arithmetic and samplers, its hash function, its byte order, the GSL generator types it
knows, the creation of default distributions, the addresses it gives to the parameters and to the distributions it
creates, in order, and what a distribution does once created at an address. -/
structure Host (σ : Type) where
  M : Machine σ
  jen : Bytes → BitVec 32
  little : Bool
  gens : List (Bytes × Bytes)
  defaultDist : Nat → Param → Out Dist
  paramAt : Nat → BitVec 64
  distAt : Nat → BitVec 64
  view : BitVec 64 → DistObj → Dist

/-- What reading creates: the space object (its own address is the one read), and the user data of the parameters and the
contents of the distributions, in order. -/
structure ReadSpace where
  handle : BitVec 64
  name : Bytes
  rng : RngObj
  space : Space
  paramData : List Bytes
  dists : List DistObj
  data : Bytes

/-- `_ccs_object_handle_check_add`, `src/cconfigspace_internal.h:1053-1066`, on the object that follows in the input, the
handles in the map being `seen`.  An object with a handle that is already there is released by
`src/parameter_deserialize.h:196-207`, `src/expression_deserialize.h:210-221` or `src/distribution_deserialize.h:364-375`
and released again by `src/configuration_space_deserialize.h:199-218`, which is undefined behaviour.  Simplification: the
test is made before the object is read, so that the model also calls undefined the case where the object is refused for
another reason. -/
def claim (seen : List (BitVec 64)) : Rd (List (BitVec 64)) := do
  let o ← Rd.peek deObj
  if seen.contains o.2 then Rd.undef else pure (o.2 :: seen)

/-- The loop on the parameters, `src/configuration_space_deserialize.h:78-81`: the handles known, and the handle, the
parameter and the user data of each. -/
def deParams (ops : FloatOps) (jen : Bytes → BitVec 32) (little : Bool) :
    Nat → List (BitVec 64) → Rd (List (BitVec 64) × List (BitVec 64 × Param × Bytes))
  | 0, seen => pure (seen, [])
  | n + 1, seen => do
    let seen ← claim seen
    let p ← deParam ops jen little
    let r ← deParams ops jen little n seen
    pure (r.1, p :: r.2)

/-- What `ccs_map_get` gives for a handle among the parameters read, from position `i` on. -/
def findParameter (paramAt : Nat → BitVec 64) : Nat → List (BitVec 64 × Param × Bytes) → BitVec 64 → Option Target
  | _, [], _ => none
  | i, x :: xs, h => if x.1 = h then some (.param (paramAt i) x.2.1) else findParameter paramAt (i + 1) xs h

/-- The handle map: parameters, and other objects. -/
def spaceMap (paramAt : Nat → BitVec 64) (ps : List (BitVec 64 × Param × Bytes)) (seen : List (BitVec 64)) : HandleMap :=
  some fun h =>
    match findParameter paramAt 0 ps h with
    | some t => some t
    | none => if seen.contains h then some .other else none

/-- The loop on the conditions, `src/configuration_space_deserialize.h:83-89`. -/
def deConditions (little : Bool) (map : List (BitVec 64) → HandleMap) :
    Nat → List (BitVec 64) → Rd (List (BitVec 64) × List (Nat × Expr))
  | 0, seen => pure (seen, [])
  | n + 1, seen => do
    let index ← deSize
    let seen' ← claim seen
    let e ← deExpr little (map seen)
    let r ← deConditions little map n seen'
    pure (r.1, (index, e) :: r.2)

/-- The loop on the indexes of a distribution, `src/configuration_space_deserialize.h:99-103`, where `room` entries are left
in the array: writing past its end is undefined. -/
def deIndexes : Nat → Nat → Rd (List Nat)
  | 0, _ => pure []
  | n + 1, room => do
    let i ← deSize
    if room = 0 then Rd.undef
    else do
      let is ← deIndexes n (room - 1)
      pure (i :: is)

/-- The loop on the distributions, `src/configuration_space_deserialize.h:91-104`: the distributions with their indexes. -/
def deDists (M : Machine σ) (little : Bool) :
    Nat → Nat → List (BitVec 64) → Rd (List (BitVec 64) × List (DistObj × List Nat))
  | 0, _, seen => pure (seen, [])
  | n + 1, room, seen => do
    let seen ← claim seen
    let d ← DistObj.read M little
    let dim ← deSize
    let is ← deIndexes dim room
    let r ← deDists M little n (room - dim) seen
    pure (r.1, (d, is) :: r.2)

/-- The loop on the clauses, `src/configuration_space_deserialize.h:106-111`. -/
def deClauses (little : Bool) (map : List (BitVec 64) → HandleMap) : Nat → List (BitVec 64) → Rd (List Expr)
  | 0, _ => pure []
  | n + 1, seen => do
    let seen' ← claim seen
    let e ← deExpr little (map seen)
    let es ← deClauses little map n seen'
    pure (e :: es)

/-- The space after a call, when it succeeds. -/
def afterCall (r : Space × Out Unit) : Out Space :=
  match r.2 with
  | .ok _ => .ok r.1
  | .err e => .err e
  | .ub => .ub

/-- `ccs_configuration_space_add_parameters` with no distributions, `src/configuration_space.c:715-732`, on the parameters
read, from position `i` on. -/
def addAll (H : Host σ) : Nat → Space → List Param → Out Space
  | _, s, [] => .ok s
  | i, s, p :: ps => do
    let s' ← afterCall (addParameter (fun _ => p) H.defaultDist s (H.paramAt i) none)
    addAll H (i + 1) s' ps

/-- The loop `src/configuration_space_deserialize.h:160-167`. -/
def setConditions : Space → List (Nat × Expr) → Out Space
  | s, [] => .ok s
  | s, c :: cs => do
    let s' ← afterCall (setCondition s c.1 c.2)
    setConditions s' cs

/-- The loop `src/configuration_space_deserialize.h:168-178`, from distribution `k` on; `indices` is what is left of the
array of indexes. -/
def setDistributions (H : Host σ) : Nat → Space → List Nat → List (DistObj × Nat) → Out Space
  | _, s, _, [] => .ok s
  | k, s, indices, d :: ds => do
    let s' ← afterCall (setDistribution H.defaultDist s (H.view (H.distAt k) d.1) indices)
    setDistributions H (k + 1) s' (indices.drop d.2) ds

/-- `ccs_configuration_space_add_forbidden_clauses`, `src/configuration_space.c:1427-1439`. -/
def addClauses (ops : FloatOps) (jen : Bytes → BitVec 32) (little : Bool) : Space → List Expr → Out Space
  | s, [] => .ok s
  | s, e :: es => do
    let s' ← afterCall (addClause ops jen little s e)
    addClauses ops jen little s' es

/-- `_ccs_deserialize_bin_configuration_space` and `_ccs_configuration_space_deserialize`,
`src/configuration_space_deserialize.h:26-248`, with no outer handle map.  The array of indexes has an entry for each
parameter, 0 when it is not read.  Simplifications: the block of memory that holds the arrays is assumed to be allocated,
and counts for which its size, computed modulo `2^64`, is too small are called undefined; what a failed call leaves behind is
not represented. -/
def deSpace (H : Host σ) : Rd ReadSpace := do
  let o ← deObj
  Rd.lift (refute (o.1 ≠ configurationSpaceType) .invalidType)
  let name ← deString
  let np ← deSize
  let nc ← deSize
  let nd ← deSize
  let nf ← deSize
  let rng ← deRng H.little H.gens
  if 2 ^ 64 ≤ 16 * np + 16 * nc + 16 * nd + 8 * nf then Rd.undef
  else do
    let ps ← deParams H.M.ops H.jen H.little np [rng.1]
    let map := spaceMap H.paramAt ps.2
    let cs ← deConditions H.little map nc ps.1
    let ds ← deDists H.M H.little nd np cs.1
    let fs ← deClauses H.little map nf ds.1
    let s₁ ← Rd.lift (addAll H 0 Space.empty (ps.2.map (·.2.1)))
    let s₂ ← Rd.lift (setConditions s₁ cs.2)
    let indices := ds.2.flatMap (·.2)
    let s₃ ← Rd.lift (setDistributions H 0 s₂ (indices ++ List.replicate (np - indices.length) 0)
      (ds.2.map fun d => (d.1, d.2.length)))
    let s₄ ← Rd.lift (addClauses H.M.ops H.jen H.little s₃ fs)
    let data ← deUserData
    pure ⟨o.2, name, rng.2, s₄, ps.2.map (·.2.2), ds.2.map (·.1), data⟩

end CCS
