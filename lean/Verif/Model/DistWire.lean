import Verif.Model.Distribution
import Verif.Model.WireObj

/-!
# Serialization of distributions

Models `src/distribution_deserialize.h`, the serialization part of `src/distribution_uniform.c`, `src/distribution_normal.c`,
`src/distribution_roulette.c`, `src/distribution_mixture.c` and `src/distribution_multivariate.c`, and the functions that
report what a distribution was created with.
-/

namespace CCS

/-- `CCS_OBJECT_TYPE_DISTRIBUTION`, `include/cconfigspace/base.h:257`. -/
def distributionType : BitVec 32 := 1#32

/-- `_ccs_distribution_mixture_data_t`, `src/distribution_mixture.c:8-15`, without the components. -/
structure MixtureData where
  dim : Nat
  types : List NumType
  bounds : List Interval
  weights : List F64
  deriving DecidableEq

/-- A distribution object: what its memory holds, its components, and its user data (the bytes the user data callbacks
deal with, empty when there are none).  What `_ccs_distribution_multivariate_data_t` holds besides its components is computed
from them. -/
inductive DistObj
  | uniform (u : Uniform) (data : Bytes)
  | normal (d : Normal) (data : Bytes)
  | roulette (r : Roulette) (data : Bytes)
  | mixture (m : MixtureData) (ds : List DistObj) (data : Bytes)
  | multivariate (ds : List DistObj) (data : Bytes)

namespace DistObj

/-- `ccs_object_set_user_data`, on the bytes. -/
def withData (data : Bytes) : DistObj → DistObj
  | uniform u _ => uniform u data
  | normal d _ => normal d data
  | roulette r _ => roulette r data
  | mixture m ds _ => mixture m ds data
  | multivariate ds _ => multivariate ds data

variable {σ : Type}

mutual

/-- The operations of a distribution (`_ccs_distribution_ops_s`) on its data. -/
def sampler (M : Machine σ) : DistObj → Sampler σ
  | uniform u _ => ⟨1, [u.type], [u.bounds], u.samples M, u.strided M, soaOne (u.samples M)⟩
  | normal d _ => ⟨1, [d.type], [d.bounds], d.samples M, d.strided M, soaOne (d.samples M)⟩
  | roulette r _ => ⟨1, [.int], [r.bounds], r.fillSamples M, r.fillStrided M, soaOne (r.fillSamples M)⟩
  | mixture m ds _ => ⟨m.dim, m.types, m.bounds, Mixture.samples M m.dim (samplers M ds) m.weights,
      Mixture.strided M (samplers M ds) m.weights, Mixture.soa M m.dim (samplers M ds) m.weights⟩
  | multivariate ds _ => ⟨((samplers M ds).map (·.dim)).sum, (samplers M ds).flatMap (·.types),
      (samplers M ds).flatMap (·.bounds), Multivariate.samples ((samplers M ds).map (·.dim)).sum (samplers M ds),
      Multivariate.strided (samplers M ds), Multivariate.soa (samplers M ds)⟩

/-- The operations of each component. -/
def samplers (M : Machine σ) : List DistObj → List (Sampler σ)
  | [] => []
  | d :: ds => sampler M d :: samplers M ds

end

/-! ## Creation -/

/-- `ccs_create_uniform_distribution`, `src/distribution_uniform.c:376-463`: `createUniform`, keeping the data. -/
def newUniform (M : Machine σ) (type : NumType) (lower upper : BitVec 64) (log : Bool) (quantization : BitVec 64) :
    Out DistObj := do
  Uniform.check M type lower upper log quantization
  let u ← Uniform.fill M type lower upper log quantization
  .ok (.uniform u [])

/-- `ccs_create_normal_distribution`, `src/distribution_normal.c:531-587`: `createNormal`, keeping the data. -/
def newNormal (type : NumType) (mu sigma : F64) (log : Bool) (quantization : BitVec 64) : Out DistObj := do
  refute (type = .int ∧ quantization.toInt < 0) .invalidValue
  refute (type = .float ∧ F64.lt quantization F64.zero = true) .invalidValue
  let quantize := match type with
    | .float => !F64.feq quantization F64.zero
    | .int => decide (quantization ≠ 0#64)
  .ok (.normal ⟨type, mu, sigma, log, quantization, quantize⟩ [])

/-- `ccs_create_roulette_distribution`, `src/distribution_roulette.c:233-277`. -/
def newRoulette (ops : FloatOps) (areas : List F64) : Out DistObj := do
  let r ← createRoulette ops areas
  .ok (.roulette r [])

/-- `ccs_create_mixture_distribution`, `src/distribution_mixture.c:182-336`: `createMixture`, keeping the data. -/
def newMixture (M : Machine σ) (ds : List DistObj) (weights : List F64) : Out DistObj := do
  let s ← createMixture M (samplers M ds) weights
  let ws := weights.take ds.length
  .ok (.mixture ⟨s.dim, s.types, s.bounds, Mixture.areas M (M.ops.div F64.one (M.ops.total ws)) ws⟩ ds [])

/-- `ccs_create_multivariate_distribution`, `src/distribution_multivariate.c:177-274`. -/
def newMultivariate (M : Machine σ) (ds : List DistObj) : Out DistObj := do
  let _ ← createMultivariate (samplers M ds)
  .ok (.multivariate ds [])

/-! ## What a distribution reports -/

/-- `bounds[i + 1] - bounds[i]` for each of `num` areas, `src/distribution_roulette.c:29-31,45-48,308-309`,
`src/distribution_mixture.c:39-40,60-62,507-508`.  All the bounds are there in the distributions the library creates. -/
def widths (ops : FloatOps) (num : Nat) (bounds : List F64) : List F64 :=
  (List.range num).map fun i => ops.sub (bounds.getD (i + 1) F64.zero) (bounds.getD i F64.zero)

/-- `ccs_mixture_distribution_get_weights`, `src/distribution_mixture.c:490-515`, into a buffer of `room` doubles. -/
def getWeights (ops : FloatOps) (room : Nat) : DistObj → Out (List F64)
  | mixture m ds _ => if room < ds.length then .err .invalidValue
      else .ok (widths ops ds.length m.weights ++ List.replicate (room - ds.length) F64.zero)
  | _ => .err .invalidDistribution

/-! ## Writing -/

/-- `ccs_numeric_type_t` of a value of one. -/
def typeCode (t : NumType) : BitVec 32 := t.code

/-- `ccs_scale_type_t`, `include/cconfigspace/distribution.h:44-53`. -/
def scaleCode (log : Bool) : BitVec 32 := if log then 1#32 else 0#32

/-- A numeric of the given type. -/
def szNumeric (t : NumType) (v : BitVec 64) : Nat := if t = .float then szU64Fixed v else szInt v

/-- A numeric of the given type. -/
def serNumeric (little : Bool) (t : NumType) (v : BitVec 64) : Wr :=
  if t = .float then serU64Fixed little v else serInt v

/-- `_ccs_serialize_bin_size_ccs_distribution_uniform_data`, `src/distribution_uniform.c:27-46`.  The type of the
distribution is `_ccs_distribution_common_data`, `src/distribution_internal.h:76-81`. -/
def szUniform (u : Uniform) : Nat :=
  szEnum 0#32 + szEnum u.type.code + szEnum (scaleCode u.log) + szNumeric u.type u.lower + szNumeric u.type u.upper +
    szNumeric u.type u.quantization

/-- `_ccs_serialize_bin_ccs_distribution_uniform_data`, `src/distribution_uniform.c:48-76`. -/
def serUniform (little : Bool) (u : Uniform) : Wr :=
  serEnum 0#32 ⨟ serEnum u.type.code ⨟ serEnum (scaleCode u.log) ⨟ serNumeric little u.type u.lower ⨟
    serNumeric little u.type u.upper ⨟ serNumeric little u.type u.quantization

/-- `_ccs_serialize_bin_size_ccs_distribution_normal_data`, `src/distribution_normal.c:24-39`. -/
def szNormal (d : Normal) : Nat :=
  szEnum 1#32 + szEnum d.type.code + szEnum (scaleCode d.log) + szU64Fixed d.mu + szU64Fixed d.sigma +
    szNumeric d.type d.quantization

/-- `_ccs_serialize_bin_ccs_distribution_normal_data`, `src/distribution_normal.c:41-65`. -/
def serNormal (little : Bool) (d : Normal) : Wr :=
  serEnum 1#32 ⨟ serEnum d.type.code ⨟ serEnum (scaleCode d.log) ⨟ serU64Fixed little d.mu ⨟ serU64Fixed little d.sigma ⨟
    serNumeric little d.type d.quantization

/-- `_ccs_serialize_bin_size_ccs_distribution_roulette_data`, `src/distribution_roulette.c:22-33`. -/
def szRoulette (ops : FloatOps) (r : Roulette) : Nat :=
  szEnum 2#32 + szSize r.numAreas + ((widths ops r.numAreas r.areas).map szU64Fixed).sum

/-- `_ccs_serialize_bin_ccs_distribution_roulette_data`, `src/distribution_roulette.c:35-50`. -/
def serRoulette (ops : FloatOps) (little : Bool) (r : Roulette) : Wr :=
  serEnum 2#32 ⨟ serSize r.numAreas ⨟ Wr.all (serU64Fixed little) (widths ops r.numAreas r.areas)

mutual

/-- `_ccs_distribution_uniform_serialize_size` (`src/distribution_uniform.c:78-86,103-123`),
`_ccs_distribution_normal_serialize_size` (`src/distribution_normal.c:67-75,92-112`),
`_ccs_distribution_roulette_serialize_size` (`src/distribution_roulette.c:52-61,78-98`),
`_ccs_distribution_mixture_serialize_size` (`src/distribution_mixture.c:29-46,70-83,101-121`) and
`_ccs_distribution_multivariate_serialize_size` (`src/distribution_multivariate.c:30-44,64-77,95-116`).  `addr` gives the
address of the object and, down a path of component numbers, of its components. -/
def size (ops : FloatOps) (addr : List Nat → BitVec 64) : DistObj → Nat
  | uniform u data => szObj distributionType (addr []) + szUniform u + szUserData data
  | normal d data => szObj distributionType (addr []) + szNormal d + szUserData data
  | roulette r data => szObj distributionType (addr []) + szRoulette ops r + szUserData data
  | mixture m ds data => szObj distributionType (addr []) + (szEnum 3#32 + szSize ds.length +
      sizeWeighted ops addr 0 ds (widths ops ds.length m.weights)) + szUserData data
  | multivariate ds data => szObj distributionType (addr []) + (szEnum 4#32 + szSize ds.length + sizeAll ops addr 0 ds) +
      szUserData data

/-- The loop `src/distribution_mixture.c:38-44`, from component `i` on. -/
def sizeWeighted (ops : FloatOps) (addr : List Nat → BitVec 64) (i : Nat) : List DistObj → List F64 → Nat
  | d :: ds, w :: ws => szU64Fixed w + size ops (fun p => addr (i :: p)) d + sizeWeighted ops addr (i + 1) ds ws
  | _, _ => 0

/-- The loop `src/distribution_multivariate.c:39-42`, from component `i` on. -/
def sizeAll (ops : FloatOps) (addr : List Nat → BitVec 64) (i : Nat) : List DistObj → Nat
  | [] => 0
  | d :: ds => size ops (fun p => addr (i :: p)) d + sizeAll ops addr (i + 1) ds

end

mutual

/-- `_ccs_distribution_uniform_serialize` (`src/distribution_uniform.c:88-101,125-146`),
`_ccs_distribution_normal_serialize` (`src/distribution_normal.c:77-90,114-135`),
`_ccs_distribution_roulette_serialize` (`src/distribution_roulette.c:63-76,100-121`),
`_ccs_distribution_mixture_serialize` (`src/distribution_mixture.c:48-68,85-99,123-144`) and
`_ccs_distribution_multivariate_serialize` (`src/distribution_multivariate.c:46-62,79-93,118-139`). -/
def write (ops : FloatOps) (little : Bool) (addr : List Nat → BitVec 64) : DistObj → Wr
  | uniform u data => serObj distributionType (addr []) ⨟ serUniform little u ⨟ serUserData data
  | normal d data => serObj distributionType (addr []) ⨟ serNormal little d ⨟ serUserData data
  | roulette r data => serObj distributionType (addr []) ⨟ serRoulette ops little r ⨟ serUserData data
  | mixture m ds data => serObj distributionType (addr []) ⨟ (serEnum 3#32 ⨟ serSize ds.length ⨟
      writeWeighted ops little addr 0 ds (widths ops ds.length m.weights)) ⨟ serUserData data
  | multivariate ds data => serObj distributionType (addr []) ⨟ (serEnum 4#32 ⨟ serSize ds.length ⨟
      writeAll ops little addr 0 ds) ⨟ serUserData data

/-- The loop `src/distribution_mixture.c:59-66`, from component `i` on. -/
def writeWeighted (ops : FloatOps) (little : Bool) (addr : List Nat → BitVec 64) (i : Nat) : List DistObj → List F64 → Wr
  | d :: ds, w :: ws => serU64Fixed little w ⨟ write ops little (fun p => addr (i :: p)) d ⨟
      writeWeighted ops little addr (i + 1) ds ws
  | _, _ => Wr.nop

/-- The loop `src/distribution_multivariate.c:57-60`, from component `i` on. -/
def writeAll (ops : FloatOps) (little : Bool) (addr : List Nat → BitVec 64) (i : Nat) : List DistObj → Wr
  | [] => Wr.nop
  | d :: ds => write ops little (fun p => addr (i :: p)) d ⨟ writeAll ops little addr (i + 1) ds

end

/-! ## Reading -/

/-- The first check of `ccs_create_uniform_distribution` and of `ccs_create_normal_distribution`
(`src/distribution_uniform.c:386-389`, `src/distribution_normal.c:541-544`). -/
def typeOf (t : BitVec 32) : Out NumType :=
  if t = 1#32 then .ok .int else if t = 2#32 then .ok .float else .err .invalidType

/-- Their second check (`src/distribution_uniform.c:390-393`, `src/distribution_normal.c:545-548`). -/
def scaleOf (s : BitVec 32) : Out Bool :=
  if s = 0#32 then .ok false else if s = 1#32 then .ok true else .err .invalidScale

/-- A float when the type is `CCS_NUMERIC_TYPE_FLOAT`, else an integer. -/
def deNumeric (little : Bool) (t : BitVec 32) : Rd (BitVec 64) := if t = 2#32 then deU64Fixed little else deInt

/-- `_ccs_deserialize_bin_distribution_uniform`, `src/distribution_deserialize.h:17-62`. -/
def deUniform (M : Machine σ) (little : Bool) : Rd DistObj := do
  let _ ← deEnum
  let t ← deEnum
  let s ← deEnum
  let lower ← deNumeric little t
  let upper ← deNumeric little t
  let quantization ← deNumeric little t
  let type ← Rd.lift (typeOf t)
  let log ← Rd.lift (scaleOf s)
  Rd.lift (newUniform M type lower upper log quantization)

/-- `_ccs_deserialize_bin_distribution_normal`, `src/distribution_deserialize.h:75-115`. -/
def deNormal (little : Bool) : Rd DistObj := do
  let _ ← deEnum
  let t ← deEnum
  let s ← deEnum
  let mu ← deU64Fixed little
  let sigma ← deU64Fixed little
  let quantization ← deNumeric little t
  let type ← Rd.lift (typeOf t)
  let log ← Rd.lift (scaleOf s)
  Rd.lift (newNormal type mu sigma log quantization)

/-- The loop `src/distribution_deserialize.h:138-140`, which reads `n` doubles to a block of `room` bytes, from number `i`
on: writing past the end of the block is undefined. -/
def deAreas (little : Bool) (room : Nat) : (n i : Nat) → Rd (List F64)
  | 0, _ => pure []
  | n + 1, i => do
    let x ← deU64Fixed little
    if room < 8 * (i + 1) then Rd.undef
    else do
      let xs ← deAreas little room n (i + 1)
      pure (x :: xs)

/-- `_ccs_deserialize_bin_distribution_roulette`, `src/distribution_deserialize.h:125-169`.  `malloc` gets the number of
areas times 8, modulo `2^64`; it is assumed to succeed, even for 0 bytes. -/
def deRoulette (ops : FloatOps) (little : Bool) : Rd DistObj := do
  let _ ← deEnum
  let num ← deSize
  let areas ← deAreas little (8 * num % 2 ^ 64) num 0
  Rd.lift (newRoulette ops areas)

/-- One turn of the loop `src/distribution_deserialize.h:209-215`. -/
def deWeighted (little : Bool) (sub : Rd DistObj) : Rd (F64 × DistObj) := do
  let w ← deU64Fixed little
  let d ← sub
  pure (w, d)

/-- `_ccs_deserialize_bin_distribution_mixture`, `src/distribution_deserialize.h:189-252`.  `calloc` fails when the size does
not fit in 64 bits, and is assumed to succeed otherwise. -/
def deMixture (M : Machine σ) (little : Bool) (sub : Rd DistObj) : Rd DistObj := do
  let _ ← deEnum
  let num ← deSize
  Rd.lift (refute (2 ^ 64 ≤ 8 * num) .outOfMemory)
  let l ← Rd.times (deWeighted little sub) num
  Rd.lift (newMixture M (l.map (·.2)) (l.map (·.1)))

/-- `_ccs_deserialize_bin_distribution_multivariate`, `src/distribution_deserialize.h:262-316`. -/
def deMultivariate (M : Machine σ) (sub : Rd DistObj) : Rd DistObj := do
  let _ ← deEnum
  let num ← deSize
  Rd.lift (refute (2 ^ 64 ≤ 8 * num) .outOfMemory)
  let l ← Rd.times sub num
  Rd.lift (newMultivariate M l)

/-- `_ccs_distribution_deserialize` and `_ccs_deserialize_bin_distribution`, `src/distribution_deserialize.h:318-401`, down to
nesting depth `fuel`.  Simplifications: the insertion of the distribution in the handle map (`:364-370`) is modelled with
the containing objects, and what a failed call leaves behind is not represented. -/
def readFuel (M : Machine σ) (little : Bool) : Nat → Rd DistObj
  | 0 => Rd.undef
  | fuel + 1 => do
    let o ← deObj
    Rd.lift (refute (o.1 ≠ distributionType) .invalidType)
    let t ← Rd.peek deEnum
    let d ← (match t.toNat with
      | 0 => deUniform M little
      | 1 => deNormal little
      | 2 => deRoulette M.ops little
      | 3 => deMixture M little (readFuel M little fuel)
      | 4 => deMultivariate M (readFuel M little fuel)
      | _ => Rd.fail .unsupportedOperation)
    let data ← deUserData
    pure (d.withData data)

/-- Same, with as much fuel as there are bytes: each level consumes at least one byte, so that the fuel is never
exhausted. -/
def read (M : Machine σ) (little : Bool) : Rd DistObj := fun bs => readFuel M little (bs.length + 1) bs

end DistObj

end CCS
