import Verif.Model.WireObj

/-!
# Parameters

Models `src/parameter.c`, `src/parameter_numerical.c`, `src/parameter_categorical.c`,
`src/parameter_string.c`, `src/parameter_internal.h` and `src/parameter_deserialize.h`.
-/

namespace CCS

/-- Double arithmetic, kept abstract: any functions on bit patterns. -/
structure FloatOps where
  add : F64 → F64 → F64
  sub : F64 → F64 → F64
  mul : F64 → F64 → F64
  div : F64 → F64 → F64
  /-- `fmod` -/
  rem : F64 → F64 → F64

/-- `CCS_PARAMETER_TYPE_CATEGORICAL`, `_ORDINAL`, `_DISCRETE`. -/
inductive CatKind
  | categorical | ordinal | discrete
  deriving DecidableEq, Repr

/-- Kind-specific part of a parameter: `_ccs_parameter_numerical_data_s`
(`src/parameter_internal.h:104-108`), `_ccs_parameter_categorical_data_s`
(`src/parameter_categorical.c:7-14`), `_ccs_parameter_string_data_s` (`src/parameter_string.c:7-11`).
The hash table of a categorical parameter contains its values in order and is not represented
separately; the table of a string parameter is a cache of equal strings and is not represented. -/
inductive ParamKind
  | numerical (interval : Interval) (quantization : BitVec 64)
  | categorical (kind : CatKind) (values : List Value)
  | string
  deriving DecidableEq, Repr

/-- `_ccs_parameter_common_data_s`, `src/parameter_internal.h:51-58`, with the kind. -/
structure Param where
  name : Bytes
  default : Value
  kind : ParamKind
  deriving DecidableEq, Repr

/-- `ccs_parameter_type_t`, `include/cconfigspace/parameter.h:18-45`. -/
def ParamKind.code : ParamKind → BitVec 32
  | .numerical _ _ => 0#32
  | .categorical .categorical _ => 1#32
  | .categorical .ordinal _ => 2#32
  | .categorical .discrete _ => 3#32
  | .string => 4#32

/-- Signed 64-bit subtraction; overflow is undefined behaviour. -/
def sub64 (a b : BitVec 64) : Out (BitVec 64) :=
  if -2 ^ 63 ≤ a.toInt - b.toInt ∧ a.toInt - b.toInt < 2 ^ 63 then .ok (a - b) else .ub

/-- The first refutation of `ccs_create_numerical_parameter` (INT), `src/parameter_numerical.c:290-296`,
evaluated left to right: `true` means refused. -/
def intBoundsRefused (lower upper quantization default : BitVec 64) : Out Bool :=
  if upper.toInt ≤ lower.toInt then .ok true
  else if quantization.toInt < 0 then .ok true
  else do
    let w ← sub64 upper lower
    if w.toInt < quantization.toInt then .ok true
    else if default.toInt < lower.toInt then .ok true
    else if upper.toInt ≤ default.toInt then .ok true
    else .ok false

/-- The second refutation (FLOAT), `src/parameter_numerical.c:297-303`. -/
def floatBoundsRefused (ops : FloatOps) (lower upper quantization default : F64) : Bool :=
  F64.le upper lower || F64.lt quantization 0#64 ||
  F64.lt (ops.sub upper lower) quantization || F64.lt default lower || F64.le upper default

/-- `ccs_create_numerical_parameter`, `src/parameter_numerical.c:274-345`, non-NULL name, type INT or
FLOAT (other types are refused with INVALID_TYPE: see `deNumerical`). -/
def createNumerical (ops : FloatOps) (name : Bytes) (t : NumType)
    (lower upper quantization default : BitVec 64) : Out Param :=
  match t with
  | .int => do
    let r ← intBoundsRefused lower upper quantization default
    if r then .err .invalidValue
    else .ok ⟨name, .int default, .numerical ⟨.int, lower, upper, 1#32, 0#32⟩ quantization⟩
  | .float =>
    if floatBoundsRefused ops lower upper quantization default then .err .invalidValue
    else .ok ⟨name, .float default, .numerical ⟨.float, lower, upper, 1#32, 0#32⟩ quantization⟩

section table

variable (jen : Bytes → BitVec 32) (little : Bool)

/-- Comparison of `HASH_FIND` on a value table, `src/datum_uthash.h:8-12`. -/
def valueMatch (v e : Value) : Bool :=
  decide (hashDatum jen little e = hashDatum jen little v) && decide (datumCmp little e v = .eq)

/-- `HASH_FIND(hh, d->hash, &value, …)`: the stored value. -/
def valueFind (vals : List Value) (v : Value) : Option Value := vals.find? (valueMatch jen little v)

/-- Same, as the position of the entry in `possible_values`. -/
def valueIndex (vals : List Value) (v : Value) : Option Nat := vals.findIdx? (valueMatch jen little v)

/-- The insertion loop, `src/parameter_categorical.c:355-382`: refuse a value already in the table. -/
def insertValues : List Value → List Datum → Out (List Value)
  | acc, [] => .ok acc
  | acc, d :: ds =>
    if (valueFind jen little acc d.v).isSome then .err .invalidValue
    else insertValues (acc ++ [d.v]) ds

/-- Type test of the candidate values, `src/parameter_categorical.c:297-318`. -/
def valueRefused (kind : CatKind) (v : Value) : Bool :=
  match kind with
  | .discrete => decide (v.tag ≠ 2 ∧ v.tag ≠ 1)
  | _ => decide (4 < v.tag) || decide (v = .str none)

/-- `_ccs_create_categorical_parameter`, `src/parameter_categorical.c:278-387`, non-NULL arguments.
The test against `CCS_INT_MAX` (2^63 - 1) is kept. -/
def createCategorical (kind : CatKind) (name : Bytes) (values : List Datum) (defaultIndex : Nat) :
    Out Param :=
  if values.length = 0 ∨ values.length ≤ defaultIndex then .err .invalidValue
  else if 2 ^ 63 - 1 < values.length then .err .invalidValue
  else if values.any (fun d => valueRefused kind d.v) then .err .invalidValue
  else do
    let vals ← insertValues jen little [] values
    match vals[defaultIndex]? with
    | some d => .ok ⟨name, d, .categorical kind vals⟩
    | none => .ub

/-- `ccs_create_string_parameter`, `src/parameter_string.c:234-262`: `calloc` leaves a NONE default. -/
def createString (name : Bytes) : Param := ⟨name, .none, .string⟩

/-- One value of the `check_values` operations: `src/parameter_numerical.c:82-108`,
`src/parameter_categorical.c:125-150`, `src/parameter_string.c:125-138`. -/
def checkValue (p : Param) (v : Value) : Bool :=
  match p.kind with
  | .numerical iv _ =>
    match iv.type, v with
    | .float, .float x => iv.include x
    | .int, .int x => iv.include x
    | _, _ => false
  | .categorical _ vals => (valueFind jen little vals v).isSome
  | .string => decide (v.tag = 4)

/-- `ccs_parameter_check_values`, `src/parameter.c:67-81`. -/
def checkValues (p : Param) (vs : List Value) : List Bool := vs.map (checkValue jen little p)

/-- One value of the `check_values` operations with a non-NULL `values_ret`
(`ccs_parameter_validate_value`, `src/parameter.c:83-97`): result flag and stored value. -/
def validateValue (p : Param) (d : Datum) : Bool × Datum :=
  match p.kind with
  | .numerical _ _ => if checkValue jen little p d.v then (true, d) else (false, ⟨.inactive, false, false, false⟩)
  | .categorical _ vals =>
    match valueFind jen little vals d.v with
    | some v => (true, ⟨v, false, false, false⟩)
    | none => (false, ⟨.inactive, false, false, false⟩)
  | .string =>
    match d.v with
    | .str s => (true, ⟨.str s, false, false, false⟩)
    | _ => (false, ⟨.inactive, false, false, false⟩)

/-- `ccs_parameter_validate_values`, `src/parameter.c:99-115`. -/
def validateValues (p : Param) (ds : List Datum) : List (Bool × Datum) :=
  ds.map (validateValue jen little p)

/-- `ccs_ordinal_parameter_compare_values`, `src/parameter_categorical.c:445-467`: entries are compared
by address, that is by position in `possible_values`. -/
def ordinalCompare (p : Param) (v1 v2 : Value) : Out Ordering :=
  match p.kind with
  | .categorical .ordinal vals =>
    match valueIndex jen little vals v1, valueIndex jen little vals v2 with
    | some i, some j => .ok (if i < j then .lt else if j < i then .gt else .eq)
    | _, _ => .err .invalidValue
  | _ => .err .invalidParameter

end table

/-- `_ccs_categorical_parameter_get_values`, `src/parameter_categorical.c:389-415`, with an array of
`n` entries whose initial contents are `before`: the array on success.  The second loop runs from
`num_possible_values` (the caller's size) to `d->num_possible_values`. -/
def getValues (vals : List Value) (before : List Value) : Out (List Value) :=
  if before.length < vals.length then .err .invalidValue
  else
    let filled := vals ++ before.drop vals.length
    .ok ((List.range' before.length (vals.length - before.length)).foldl
      (fun a i => a.set i .none) filled)

/-! ## Sampling -/

/-- Results of successive calls to `ccs_distribution_samples` on a distribution of dimension 1: the
`k`-th call, asking for `n` raw numbers. -/
abbrev Draws := Nat → Nat → Out (List (BitVec 64))

/-- The parameter's sampling interval: `interval` in `_ccs_parameter_common_data_s`, set by the
constructors (`src/parameter_numerical.c:310-315`, `src/parameter_categorical.c:327-332`,
`src/parameter_string.c:256`). -/
def Param.interval (p : Param) : Interval :=
  match p.kind with
  | .numerical iv _ => iv
  | .categorical _ vals => ⟨.int, 0#64, BitVec.ofNat 64 vals.length, 1#32, 0#32⟩
  | .string => ⟨.int, 0#64, 0#64, 0#32, 0#32⟩

/-- A raw number kept by the filter, as a value: the `if` of `src/parameter_numerical.c:150-159` and
`src/parameter_categorical.c:173-177`, also `convert_samples` with oversampling
(`src/parameter_numerical.c:247-261`, `src/parameter_categorical.c:246-255`). -/
def Param.keep (p : Param) (x : BitVec 64) : Option Value :=
  match p.kind with
  | .numerical iv _ =>
    if iv.include x then some (match iv.type with | .float => .float x | .int => .int x) else none
  | .categorical _ vals => if 0 ≤ x.toInt then vals[x.toNat]? else none
  | .string => none

/-- A raw number turned into a value without test: `src/parameter_numerical.c:141-148,239-246`,
`src/parameter_categorical.c:169-171,243-245`.  Indexing `possible_values` out of bounds is undefined. -/
def Param.convert (p : Param) (x : BitVec 64) : Out Value :=
  match p.kind with
  | .numerical iv _ => .ok (match iv.type with | .float => .float x | .int => .int x)
  | .categorical _ vals =>
    if x.toInt < 0 then .ub
    else match vals[x.toNat]? with
      | some v => .ok v
      | none => .ub
  | .string => .err .unsupportedOperation

/-- Conversion of a whole array. -/
def convertAll (p : Param) : List (BitVec 64) → Out (List Value)
  | [] => .ok []
  | x :: xs => do
    let v ← p.convert x
    let vs ← convertAll p xs
    .ok (v :: vs)

/-- The retry loop, `src/parameter_numerical.c:160-198`, `src/parameter_categorical.c:178-208`: ask for
`coeff` times what is missing, keep the first legal values.  `fuel` bounds the recursion and is never
exhausted (`coeff` doubles and is refused above 32). -/
def retryLoop (p : Param) (draw : Draws) (n : Nat) : Nat → Nat → Nat → List Value → Out (List Value)
  | fuel, k, coeff, found =>
    if n ≤ found.length then .ok found
    else if 32 < coeff then .err .samplingUnsuccessful
    else match fuel with
      | 0 => .ub
      | fuel + 1 => do
        let vs ← draw k ((n - found.length) * coeff)
        retryLoop p draw n fuel (k + 1) (coeff * 2)
          (found ++ (vs.filterMap p.keep).take (n - found.length))

/-- `ccs_parameter_samples` (`src/parameter.c:134-152`) with the `samples` operation of the parameter
(`src/parameter_numerical.c:121-210`, `src/parameter_categorical.c:152-216`,
`src/parameter_string.c:178-194`).  `bounds` are the declared bounds of the distribution.
Simplification: values are returned as a list; the in-place use of the array is modelled by
`expandInPlace`. -/
def paramSamples (p : Param) (bounds : Interval) (draw : Draws) (n : Nat) : Out (List Value) :=
  if n = 0 then .ok []
  else match p.kind with
    | .string => .err .unsupportedOperation
    | _ => do
      let over ← checkOversampling bounds p.interval
      let vs ← draw 0 n
      if over then retryLoop p draw n 6 1 2 (vs.filterMap p.keep)
      else convertAll p vs

/-! ### In-place expansion

The output array of `n` datums is seen as `2n` 8-byte words: word `2i` is the value of datum `i`, word
`2i + 1` its type and flags.  The raw numbers are drawn in words `n … 2n - 1`. -/

/-- `values[found++].value = vs[i]` (numerical, `src/parameter_numerical.c:141-159`): for `i` from `i₀`,
`found` entries already written. -/
def expandValue (n : Nat) (keep : BitVec 64 → Bool) :
    Nat → Nat → Nat → List (BitVec 64) → Nat × List (BitVec 64)
  | 0, _, found, mem => (found, mem)
  | todo + 1, i, found, mem =>
    let x := mem.getD (n + i) 0#64
    if keep x then expandValue n keep todo (i + 1) (found + 1) (mem.set (2 * found) x)
    else expandValue n keep todo (i + 1) found mem

/-- `values[i].type = …; values[i].flags = …`, `src/parameter_numerical.c:202-205`. -/
def setTypes (tf : BitVec 64) : Nat → Nat → List (BitVec 64) → List (BitVec 64)
  | 0, _, mem => mem
  | todo + 1, i, mem => setTypes tf todo (i + 1) (mem.set (2 * i + 1) tf)

/-- `values[found++] = d->possible_values[vs[i]].d` (categorical, `src/parameter_categorical.c:169-177`):
both words of the datum are written; `lookup` gives the two words of the stored value. -/
def expandDatum (n : Nat) (lookup : BitVec 64 → Option (BitVec 64 × BitVec 64)) :
    Nat → Nat → Nat → List (BitVec 64) → Nat × List (BitVec 64)
  | 0, _, found, mem => (found, mem)
  | todo + 1, i, found, mem =>
    match lookup (mem.getD (n + i) 0#64) with
    | some (v, tf) =>
      expandDatum n lookup todo (i + 1) (found + 1) ((mem.set (2 * found) v).set (2 * found + 1) tf)
    | none => expandDatum n lookup todo (i + 1) found mem

/-! ## Serialization -/

/-- `CCS_OBJECT_TYPE_PARAMETER`. -/
def parameterType : BitVec 32 := 2#32

/-- `_ccs_serialize_bin_size_ccs_parameter_common_data`, `src/parameter_internal.h:60-68`. -/
def szParamCommon (p : Param) : Out Nat := do
  let d ← szDatum p.default
  .ok (szEnum p.kind.code + szString p.name + d + szInterval p.interval.raw)

/-- `_ccs_serialize_bin_ccs_parameter_common_data`, `src/parameter_internal.h:70-85`. -/
def serParamCommon (little : Bool) (p : Param) : Wr :=
  serEnum p.kind.code ⨟ serString p.name ⨟ serDatum little p.default ⨟ serInterval little p.interval.raw

/-- Total size of some datums. -/
def szDatums : List Value → Out Nat
  | [] => .ok 0
  | v :: vs => do
    let a ← szDatum v
    let b ← szDatums vs
    .ok (a + b)

/-- Kind-specific part of the size: `src/parameter_internal.h:110-120`,
`src/parameter_categorical.c:16-27`. -/
def szParamRest (p : Param) : Out Nat :=
  match p.kind with
  | .numerical iv q => .ok (if iv.type = .float then szU64Fixed q else szInt q)
  | .categorical _ vals => do
    let b ← szDatums vals
    .ok (szSize vals.length + b)
  | .string => .ok 0

/-- Kind-specific part: `src/parameter_internal.h:122-137`, `src/parameter_categorical.c:29-43`. -/
def serParamRest (little : Bool) (p : Param) : Wr :=
  match p.kind with
  | .numerical iv q => if iv.type = .float then serU64Fixed little q else serInt q
  | .categorical _ vals => serSize vals.length ⨟ Wr.all (serDatum little) vals
  | .string => Wr.nop

/-- Whole parameter with its handle and user data: `_ccs_parameter_*_serialize`. -/
def serParam (little : Bool) (p : Param) (handle : BitVec 64) (ud : Bytes) : Wr :=
  serObj parameterType handle ⨟ serParamCommon little p ⨟ serParamRest little p ⨟ serUserData ud

/-- `_ccs_parameter_*_serialize_size`. -/
def szParam (p : Param) (handle : BitVec 64) (ud : Bytes) : Out Nat := do
  let c ← szParamCommon p
  let r ← szParamRest p
  .ok (szObj parameterType handle + c + r + szUserData ud)

/-- `_ccs_deserialize_bin_ccs_parameter_common_data`, `src/parameter_internal.h:87-102`. -/
def deParamCommon (little : Bool) : Rd (BitVec 32 × Bytes × Datum × RawInterval) := do
  let t ← deEnum
  let name ← deString
  let d ← deDatum little
  let iv ← deInterval little
  pure (t, name, d, iv)

/-- The 8 bytes of the value union of a datum read back; nothing has been stored in it for NONE and
INACTIVE, and a pointer for a string. -/
def Value.word : Value → Option (BitVec 64)
  | .int i => some i
  | .float f => some f
  | .bool b => some b
  | .obj h => some h
  | _ => Option.none

/-- `ccs_create_numerical_parameter` called on what was read, `src/parameter_deserialize.h:17-31`. -/
def rebuildNumerical (ops : FloatOps) (name : Bytes) (d : Datum) (iv : RawInterval)
    (q : BitVec 64) : Out Param :=
  if iv.type ≠ 1#32 ∧ iv.type ≠ 2#32 then .err .invalidType
  else match d.v.word with
    | none => .ub
    | some dw =>
      createNumerical ops name (if iv.type = 2#32 then .float else .int) iv.lower iv.upper q dw

/-- Reading the quantization, `src/parameter_internal.h:147-152`. -/
def deQuantization (little : Bool) (iv : RawInterval) : Rd (BitVec 64) :=
  if iv.type = 2#32 then deU64Fixed little else deInt

/-- `_ccs_deserialize_bin_parameter_numerical`, `src/parameter_deserialize.h:6-33`. -/
def deNumerical (ops : FloatOps) (little : Bool) : Rd Param := do
  let c ← deParamCommon little
  let q ← deQuantization little c.2.2.2
  Rd.lift (rebuildNumerical ops c.2.1 c.2.2.1 c.2.2.2 q)

/-- Search of the default value, `src/parameter_deserialize.h:80-86`: the last value that compares
equal with the public comparison. -/
def lastDefault (little : Bool) (d : Value) : Nat → List Datum → Option Nat → Option Nat
  | _, [], r => r
  | i, x :: xs, r =>
    lastDefault little d (i + 1) xs (if publicDatumCmp little d x.v = .eq then some i else r)

/-- `src/parameter_deserialize.h:79-121` on what was read. -/
def rebuildCategorical (jen : Bytes → BitVec 32) (little : Bool) (t : BitVec 32) (name : Bytes)
    (d : Datum) (vals : List Datum) : Out Param :=
  match lastDefault little d.v 0 vals none with
  | none => .err .invalidValue
  | some i =>
    match t.toNat with
    | 1 => createCategorical jen little .categorical name vals i
    | 2 => createCategorical jen little .ordinal name vals i
    | 3 => createCategorical jen little .discrete name vals i
    | _ => .err .invalidType

/-- `_ccs_deserialize_bin_parameter_categorical`, `src/parameter_deserialize.h:43-60,62-126`.  `malloc` gets the
number of values times 16, modulo `2^64`; it is assumed to succeed, even for 0 bytes. -/
def deCategorical (jen : Bytes → BitVec 32) (little : Bool) : Rd Param := do
  let c ← deParamCommon little
  let n ← deSize
  let vals ← (deDatum little).fill 16 (16 * n % 2 ^ 64) n 0
  Rd.lift (rebuildCategorical jen little c.1 c.2.1 c.2.2.1 vals)

/-- `_ccs_deserialize_bin_parameter_string`, `src/parameter_deserialize.h:130-154`. -/
def deStringParam (little : Bool) : Rd Param := do
  let c ← deParamCommon little
  pure (createString c.2.1)

/-- The `switch` of `_ccs_deserialize_bin_parameter`, `src/parameter_deserialize.h:173-195`. -/
def deParamBody (ops : FloatOps) (jen : Bytes → BitVec 32) (little : Bool) (t : BitVec 32) : Rd Param :=
  match t.toNat with
  | 0 => deNumerical ops little
  | 1 | 2 | 3 => deCategorical jen little
  | 4 => deStringParam little
  | _ => Rd.fail .invalidType

/-- `_ccs_deserialize_bin_parameter` and `_ccs_parameter_deserialize`,
`src/parameter_deserialize.h:156-233`: handle, parameter and user data.  The handle map is modelled with
the containing objects. -/
def deParam (ops : FloatOps) (jen : Bytes → BitVec 32) (little : Bool) : Rd (BitVec 64 × Param × Bytes) := do
  let o ← deObj
  Rd.lift (refute (o.1 ≠ parameterType) .invalidType)
  let t ← Rd.peek deEnum
  let p ← deParamBody ops jen little t
  let ud ← deUserData
  pure (o.2, p, ud)

end CCS
