import Verif.Model.Interval

/-!
# Serialization of intervals, datums, object headers, user data and the stream header

Models `src/cconfigspace_internal.h:158-190`, `:824-1051`, `:1080-1197` and
`src/cconfigspace.c:145-217`.
-/

namespace CCS

/-- `ccs_interval_t` as it travels on the wire: the type field is any 32-bit number, `2`
(`CCS_NUMERIC_TYPE_FLOAT`) selecting the floating point representation of the bounds. -/
structure RawInterval where
  type : BitVec 32
  lower : BitVec 64
  upper : BitVec 64
  lowerIncl : BitVec 32
  upperIncl : BitVec 32
  deriving DecidableEq, Repr

/-- Numeric value of the type field, `include/cconfigspace/base.h:372-381`. -/
def NumType.code : NumType → BitVec 32
  | .int => 1#32
  | .float => 2#32

/-- The wire view of an interval. -/
def Interval.raw (iv : Interval) : RawInterval :=
  ⟨iv.type.code, iv.lower, iv.upper, iv.lowerIncl, iv.upperIncl⟩

/-- `_ccs_serialize_bin_size_ccs_interval`, `src/cconfigspace_internal.h:824-837`. -/
def szInterval (iv : RawInterval) : Nat :=
  szEnum iv.type +
  (if iv.type = 2#32 then szU64Fixed iv.lower + szU64Fixed iv.upper
   else szInt iv.lower + szInt iv.upper) +
  szBool iv.lowerIncl + szBool iv.upperIncl

/-- `_ccs_serialize_bin_ccs_interval`, `src/cconfigspace_internal.h:839-863`. -/
def serInterval (little : Bool) (iv : RawInterval) : Wr :=
  serEnum iv.type ⨟
  (if iv.type = 2#32 then serU64Fixed little iv.lower ⨟ serU64Fixed little iv.upper
   else serInt iv.lower ⨟ serInt iv.upper) ⨟
  serBool iv.lowerIncl ⨟ serBool iv.upperIncl

/-- `_ccs_deserialize_bin_ccs_interval`, `src/cconfigspace_internal.h:865-889`. -/
def deInterval (little : Bool) : Rd RawInterval := do
  let t ← deEnum
  let b ← (if t = 2#32 then (do
      let l ← deU64Fixed little
      let u ← deU64Fixed little
      pure (l, u))
    else (do
      let l ← deInt
      let u ← deInt
      pure (l, u)))
  let li ← deBool
  let ui ← deBool
  pure ⟨t, b.1, b.2, li, ui⟩

/-- `strlen` of the string of a datum; a NULL pointer is undefined behaviour. -/
def serStrOpt : Option Bytes → Wr
  | Option.none => fun _ => .ub
  | Option.some s => serString s

/-- `_ccs_serialize_bin_size_ccs_datum`, `src/cconfigspace_internal.h:891-919`; the size of a
NULL string is undefined behaviour (`strlen(NULL)`), a BOOL is truncated to 32 bits by the
call. -/
def szDatum (v : Value) : Out Nat :=
  let t := szEnum (BitVec.ofNat 32 v.tag)
  match v with
  | .none | .inactive => .ok t
  | .int i => .ok (t + szInt i)
  | .float f => .ok (t + szU64Fixed f)
  | .bool i => .ok (t + szBool (i.setWidth 32))
  | .str (Option.some s) => .ok (t + szString s)
  | .str Option.none => .ub
  | .obj h => .ok (t + szHandle h)

/-- `_ccs_serialize_bin_ccs_datum`, `src/cconfigspace_internal.h:921-959`. -/
def serDatum (little : Bool) (v : Value) : Wr :=
  serEnum (BitVec.ofNat 32 v.tag) ⨟
  match v with
  | .none | .inactive => Wr.nop
  | .int i => serInt i
  | .float f => serU64Fixed little f
  | .bool i => serBool (i.setWidth 32)
  | .str s => serStrOpt s
  | .obj h => serHandle h

/-- `_ccs_deserialize_bin_ccs_datum`, `src/cconfigspace_internal.h:961-1017`.  `ccs_bool(b)`
sign-extends the 32-bit boolean into `value.i`. -/
def deDatum (little : Bool) : Rd Datum := do
  let t ← deEnum
  match t.toNat with
  | 0 => pure { v := .none }
  | 5 => pure { v := .inactive }
  | 1 => do
    let i ← deInt
    pure { v := .int i }
  | 2 => do
    let f ← deU64Fixed little
    pure { v := .float f }
  | 3 => do
    let b ← deBool
    pure { v := .bool (b.signExtend 64) }
  | 4 => do
    let s ← deString
    pure { v := .str (Option.some s), transient := true }
  | 6 => do
    let o ← deHandle
    pure { v := .obj o, id := true }
  | _ => Rd.fail .invalidType

/-- `_ccs_serialize_bin_size_ccs_object_internal`, `src/cconfigspace_internal.h:1019-1024`. -/
def szObj (type : BitVec 32) (handle : BitVec 64) : Nat := szEnum type + szHandle handle

/-- `_ccs_serialize_bin_ccs_object_internal`, `src/cconfigspace_internal.h:1026-1037`. -/
def serObj (type : BitVec 32) (handle : BitVec 64) : Wr := serEnum type ⨟ serHandle handle

/-- `_ccs_deserialize_bin_ccs_object_internal`, `src/cconfigspace_internal.h:1039-1051`. -/
def deObj : Rd (BitVec 32 × BitVec 64) := do
  let t ← deEnum
  let h ← deHandle
  pure (t, h)

/-- `_ccs_object_serialize_user_data_size`, `src/cconfigspace_internal.h:1080-1112`.  `ud` is what
the serialization callback produces; it is empty when there is no user data or no callback. -/
def szUserData (ud : Bytes) : Nat := szSize ud.length + ud.length

/-- `_ccs_object_serialize_user_data`, `src/cconfigspace_internal.h:1114-1164`.  The callback is
assumed to write exactly the bytes it announced. -/
def serUserData (ud : Bytes) : Wr := serSize ud.length ⨟ serRaw ud

/-- Advancing by `n` bytes without comparing `n` to the space left. -/
def deUnchecked (n : Nat) : Rd Bytes := fun bs =>
  if bs.length < n then .ub else .ok (bs.take n, bs.drop n)

/-- `_ccs_object_deserialize_user_data`, `src/cconfigspace_internal.h:1166-1197`.  The announced
size is not compared to the space left: `*buffer_size` wraps around, and the callback reads past
the end of the buffer, when it is larger.  The result is what the callback receives. -/
def deUserData : Rd Bytes := do
  let n ← deSize
  deUnchecked n

/-- `CCS_MAGIC_TAG`, `src/cconfigspace_internal.h:159-163`. -/
def magicTag : Bytes := [0x43#8, 0x43#8, 0x53#8, 0x00#8]

/-- `CCS_SERIALIZATION_API_VERSION`, `src/cconfigspace_internal.h:150`. -/
def apiVersion : BitVec 32 := 1#32

/-- `_ccs_serialize_header_size`, `src/cconfigspace.c:145-159`. -/
def szHeader : Nat := 4 + szU64Fixed 0#64 + szLeb apiVersion

/-- `_ccs_serialize_header`, `src/cconfigspace.c:161-183`, binary format. -/
def serHeader (little : Bool) (size : BitVec 64) : Wr :=
  serRaw magicTag ⨟ serU64Fixed little size ⨟ serLeb apiVersion

/-- `_ccs_deserialize_header`, `src/cconfigspace.c:185-217`, binary format. -/
def deHeader (little : Bool) : Rd (BitVec 64 × BitVec 32) := do
  let tag ← deRaw 4
  Rd.lift (refute (tag ≠ magicTag) .invalidValue)
  let sz ← deU64Fixed little
  let version ← deLeb 32
  Rd.lift (refute (apiVersion.toNat < version.toNat) .invalidValue)
  pure (sz, version)

/-- `_ccs_object_serialize_memory_with_opts`, `src/cconfigspace.c:287-304`: header with size 0,
object, then the header again at the start of the buffer with the number of bytes written. -/
def serMemory (little : Bool) (obj : Wr) (bufferSize : Nat) : Out Bytes := do
  let b₁ ← serHeader little 0#64 ⟨[], bufferSize⟩
  let b₂ ← obj b₁
  let hd ← serHeader little (BitVec.ofNat 64 (bufferSize - b₂.left)) ⟨[], bufferSize⟩
  .ok (hd.data ++ b₂.data.drop hd.data.length)

/-- `_ccs_object_deserialize`, `src/cconfigspace.c:711-747`: header, then the object; the
announced size is read and ignored by the memory operation. -/
def deMemory (little : Bool) (obj : Rd α) : Rd α := do
  let _ ← deHeader little
  obj

end CCS
