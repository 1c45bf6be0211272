import Verif.Model.Wire

/-!
# Datums

Models `ccs_datum_t` and its comparison and hash functions: `include/cconfigspace/base.h:380-640`,
`src/datum_hash.h:34-95`.
-/

namespace CCS

/-- The pair (`type`, `value`) of a `ccs_datum_t` (`include/cconfigspace/base.h`, struct
`ccs_datum_s`, union `ccs_value_u`).  Strings are represented by their content (`none` for a NULL
pointer) and objects by their address.  The payload of a NONE or INACTIVE datum is never read
by the library.  Simplification: type numbers outside the enumeration are not represented. -/
inductive Value
  | none
  | int (i : BitVec 64)
  | float (f : F64)
  /-- A BOOL datum stores its truth value in `value.i` (64 bits). -/
  | bool (i : BitVec 64)
  | str (s : Option Bytes)
  | inactive
  | obj (h : BitVec 64)
  deriving DecidableEq, Repr

/-- A datum with its flags (`CCS_DATUM_FLAG_TRANSIENT` = 1, `UNPOOLED` = 2, `ID` = 4). -/
structure Datum where
  v : Value
  transient : Bool := false
  unpooled : Bool := false
  id : Bool := false
  deriving DecidableEq, Repr

/-- `enum ccs_data_type_e`, `include/cconfigspace/base.h`: numeric value of the type field. -/
def Value.tag : Value → Nat
  | .none => 0
  | .int _ => 1
  | .float _ => 2
  | .bool _ => 3
  | .str _ => 4
  | .inactive => 5
  | .obj _ => 6

/-- `ccs_true` / `ccs_false`, `src/cconfigspace.c` (constants): `value.i` is 1 or 0. -/
def Value.ofBool (b : Bool) : Value := .bool (if b then 1#64 else 0#64)

/-- `strcmp` / `memcmp` on byte sequences: lexicographic on unsigned bytes, a proper prefix being
smaller (for `strcmp` the terminating NUL is smaller than any byte).  Only the sign of the C
result is modelled. -/
def lexCmp : Bytes → Bytes → Ordering
  | [], [] => .eq
  | [], _ :: _ => .lt
  | _ :: _, [] => .gt
  | a :: as, b :: bs =>
    if a.toNat < b.toNat then .lt else if b.toNat < a.toNat then .gt else lexCmp as bs

/-- `memcmp` on two 8-byte values, on a host of the given endianness. -/
def memcmp8 (little : Bool) (a b : BitVec 64) : Ordering :=
  lexCmp (hostBytes little 8 a) (hostBytes little 8 b)

/-- The STRING case shared by `_datum_cmp` and `ccs_datum_cmp` (`src/datum_hash.h:43-51`,
`include/cconfigspace/base.h:604-612`). -/
def strOptCmp : Option Bytes → Option Bytes → Ordering
  | Option.none, Option.none => .eq
  | Option.none, Option.some _ => .lt
  | Option.some _, Option.none => .gt
  | Option.some a, Option.some b => lexCmp a b

/-- `_datum_cmp`, `src/datum_hash.h:34-61`: used by every table of the library. -/
def datumCmp (little : Bool) (a b : Value) : Ordering :=
  if a.tag < b.tag then .lt
  else if b.tag < a.tag then .gt
  else match a, b with
    | .str s, .str t => strOptCmp s t
    | .none, .none => .eq
    | .inactive, .inactive => .eq
    | .int x, .int y => memcmp8 little x y
    | .float x, .float y => memcmp8 little x y
    | .bool x, .bool y => memcmp8 little x y
    | .obj x, .obj y => memcmp8 little x y
    | _, _ => .eq

/-- Numeric comparison of the INT case, `include/cconfigspace/base.h:613-617`. -/
def intCmp (a b : BitVec 64) : Ordering :=
  if a.toInt < b.toInt then .lt else if b.toInt < a.toInt then .gt else .eq

/-- Numeric comparison of the FLOAT case, `include/cconfigspace/base.h:618-622`. -/
def floatCmp (a b : F64) : Ordering :=
  if F64.lt a b then .lt else if F64.lt b a then .gt else .eq

/-- `ccs_datum_cmp`, `include/cconfigspace/base.h:594-631`: the public comparison. -/
def publicDatumCmp (little : Bool) (a b : Value) : Ordering :=
  if a.tag < b.tag then .lt
  else if b.tag < a.tag then .gt
  else match a, b with
    | .str s, .str t => strOptCmp s t
    | .int x, .int y => intCmp x y
    | .float x, .float y => floatCmp x y
    | .none, .none => .eq
    | .inactive, .inactive => .eq
    | .bool x, .bool y => memcmp8 little x y
    | .obj x, .obj y => memcmp8 little x y
    | _, _ => .eq

/-- `_hash_combine`, `src/datum_hash.h:64-69`. -/
def hashCombine (h1 h2 : BitVec 32) : BitVec 32 :=
  h1 ^^^ (h2 + 0x9e3779b9#32 + (h1 <<< 6) + (h1 >>> 2))

/-- Bytes of the `type` field (a 4-byte enumeration). -/
def tagBytes (little : Bool) (v : Value) : Bytes := hostBytes little 4 (BitVec.ofNat 32 v.tag)

/-- `_hash_datum`, `src/datum_hash.h:71-95`.  `jen` is the byte hash `HASH_JEN` of uthash, kept
abstract: any function of the bytes. -/
def hashDatum (jen : Bytes → BitVec 32) (little : Bool) (v : Value) : BitVec 32 :=
  match v with
  | .str (Option.some s) => hashCombine (jen (tagBytes little v)) (jen s)
  | .str Option.none => hashCombine (jen (tagBytes little v)) (jen (hostBytes little 8 0#64))
  | .none => jen (tagBytes little v)
  | .inactive => jen (tagBytes little v)
  | .int i => hashCombine (jen (tagBytes little v)) (jen (hostBytes little 8 i))
  | .float i => hashCombine (jen (tagBytes little v)) (jen (hostBytes little 8 i))
  | .bool i => hashCombine (jen (tagBytes little v)) (jen (hostBytes little 8 i))
  | .obj i => hashCombine (jen (tagBytes little v)) (jen (hostBytes little 8 i))

end CCS
