import Verif.Model.Basic

/-!
# Binary serialization primitives

Models `src/cconfigspace_internal.h`: byte swapping (286-317), zigzag (319-366), pack/unpack
(368-453), LEB128 (455-521), signed (523-554), pointers (556-586), fixed width (588-626), the list
of instances (698-728), sizes, strings and blobs (731-822).

A writer appends to a bounded buffer; a reader consumes a prefix of a byte list.  The pair
(`buffer`, `buffer_size`) of the C code is a single object here: the C code keeps them in step
except in the places modelled explicitly as `ub`.
-/

namespace CCS

/-- Output buffer: bytes written so far and space left (`*buffer`, `*buffer_size`). -/
structure WBuf where
  data : Bytes
  left : Nat
  deriving DecidableEq, Repr

/-- `memcpy(*buffer, src, n); *buffer += n; *buffer_size -= n`: writing past the end is
undefined behaviour. -/
def WBuf.put (b : WBuf) (bs : Bytes) : Out WBuf :=
  if b.left < bs.length then .ub else .ok ⟨b.data ++ bs, b.left - bs.length⟩

/-- A serializer `_ccs_serialize_bin_X(x, &buffer_size, &buffer)` applied to its value. -/
abbrev Wr := WBuf → Out WBuf

/-- Sequencing of two serializers with `CCS_VALIDATE`. -/
def Wr.seq (w₁ w₂ : Wr) : Wr := fun b => w₁ b >>= w₂

infixr:60 " ⨟ " => Wr.seq

/-- The empty serializer (`break;`). -/
def Wr.nop : Wr := fun b => .ok b

/-- Serializing a counted sequence: `for (i = 0; i < n; i++) CCS_VALIDATE(...)`. -/
def Wr.all (f : α → Wr) : List α → Wr
  | [] => Wr.nop
  | x :: xs => f x ⨟ Wr.all f xs

/-- A deserializer `_ccs_deserialize_bin_X(&x, &buffer_size, &buffer)`. -/
def Rd (α : Type u) := Bytes → Out (α × Bytes)

namespace Rd

def bind (r : Rd α) (f : α → Rd β) : Rd β := fun bs => Out.bind (r bs) fun p => f p.1 p.2

instance : Monad Rd where
  pure a := fun bs => .ok (a, bs)
  bind := Rd.bind

/-- Raise an error. -/
def fail (e : Err) : Rd α := fun _ => .err e

/-- Undefined behaviour. -/
def undef : Rd α := fun _ => .ub

/-- Lift an outcome that does not touch the buffer. -/
def lift (o : Out α) : Rd α := fun bs => o >>= fun a => .ok (a, bs)

/-- `for (i = 0; i < n; i++) CCS_VALIDATE(read(...))`. -/
def times (r : Rd α) : Nat → Rd (List α)
  | 0 => pure []
  | n + 1 => do
    let x ← r
    let xs ← times r n
    pure (x :: xs)

/-- The same loop storing its results, of `size` bytes each, to a block of `room` bytes, from number `i` on: writing past the end
of the block is undefined (`src/parameter_deserialize.h:53-58`, `src/map_deserialize.h:26-34`).  Simplification: an element that
is refused halfway is not counted as written. -/
def fill (r : Rd α) (size room : Nat) : (n i : Nat) → Rd (List α)
  | 0, _ => pure []
  | n + 1, i => do
    let x ← r
    if room < size * (i + 1) then undef
    else do
      let xs ← fill r size room n (i + 1)
      pure (x :: xs)

/-- `_ccs_peek_bin_X`: same as the reader but without consuming
(`src/cconfigspace_internal.h:515-521`). -/
def peek (r : Rd α) : Rd α := fun bs => Out.bind (r bs) fun p => .ok (p.1, bs)

end Rd

/-! ## Byte order and fixed-width fields -/

/-- The `n` low bytes of a number, least significant first. -/
def leBytes : Nat → Nat → Bytes
  | 0, _ => []
  | n + 1, v => BitVec.ofNat 8 v :: leBytes n (v / 256)

/-- Number denoted by bytes, least significant first. -/
def ofLE : Bytes → Nat
  | [] => 0
  | b :: bs => b.toNat + 256 * ofLE bs

/-- Object representation of a `uintN_t` (`n` bytes) on a little or big endian host: what
`memcpy(dst, &v, sizeof(v))` copies. -/
def hostBytes (little : Bool) (n : Nat) (v : BitVec w) : Bytes :=
  if little then leBytes n v.toNat else (leBytes n v.toNat).reverse

/-- Value of a `uintN_t` whose object representation is `bs`. -/
def ofHostBytes (little : Bool) (w : Nat) (bs : Bytes) : BitVec w :=
  BitVec.ofNat w (if little then ofLE bs else ofLE bs.reverse)

/-- `ccs_bswap_uint32`, `src/cconfigspace_internal.h:299-304`. -/
def bswap32 (x : BitVec 32) : BitVec 32 :=
  ((x &&& 0xff000000#32) >>> 24) ||| ((x &&& 0x00ff0000#32) >>> 8) |||
  ((x &&& 0x0000ff00#32) <<< 8) ||| ((x &&& 0x000000ff#32) <<< 24)

/-- `ccs_bswap_uint64`, `src/cconfigspace_internal.h:306-317`. -/
def bswap64 (x : BitVec 64) : BitVec 64 :=
  ((x &&& 0xff00000000000000#64) >>> 56) ||| ((x &&& 0x00ff000000000000#64) >>> 40) |||
  ((x &&& 0x0000ff0000000000#64) >>> 24) ||| ((x &&& 0x000000ff00000000#64) >>> 8) |||
  ((x &&& 0x00000000ff000000#64) <<< 8) ||| ((x &&& 0x0000000000ff0000#64) <<< 24) |||
  ((x &&& 0x000000000000ff00#64) <<< 40) ||| ((x &&& 0x00000000000000ff#64) <<< 56)

/-- `CCS_PACKER` / `CCS_UNPACKER` for 32-bit types, `src/cconfigspace_internal.h:368-453`
(the union conversions keep the bits; on a big endian host the bytes are swapped). -/
def pack32 (little : Bool) (x : BitVec 32) : BitVec 32 := if little then x else bswap32 x

/-- `CCS_PACKER` / `CCS_UNPACKER` for 64-bit types, `src/cconfigspace_internal.h:368-453`. -/
def pack64 (little : Bool) (x : BitVec 64) : BitVec 64 := if little then x else bswap64 x

/-- `CCS_SERIALIZER`, `src/cconfigspace_internal.h:588-600`: check the space, pack, copy. -/
def serFixed (n : Nat) (host : Bytes) : Wr := fun b =>
  if b.left < n then .err .notEnoughData else b.put host

/-- `CCS_DESERIALIZER`, `src/cconfigspace_internal.h:607-626`: check, copy `n` bytes, unpack. -/
def deFixed (n : Nat) (f : Bytes → α) : Rd α := fun bs =>
  if bs.length < n then .err .notEnoughData else .ok (f (bs.take n), bs.drop n)

/-- `_ccs_serialize_bin_uncompressed_uint64`, `_ccs_serialize_bin_ccs_float`
(instances of `CCS_CONVERTER_TYPE` with 64-bit mapped type, `:628-639`, `:705`, `:710`),
on a host of the given endianness. -/
def serU64Fixed (little : Bool) (x : BitVec 64) : Wr :=
  serFixed 8 (hostBytes little 8 (pack64 little x))

/-- `_ccs_deserialize_bin_uncompressed_uint64`, `_ccs_deserialize_bin_ccs_float`. -/
def deU64Fixed (little : Bool) : Rd (BitVec 64) :=
  deFixed 8 fun bs => pack64 little (ofHostBytes little 64 bs)

/-- `_ccs_serialize_bin_ccs_hash` (`:707`). -/
def serU32Fixed (little : Bool) (x : BitVec 32) : Wr :=
  serFixed 4 (hostBytes little 4 (pack32 little x))

/-- `_ccs_deserialize_bin_ccs_hash`. -/
def deU32Fixed (little : Bool) : Rd (BitVec 32) :=
  deFixed 4 fun bs => pack32 little (ofHostBytes little 32 bs)

/-- `_ccs_serialize_bin_size_ccs_float`: `sizeof(MAPPED_TYPE)`, `:601-605`. -/
def szU64Fixed (_ : BitVec 64) : Nat := 8

/-- `_ccs_serialize_bin_size_ccs_hash`: `sizeof(MAPPED_TYPE)`, `:601-605`. -/
def szU32Fixed (_ : BitVec 32) : Nat := 4

/-! ## LEB128 -/

theorem BitVec_ushiftRight7_lt {w : Nat} (v : BitVec w) (h : v >>> 7 ≠ 0#w) :
    (v >>> 7).toNat < v.toNat := by
  have h0 : (v >>> 7).toNat ≠ 0 := by
    intro h'; apply h; apply BitVec.eq_of_toNat_eq; simpa using h'
  rw [BitVec.toNat_ushiftRight, Nat.shiftRight_eq_div_pow] at *
  omega

/-- `CCS_COMPRESSED_SERIALIZER`, `src/cconfigspace_internal.h:457-479`: the `do … while (v)`
loop.  The low seven bits are emitted, with the top bit set while more follow. -/
def serLeb {w : Nat} (v : BitVec w) : Wr := fun b =>
  if b.left < 1 then .err .notEnoughData
  else
    let y : Byte := (v &&& BitVec.ofNat w 0x7f).setWidth 8
    let v' := v >>> 7
    let y' := if v' ≠ 0#w then y ||| 0x80#8 else y
    match b.put [y'] with
    | .ok b' => if _h : v' ≠ 0#w then serLeb v' b' else .ok b'
    | .err e => .err e
    | .ub => .ub
termination_by v.toNat
decreasing_by exact BitVec_ushiftRight7_lt v _h

/-- `_ccs_serialize_bin_size_##NAME` for compressed types,
`src/cconfigspace_internal.h:480-489`. -/
def szLeb {w : Nat} (v : BitVec w) : Nat :=
  if _h : v >>> 7 ≠ 0#w then 1 + szLeb (v >>> 7) else 1
termination_by v.toNat
decreasing_by exact BitVec_ushiftRight7_lt v _h

/-- Loop of `CCS_COMPRESSED_DESERIALIZER`, `src/cconfigspace_internal.h:491-514`.  Nothing bounds
`shift`: shifting by the type's width or more is undefined behaviour in C (`w` is 32 or 64 in
every use). -/
def deLebLoop {w : Nat} (v : BitVec w) (shift : Nat) : Rd (BitVec w)
  | [] => .err .notEnoughData
  | y :: rest =>
    if w ≤ shift then .ub
    else
      let v' := v ||| ((y &&& 0x7f#8).setWidth w <<< shift)
      if y &&& 0x80#8 ≠ 0#8 then deLebLoop v' (shift + 7) rest else .ok (v', rest)

/-- `_ccs_deserialize_bin_##NAME` for compressed unsigned types. -/
def deLeb (w : Nat) : Rd (BitVec w) := deLebLoop 0#w 0

/-! ## Zigzag -/

/-- `ccs_zigzag_encode_int32/64`, `src/cconfigspace_internal.h:332-342`:
`((uintN)x << 1) ^ -((uintN)x >> (N-1))`. -/
def zigzag {w : Nat} (x : BitVec w) : BitVec w := (x <<< 1) ^^^ (-(x >>> (w - 1)))

/-- `ccs_zigzag_decode_int32/64`, `src/cconfigspace_internal.h:356-366`:
`(x >> 1) ^ -(x & 1)`. -/
def unzigzag {w : Nat} (x : BitVec w) : BitVec w := (x >>> 1) ^^^ (-(x &&& 1#w))

/-- `CCS_COMPRESSED_SERIALIZER_SIGNED`, `:523-530`. -/
def serSigned {w : Nat} (x : BitVec w) : Wr := serLeb (zigzag x)
/-- `_ccs_serialize_bin_size_##NAME` for signed types, `:531-535`. -/
def szSigned {w : Nat} (x : BitVec w) : Nat := szLeb (zigzag x)
/-- `CCS_COMPRESSED_DESERIALIZER_SIGNED`, `:537-547`. -/
def deSigned (w : Nat) : Rd (BitVec w) := do
  let v ← deLeb w
  pure (unzigzag v)

/-! ## Named instances -/

/-- Enumerations (`ccs_data_type`, `ccs_object_type`, …), `:711-723`: unsigned 32-bit LEB128. -/
def serEnum (x : BitVec 32) : Wr := serLeb x
def szEnum (x : BitVec 32) : Nat := szLeb x
def deEnum : Rd (BitVec 32) := deLeb 32

/-- `ccs_bool` (an `int32_t` reinterpreted as `uint32_t`), `:708`. -/
def serBool (x : BitVec 32) : Wr := serLeb x
def szBool (x : BitVec 32) : Nat := szLeb x
def deBool : Rd (BitVec 32) := deLeb 32

/-- `ccs_int`, `:709`: zigzag 64-bit. -/
def serInt (x : BitVec 64) : Wr := serSigned x
def szInt (x : BitVec 64) : Nat := szSigned x
def deInt : Rd (BitVec 64) := deSigned 64

/-- `ccs_evaluation_result`, `:724-727`: zigzag 32-bit. -/
def serResult (x : BitVec 32) : Wr := serSigned x
def szResult (x : BitVec 32) : Nat := szSigned x
def deResult : Rd (BitVec 32) := deSigned 32

/-- `ccs_object` handles (`CCS_CONVERTER_COMPRESSED_POINTER`, `:556-579`, `:728`). -/
def serHandle (x : BitVec 64) : Wr := serLeb x
def szHandle (x : BitVec 64) : Nat := szLeb x
def deHandle : Rd (BitVec 64) := deLeb 64

/-- `_ccs_serialize_bin_size`, `:737-742`; sizes are `size_t` (64 bits). -/
def serSize (n : Nat) : Wr := serLeb (BitVec.ofNat 64 n)
/-- `_ccs_serialize_bin_size_size`, `:731-735`. -/
def szSize (n : Nat) : Nat := szLeb (BitVec.ofNat 64 n)
/-- `_ccs_deserialize_bin_size`, `:744-751`. -/
def deSize : Rd Nat := do
  let v ← deLeb 64
  pure v.toNat

/-- `memcpy` of `n` bytes into the buffer guarded by `*buffer_size < n`. -/
def serRaw (bs : Bytes) : Wr := fun b =>
  if b.left < bs.length then .err .notEnoughData else b.put bs

/-- Taking `n` bytes guarded by `*buffer_size < n`. -/
def deRaw (n : Nat) : Rd Bytes := fun bs =>
  if bs.length < n then .err .notEnoughData else .ok (bs.take n, bs.drop n)

/-- `_ccs_serialize_bin_string`, `:760-770`; `s` is the string without its terminator. -/
def serString (s : Bytes) : Wr := serSize (s.length + 1) ⨟ serRaw (s ++ [0#8])
/-- `_ccs_serialize_bin_size_string`, `:753-758`. -/
def szString (s : Bytes) : Nat := (s.length + 1) + szSize (s.length + 1)

/-- The C string found at a pointer into a region: the bytes before the first NUL; running off
the region is undefined behaviour. -/
def cString : Bytes → Out Bytes
  | [] => .ub
  | b :: bs => if b = 0#8 then .ok [] else cString bs >>= fun s => .ok (b :: s)

/-- Second half of `_ccs_deserialize_bin_string`, `:780-784`: check the announced size, keep a
pointer to the bytes, advance. -/
def deCString (sz : Nat) : Rd Bytes := fun bs =>
  if bs.length < sz then .err .notEnoughData
  else cString bs >>= fun s => .ok (s, bs.drop sz)

/-- `_ccs_deserialize_bin_string`, `:772-785`, composed with the uses of the returned pointer as a
C string.  The pointer aims into the input, so what follows the announced `sz` bytes is
still readable: the string ends at the first NUL of the whole remaining input. -/
def deString : Rd Bytes := do
  let sz ← deSize
  deCString sz

/-- `_ccs_serialize_bin_ccs_blob`, `:799-808`. -/
def serBlob (s : Bytes) : Wr := serSize s.length ⨟ serRaw s
/-- `_ccs_serialize_bin_size_ccs_blob`, `:793-797`. -/
def szBlob (s : Bytes) : Nat := szSize s.length + s.length
/-- `_ccs_deserialize_bin_ccs_blob`, `:810-822`. -/
def deBlob : Rd Bytes := do
  let sz ← deSize
  deRaw sz

end CCS
