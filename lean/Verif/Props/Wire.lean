import Verif.Lemmas.WireObj

/-!
# C01–C10: the binary format

Every statement below goes through `Spec.WritesBytes`, `Spec.ReadsBack`,
`Spec.RefusesTruncation` (see `Verif/Spec/Wire.lean`).
-/

namespace CCS.Props

open CCS Spec

/-! ## C01 -/

/-- **C01** Unsigned 32-bit numbers (enumerations, booleans): round trip, exact size, truncated
input refused. -/
theorem C01_unsigned32_round_trip (x : BitVec 32) :
    Faithful (serEnum x) (szEnum x) deEnum x ∧ Faithful (serBool x) (szBool x) deBool x :=
  ⟨⟨_, writes_enum x, length_leb x, decodes_enum x⟩, ⟨_, writes_bool x, length_leb x, decodes_bool x⟩⟩

/-- **C01** Unsigned 64-bit numbers (object handles). -/
theorem C01_unsigned64_round_trip (x : BitVec 64) :
    Faithful (serHandle x) (szHandle x) deHandle x :=
  ⟨_, writes_handle x, length_leb x, decodes_handle x⟩

/-- **C01** Sizes: any number that fits `size_t`. -/
theorem C01_size_round_trip (n : Nat) (hn : n < 2 ^ 64) :
    Faithful (serSize n) (szSize n) deSize n :=
  ⟨_, writes_size n, length_size n, decodes_size hn⟩

/-- A three-byte encoding followed by other data. -/
example : serSize 100000 ⟨[7#8], 4⟩ = .ok ⟨[7#8, 0xa0#8, 0x8d#8, 0x06#8], 1⟩ := by
  obtain ⟨bs, hw, -, -⟩ := C01_size_round_trip 100000 (by decide)
  have : WritesBytes (serSize 100000) [0xa0#8, 0x8d#8, 0x06#8] := by
    have h := writes_size 100000
    have e : lebBytes (BitVec.ofNat 64 100000) = [0xa0#8, 0x8d#8, 0x06#8] := by
      rw [lebBytes, dif_pos (by decide), lebBytes, dif_pos (by decide), lebBytes,
        dif_neg (by decide)]
      decide
    rwa [e] at h
  rw [this]; rfl
example : deSize [0xa0#8, 0x8d#8, 0x06#8, 0x55#8] = .ok (100000, [0x55#8]) := by decide

/-! ## C02 -/

/-- **C02** Signed 64-bit integers. -/
theorem C02_signed64_round_trip (x : BitVec 64) : Faithful (serInt x) (szInt x) deInt x :=
  ⟨_, writes_int x, length_leb _, decodes_int x⟩

/-- **C02** Signed 32-bit integers (evaluation results). -/
theorem C02_signed32_round_trip (x : BitVec 32) : Faithful (serResult x) (szResult x) deResult x :=
  ⟨_, writes_result x, length_leb _, decodes_result x⟩

/-- The encoding is the zigzag one: the number sent is `2x` for `x ≥ 0` and `-2x-1` otherwise, so
small magnitudes give short encodings. -/
theorem C02_zigzag_is_small (x : BitVec 64) :
    ((zigzag x).toNat : Int) = if 0 ≤ x.toInt then 2 * x.toInt else -2 * x.toInt - 1 := by
  have hx := x.isLt
  have hm : x.msb = decide (2 ^ 63 ≤ x.toNat) := by
    simp [BitVec.msb_eq_decide]
  unfold zigzag
  rw [shiftRight_msb (by decide), hm]
  by_cases h : 2 ^ 63 ≤ x.toNat
  · have hneg : x.toInt = (x.toNat : Int) - 2 ^ 64 := by
      rw [BitVec.toInt_eq_toNat_cond, if_neg (by omega)]; rfl
    rw [if_neg (c := 0 ≤ x.toInt) (by rw [hneg]; omega), if_pos (decide_eq_true h)]
    have e : -(1#64) = BitVec.allOnes 64 := by decide
    rw [e, BitVec.xor_allOnes, BitVec.toNat_not, BitVec.toNat_shiftLeft, hneg, Nat.shiftLeft_eq]
    omega
  · have hpos : x.toInt = (x.toNat : Int) := by
      rw [BitVec.toInt_eq_toNat_cond, if_pos (by omega)]
    rw [if_pos (c := 0 ≤ x.toInt) (by rw [hpos]; omega), if_neg (by simpa using h)]
    have e : -(0#64) = 0#64 := by decide
    rw [e, BitVec.xor_zero, BitVec.toNat_shiftLeft, hpos, Nat.shiftLeft_eq]
    omega

example : deInt [0xff#8, 0xff#8, 0xff#8, 0xff#8, 0xff#8, 0xff#8, 0xff#8, 0xff#8, 0xff#8, 0x01#8]
    = .ok (BitVec.ofInt 64 (-2 ^ 63), []) := by decide
example : deInt [0x05#8, 0x01#8] = .ok (BitVec.ofInt 64 (-3), [0x01#8]) := by decide

/-! ## C03 -/

/-- **C03** 64-bit patterns (floats, stream sizes): written on a host of one byte order and read on
a host of another, with bytes that do not depend on the writing host. -/
theorem C03_fixed64_round_trip (x : BitVec 64) (hostW hostR : Bool) :
    Faithful (serU64Fixed hostW x) (szU64Fixed x) (deU64Fixed hostR) x :=
  ⟨_, writes_u64 hostW x, length_leBytes _ _, decodes_u64 hostR x⟩

/-- **C03** 32-bit patterns (hashes). -/
theorem C03_fixed32_round_trip (x : BitVec 32) (hostW hostR : Bool) :
    Faithful (serU32Fixed hostW x) (szU32Fixed x) (deU32Fixed hostR) x :=
  ⟨_, writes_u32 hostW x, length_leBytes _ _, decodes_u32 hostR x⟩

/-- **C03** The bytes produced are the little-endian digits, whatever the host: for every buffer
the two hosts behave identically. -/
theorem C03_bytes_independent_of_host (x : BitVec 64) (y : BitVec 32) :
    serU64Fixed true x = serU64Fixed false x ∧ serU32Fixed true y = serU32Fixed false y ∧
    ∀ i, (h : i < 8) → (leBytes 8 x.toNat)[i]'(by rw [length_leBytes]; exact h) =
      BitVec.ofNat 8 (x.toNat / 256 ^ i) := by
  refine ⟨?_, ?_, fun i h => getElem_leBytes _ _ _ _⟩
  · funext b; rw [writes_u64 true x b, writes_u64 false x b]
  · funext b; rw [writes_u32 true y b, writes_u32 false y b]

/-- A NaN with a payload written on a big-endian host. -/
example : serU64Fixed false 0x7ff8000000000123#64 ⟨[], 9⟩ =
    .ok ⟨[0x23#8, 0x01#8, 0x00#8, 0x00#8, 0x00#8, 0x00#8, 0xf8#8, 0x7f#8], 1⟩ := by decide
example : deU64Fixed false [0x23#8, 0x01#8, 0x00#8, 0x00#8, 0x00#8, 0x00#8, 0xf8#8, 0x7f#8] =
    .ok (0x7ff8000000000123#64, []) := by decide

/-! ## C05 -/

/-- **C05** Strings: `s` has no NUL inside (it is a C string) and fits in memory. -/
theorem C05_string_round_trip (s : Bytes) (hz : 0#8 ∉ s) (hl : s.length + 1 < 2 ^ 64) :
    Faithful (serString s) (szString s) deString s :=
  ⟨_, writes_string s, length_string s, decodes_string hz hl⟩

/-- **C05** Blobs: any bytes. -/
theorem C05_blob_round_trip (s : Bytes) (hl : s.length < 2 ^ 64) :
    Faithful (serBlob s) (szBlob s) deBlob s :=
  ⟨_, writes_blob s, length_blob s, decodes_blob hl⟩

/-- **C05** User data attached to objects: any bytes. -/
theorem C05_userData_round_trip (s : Bytes) (hl : s.length < 2 ^ 64) :
    RoundTrips (serUserData s) (szUserData s) deUserData s :=
  ⟨_, writes_userData s, length_userData s, reads_userData hl⟩

example : deString [3#8, 0x61#8, 0x62#8, 0#8, 0x63#8] = .ok ([0x61#8, 0x62#8], [0x63#8]) := by decide
example : deBlob [2#8, 0#8, 0x62#8, 0#8] = .ok ([0#8, 0x62#8], [0#8]) := by decide

/-! ## C06 -/

/-- The flags and value a datum must come back with. -/
structure SameDatum (v : Value) (d : Datum) : Prop where
  value : d.v = v
  transient : d.transient = (v.tag == 4)
  id : d.id = (v.tag == 6)
  pooled : d.unpooled = false

/-- **C06** Every datum except a NULL string: a boolean must fit the 32-bit boolean type
(`i` is the sign extension of its low half). -/
theorem C06_datum_round_trip (v : Value) (hostW hostR : Bool)
    (hstr : ∀ s, v = .str s → ∃ t, s = some t ∧ 0#8 ∉ t ∧ t.length + 1 < 2 ^ 64)
    (hbool : ∀ i, v = .bool i → (i.setWidth 32).signExtend 64 = i) :
    ∃ n d, szDatum v = .ok n ∧ SameDatum v d ∧
      Faithful (serDatum hostW v) n (deDatum hostR) d := by
  have hv : v.Writable := by
    cases v with
    | str s => obtain ⟨t, rfl, h⟩ := hstr s rfl; exact h
    | _ => trivial
  refine ⟨_, readBack v, length_datum v hv, ?_, _, writes_datum hostW v hv, rfl,
    decodes_datum hostR v hv⟩
  cases v with
  | bool i => exact ⟨congrArg Value.bool (hbool i rfl), rfl, rfl, rfl⟩
  | _ => exact ⟨rfl, rfl, rfl, rfl⟩

/-- The library's own booleans meet the hypothesis. -/
example : ((1#64).setWidth 32).signExtend 64 = 1#64 := by decide
example : deDatum true [4#8, 3#8, 0x61#8, 0x62#8, 0#8] =
    .ok ({ v := .str (some [0x61#8, 0x62#8]), transient := true }, []) := by decide

/-- **C06** What is lost otherwise: a BOOL datum whose stored value does not fit 32 bits comes back
with another value. -/
theorem C06_wide_boolean_truncated (hostW hostR : Bool) :
    Faithful (serDatum hostW (.bool 0x100000000#64)) 2 (deDatum hostR) { v := .bool 0#64 } := by
  have h := decodes_datum hostR (.bool 0x100000000#64) trivial
  have e : readBack (.bool 0x100000000#64) = { v := .bool 0#64 } := by decide
  rw [e] at h
  refine ⟨_, writes_datum hostW _ trivial, ?_, h⟩
  have := length_datum (.bool 0x100000000#64) trivial
  have e2 : szDatum (.bool 0x100000000#64) = .ok 2 := by
    have a : szLeb (BitVec.ofNat 32 3) = 1 := by rw [szLeb, dif_neg (by decide)]
    have b : szLeb (0#32) = 1 := by rw [szLeb, dif_neg (by decide)]
    simp [szDatum, szEnum, szBool, Value.tag, a, b]
  rw [e2] at this
  exact (Out.ok.inj this).symm

/-! ## C07 -/

/-- **C07** Intervals of both numeric types (and of any type number). -/
theorem C07_interval_round_trip (iv : RawInterval) (hostW hostR : Bool) :
    Faithful (serInterval hostW iv) (szInterval iv) (deInterval hostR) iv :=
  ⟨_, writes_interval hostW iv, length_interval iv, decodes_interval hostR iv⟩

example : deInterval true ([1#8, 0x05#8, 0x0a#8, 1#8, 0#8] ++ [9#8]) =
    .ok ((Interval.raw ⟨.int, BitVec.ofInt 64 (-3), 5#64, 1#32, 0#32⟩), [9#8]) := by decide

/-! ## C04 -/

/-- **C04** Consequence of `Faithful` in terms of buffers: a buffer of at least the announced size
is accepted and receives exactly that many bytes; a smaller one is refused, and no outcome is
undefined. -/
theorem C04_announced_size_exact {α : Type} {w : WBuf → Out WBuf} {n : Nat}
    {r : Bytes → Out (α × Bytes)} {x : α} (h : RoundTrips w n r x) (cap : Nat) :
    (n ≤ cap → ∃ out, w ⟨[], cap⟩ = .ok ⟨out, cap - n⟩ ∧ out.length = n ∧ r out = .ok (x, [])) ∧
    (cap < n → w ⟨[], cap⟩ = .err .notEnoughData) := by
  obtain ⟨bs, hw, rfl, hr⟩ := h
  constructor
  · intro hc
    refine ⟨bs, ?_, rfl, by simpa using hr []⟩
    rw [hw, if_pos hc]; simp
  · intro hc
    rw [hw, if_neg (by simp only; omega)]

/-- A faithful format round-trips. -/
theorem faithful_roundTrips {α : Type} {w : WBuf → Out WBuf} {n : Nat}
    {r : Bytes → Out (α × Bytes)} {x : α} (h : Faithful w n r x) : RoundTrips w n r x := by
  obtain ⟨bs, hw, hl, hr, -⟩ := h
  exact ⟨bs, hw, hl, hr⟩

/-- **C04** The size query and the write of a complete object: `_ccs_object_serialize_size` answers
the header size plus the object's; a buffer of that size is filled completely, starting with a
header announcing exactly that size; a smaller one is refused. -/
theorem C04_object_size_exact (obj : Wr) (bs : Bytes) (hw : WritesBytes obj bs) (little : Bool)
    (cap : Nat) :
    serMemory little obj cap =
      if szHeader + bs.length ≤ cap then
        .ok (headerBytes (BitVec.ofNat 64 (szHeader + bs.length)) ++ bs)
      else .err .notEnoughData := by
  unfold serMemory
  rw [writes_header little 0#64, length_header]
  by_cases h1 : szHeader ≤ cap
  · rw [if_pos h1, Out.bind_ok, hw]
    by_cases h2 : szHeader + bs.length ≤ cap
    · simp only
      rw [if_pos (by omega), if_pos h2, Out.bind_ok]
      simp only
      have e : cap - (cap - szHeader - bs.length) = szHeader + bs.length := by omega
      rw [e, writes_header little, length_header, if_pos h1, Out.bind_ok]
      simp only [List.nil_append]
      rw [List.drop_left' (by rw [length_header, length_header])]
    · simp only
      rw [if_neg (by omega), if_neg h2]; rfl
  · rw [if_neg h1, if_neg (by omega)]; rfl

example : WritesBytes (serDatum true (.int 3#64)) (datumBytes (.int 3#64)) :=
  writes_datum true _ trivial

/-! ## C08 -/

/-- **C08** Truncation is refused by every primitive reader, and by every composition of them: the
statement for one value is the last component of `Spec.Faithful`. -/
theorem C08_truncation_refused {α : Type} {w : WBuf → Out WBuf} {n : Nat}
    {r : Bytes → Out (α × Bytes)} {x : α} (h : Faithful w n r x) :
    ∃ bs, w ⟨[], n⟩ = .ok ⟨bs, 0⟩ ∧ ∀ k, k < n → r (bs.take k) = .err .notEnoughData := by
  obtain ⟨bs, hw, rfl, -, ht⟩ := h
  refine ⟨bs, by rw [hw, if_pos (Nat.le_refl _)]; simp, fun k hk => ?_⟩
  apply ht (bs.take k) (bs.drop k) (List.take_append_drop k bs)
  intro he
  have := congrArg List.length he
  simp at this; omega

/-- **C08** The user data of an object is *not* protected: whatever non-empty user data was
written, dropping its last byte makes the reader run past the end of the buffer. -/
theorem C08_userData_truncation_undefined (s : Bytes) (hs : s ≠ []) (hl : s.length < 2 ^ 64) :
    ∃ bs, WritesBytes (serUserData s) bs ∧ deUserData bs.dropLast = .ub := by
  refine ⟨_, writes_userData s, ?_⟩
  obtain ⟨t, b, rfl⟩ : ∃ t b, s = t ++ [b] := ⟨s.dropLast, s.getLast hs, (List.dropLast_concat_getLast hs).symm⟩
  have : (blobBytes (t ++ [b])).dropLast = lebBytes (BitVec.ofNat 64 (t ++ [b]).length) ++ t := by
    rw [blobBytes, ← List.append_assoc, List.dropLast_concat]
  rw [this]
  unfold deUserData
  rw [Rd.bind_eq, (decodes_size hl).1, Out.bind_ok]
  simp [deUnchecked]

example : deUserData [2#8, 0x61#8] = .ub := by decide
example : deDatum true [4#8, 3#8, 0x61#8, 0x62#8] = .err .notEnoughData := by decide

/-! ## C09 -/

/-- **C09** fails: three readers on arbitrary bytes.  A 32-bit LEB128 field with six continuation
bytes shifts past the width of its type; a string that does not contain its terminator is read
past the end of the buffer; user data announced longer than the buffer likewise. -/
theorem C09_arbitrary_bytes_undefined :
    deEnum [0x80#8, 0x80#8, 0x80#8, 0x80#8, 0x80#8, 0x00#8] = .ub ∧
    deString [1#8, 0x41#8] = .ub ∧
    deUserData [5#8, 0x41#8] = .ub := by decide

/-- **C09** Exactly when the LEB128 reader is undefined: some byte at or beyond the last
position of its type is reached through continuation bytes. -/
theorem C09_leb_undefined_iff {w : Nat} (v : BitVec w) (s : Nat) (bs : Bytes) :
    deLebLoop v s bs = .ub ↔
      ∃ k, w ≤ s + 7 * k ∧ k < bs.length ∧ ∀ i, i < k → ∀ h : i < bs.length, 128 ≤ (bs[i]).toNat := by
  induction bs generalizing v s with
  | nil => simp [deLebLoop]
  | cons y rest ih =>
    have hy : (y &&& 0x80#8 ≠ 0#8) ↔ 128 ≤ y.toNat := by revert y; decide
    rw [deLebLoop]
    by_cases hs : w ≤ s
    · rw [if_pos hs]
      simp only [true_iff]
      exact ⟨0, by omega, by simp, by simp⟩
    · rw [if_neg hs]
      simp only
      by_cases hc : y &&& 0x80#8 ≠ 0#8
      · rw [if_pos hc, ih]
        constructor
        · rintro ⟨k, h1, h2, h3⟩
          refine ⟨k + 1, by omega, by simpa using h2, fun i hi h => ?_⟩
          cases i with
          | zero => exact hy.1 hc
          | succ i => exact h3 i (by omega) (by simpa using h)
        · rintro ⟨k, h1, h2, h3⟩
          cases k with
          | zero => omega
          | succ k =>
            refine ⟨k, by omega, by simpa using h2, fun i hi h => ?_⟩
            have := h3 (i + 1) (by omega) (by simpa using h)
            simpa using this
      · rw [if_neg hc]
        constructor
        · intro h; cases h
        · rintro ⟨k, h1, h2, h3⟩
          cases k with
          | zero => omega
          | succ k =>
            have := h3 0 (by omega) (by simp)
            exact absurd (hy.2 (by simpa using this)) hc

/-- **C09** (partial) The fixed-width, blob and raw readers never have undefined behaviour beyond
that of the LEB128 size field, whatever the bytes.
Missing for the full claim: LEB128 fields, strings and user data, where it is false (above). -/
theorem C09_fixed_readers_defined_partial (little : Bool) (n : Nat) (bs : Bytes) :
    deU64Fixed little bs ≠ .ub ∧ deU32Fixed little bs ≠ .ub ∧ deRaw n bs ≠ .ub ∧
    (deSize bs ≠ .ub → deBlob bs ≠ .ub) := by
  have raw : ∀ n bs, deRaw n bs ≠ .ub := by
    intro n bs; unfold deRaw; split <;> simp
  refine ⟨?_, ?_, raw n bs, fun h => ?_⟩
  · unfold deU64Fixed deFixed; split <;> simp
  · unfold deU32Fixed deFixed; split <;> simp
  · unfold deBlob
    rw [Rd.bind_eq]
    cases hd : deSize bs with
    | ok p => rw [Out.bind_ok]; exact raw _ _
    | err e => simp
    | ub => exact absurd hd h

example : deSize [2#8, 0#8] ≠ .ub := by decide

/-! ## C10 -/

/-- **C10** The header written for a given size is read back as that size with the current
version, takes exactly the announced 13 bytes, and any strict prefix is refused. -/
theorem C10_header_round_trip (size : BitVec 64) (hostW hostR : Bool) :
    Faithful (serHeader hostW size) szHeader (deHeader hostR) (size, apiVersion) ∧ szHeader = 13 := by
  refine ⟨⟨_, writes_header hostW size, length_header size, decodes_header hostR size⟩, ?_⟩
  have : szLeb apiVersion = 1 := by rw [szLeb, dif_neg (by decide)]
  simp [szHeader, szU64Fixed, this]

/-- **C10** Decision logic on an arbitrary candidate: fewer than 4 bytes or fewer than 12 after a
good tag → NOT_ENOUGH_DATA; wrong tag → INVALID_VALUE; newer version → INVALID_VALUE; otherwise
the 64-bit little-endian number after the tag is the size. -/
theorem C10_header_decision (little : Bool) (bs : Bytes) :
    (bs.length < 4 → deHeader little bs = .err .notEnoughData) ∧
    (4 ≤ bs.length → bs.take 4 ≠ magicTag → deHeader little bs = .err .invalidValue) ∧
    (bs.take 4 = magicTag → bs.length < 12 → deHeader little bs = .err .notEnoughData) ∧
    (bs.take 4 = magicTag → 12 ≤ bs.length → ∀ version rest,
      deLeb 32 (bs.drop 12) = .ok (version, rest) →
      (1 < version.toNat → deHeader little bs = .err .invalidValue) ∧
      (version.toNat ≤ 1 → ∀ size : BitVec 64, (bs.drop 4).take 8 = leBytes 8 size.toNat →
        deHeader little bs = .ok ((size, version), rest))) := by
  have tag_of : bs.take 4 = magicTag → 4 ≤ bs.length := by
    intro h
    have := congrArg List.length h
    simp [magicTag] at this; omega
  have unfold_tag : bs.take 4 = magicTag → deHeader little bs =
      (deU64Fixed little (bs.drop 4) >>= fun p => deLeb 32 p.2 >>= fun q =>
        Rd.lift (refute (apiVersion.toNat < q.1.toNat) Err.invalidValue) q.2 >>= fun u =>
          .ok ((p.1, q.1), u.2)) := by
    intro h
    have h4 := tag_of h
    unfold deHeader
    rw [Rd.bind_eq]
    have : deRaw 4 bs = .ok (magicTag, bs.drop 4) := by
      rw [deRaw, if_neg (by omega), h]
    rw [this, Out.bind_ok, Rd.bind_eq]
    have : Rd.lift (refute (magicTag ≠ magicTag) Err.invalidValue) (bs.drop 4) =
        .ok ((), bs.drop 4) := by simp [refute, Rd.lift]
    simp only [this, Out.bind_ok]
    rfl
  refine ⟨fun h => ?_, fun h hne => ?_, fun h hl => ?_, fun h hl version rest hv => ?_⟩
  · unfold deHeader
    rw [Rd.bind_eq, deRaw, if_pos h]; rfl
  · unfold deHeader
    rw [Rd.bind_eq, deRaw, if_neg (by omega), Out.bind_ok, Rd.bind_eq]
    simp only [Rd.lift, refute_true hne]
    rfl
  · rw [unfold_tag h, deU64Fixed, deFixed, if_pos (by simp; omega)]; rfl
  · rw [unfold_tag h]
    have hf : ∃ sz, deU64Fixed little (bs.drop 4) = .ok (sz, bs.drop 12) ∧
        (∀ size : BitVec 64, (bs.drop 4).take 8 = leBytes 8 size.toNat → sz = size) := by
      refine ⟨pack64 little (ofHostBytes little 64 ((bs.drop 4).take 8)), ?_, fun size hs => ?_⟩
      · rw [deU64Fixed, deFixed, if_neg (by simp; omega), List.drop_drop]
      · rw [hs, unpack64]
    obtain ⟨sz, e, hsz⟩ := hf
    rw [e, Out.bind_ok]
    simp only
    rw [hv, Out.bind_ok]
    simp only
    have hv1 : apiVersion.toNat = 1 := rfl
    constructor
    · intro h1
      rw [refute_true (by rw [hv1]; exact h1)]; rfl
    · intro h1 size hs
      rw [refute_false (by rw [hv1]; omega), hsz size hs]; rfl

/-- **C10** Nothing is created from a refused header: the object reader is not even called. -/
theorem C10_refused_header_creates_nothing {α : Type} (little : Bool) (bs : Bytes) (e : Err)
    (h : deHeader little bs = .err e) (obj : Rd α) : deMemory little obj bs = .err e := by
  unfold deMemory
  rw [Rd.bind_eq, h]; rfl

/-- **C10/C04** Serializing to memory then deserializing from it gives the object back, on any pair
of hosts, and what follows the object in the buffer is ignored. -/
theorem C10_memory_round_trip {α : Type} (obj : Wr) (rd : Rd α) (bs : Bytes) (x : α)
    (hw : WritesBytes obj bs) (hr : ReadsBack rd bs x) (hostW hostR : Bool)  (cap : Nat)
    (hc : szHeader + bs.length ≤ cap) :
    ∃ out, serMemory hostW obj cap = .ok out ∧ ReadsBack (deMemory hostR rd) out x := by
  refine ⟨_, by rw [C04_object_size_exact obj bs hw, if_pos hc], ?_⟩
  exact reads_bind (decodes_header hostR _).1 hr

example : deHeader true (magicTag ++ leBytes 8 300 ++ [1#8, 9#8]) = .ok ((300#64, 1#32), [9#8]) := by
  decide
example : deHeader false ([0x43#8, 0x43#8, 0x54#8, 0#8] ++ leBytes 8 300 ++ [1#8]) =
    .err .invalidValue := by decide
example : deHeader true (magicTag ++ leBytes 8 300 ++ [2#8]) = .err .invalidValue := by decide

end CCS.Props
