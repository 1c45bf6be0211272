import Verif.Lemmas.Wire
import Verif.Model.WireObj

/-! Helper lemmas: zigzag, byte order, strings, intervals, datums and headers. -/

namespace CCS
open Spec

theorem shiftRight_msb {w : Nat} (hw : 0 < w) (x : BitVec w) :
    x >>> (w - 1) = if x.msb then 1#w else 0#w := by
  apply BitVec.eq_of_getLsbD_eq
  intro i hi
  rw [BitVec.getLsbD_ushiftRight]
  by_cases hi0 : i = 0
  · subst hi0
    rw [Nat.add_zero, ← BitVec.msb_eq_getLsbD_last]
    cases x.msb <;> simp [hw]
  · have : x.getLsbD (w - 1 + i) = false := BitVec.getLsbD_of_ge _ _ (by omega)
    rw [this]
    cases x.msb <;> simp [BitVec.getLsbD_one, hi0]

theorem zigzag_getLsbD {w : Nat} (hw : 0 < w) (x : BitVec w) (i : Nat) (hi : i < w) :
    (zigzag x).getLsbD i = (((decide (1 ≤ i)) && x.getLsbD (i - 1)) ^^ x.msb) := by
  unfold zigzag
  rw [shiftRight_msb hw]
  cases h : x.msb
  · by_cases h0 : i = 0
    · simp [h0]
    · have h1 : 1 ≤ i := by omega
      simp [hi, h0, h1, BitVec.getLsbD_eq_getElem (show i - 1 < w by omega)]
  · have : (-1#w) = BitVec.allOnes w := BitVec.neg_one_eq_allOnes
    by_cases h0 : i = 0
    · simp [this, h0, hw]
    · have h1 : 1 ≤ i := by omega
      simp [this, hi, h0, h1, BitVec.getLsbD_eq_getElem (show i - 1 < w by omega)]

theorem unzigzag_zigzag {w : Nat} (hw : 0 < w) (x : BitVec w) : unzigzag (zigzag x) = x := by
  have hand : (zigzag x) &&& 1#w = if x.msb then 1#w else 0#w := by
    apply BitVec.eq_of_getLsbD_eq
    intro i hi
    rw [BitVec.getLsbD_and, zigzag_getLsbD hw x i hi]
    by_cases hi0 : i = 0
    · subst hi0; cases x.msb <;> simp [hw]
    · cases x.msb <;> simp [BitVec.getLsbD_one, hi0]
  unfold unzigzag
  rw [hand]
  apply BitVec.eq_of_getLsbD_eq
  intro i hi
  rw [BitVec.getLsbD_xor, BitVec.getLsbD_ushiftRight]
  have hn : (-(if x.msb then 1#w else 0#w)).getLsbD i = x.msb := by
    cases x.msb
    · simp
    · have : (-1#w) = BitVec.allOnes w := BitVec.neg_one_eq_allOnes
      simp [this, hi]
  rw [hn]
  by_cases hl : 1 + i < w
  · rw [zigzag_getLsbD hw x _ hl]
    simp
  · rw [BitVec.getLsbD_of_ge _ _ (by omega), BitVec.msb_eq_getLsbD_last]
    have : i = w - 1 := by omega
    simp [this]

theorem length_leBytes (n v : Nat) : (leBytes n v).length = n := by
  induction n generalizing v with
  | zero => rfl
  | succ n ih => simp [leBytes, ih]

theorem ofLE_leBytes (n v : Nat) : ofLE (leBytes n v) = v % 256 ^ n := by
  induction n generalizing v with
  | zero => simp [leBytes, ofLE, Nat.mod_one]
  | succ n ih =>
    rw [leBytes, ofLE, ih, BitVec.toNat_ofNat, Nat.pow_succ 256, Nat.mul_comm (256 ^ n), Nat.mod_mul]


theorem getElem_leBytes (n v i : Nat) (h : i < (leBytes n v).length) :
    (leBytes n v)[i] = BitVec.ofNat 8 (v / 256 ^ i) := by
  induction n generalizing v i with
  | zero => simp [leBytes] at h
  | succ n ih =>
    cases i with
    | zero => simp [leBytes]
    | succ i =>
      simp only [leBytes, List.getElem_cons_succ]
      rw [ih, Nat.div_div_eq_div_mul, Nat.pow_succ, Nat.mul_comm]

theorem getElem_leBytes_bv {w : Nat} (n : Nat) (v : BitVec w) (i : Nat) (h : i < (leBytes n v.toNat).length) :
    (leBytes n v.toNat)[i] = v.extractLsb' (8 * i) 8 := by
  rw [getElem_leBytes]
  apply BitVec.eq_of_toNat_eq
  rw [BitVec.extractLsb'_toNat, BitVec.toNat_ofNat, Nat.shiftRight_eq_div_pow, Nat.pow_mul]

theorem bswap64_bytes (x : BitVec 64) :
    (leBytes 8 (bswap64 x).toNat).reverse = leBytes 8 x.toNat := by
  apply List.ext_getElem
  · simp [length_leBytes]
  · intro i h1 h2
    rw [List.getElem_reverse, getElem_leBytes_bv, getElem_leBytes_bv]
    simp only [length_leBytes] at *
    have : i < 8 := by simpa using h2
    apply BitVec.eq_of_getLsbD_eq
    intro j hj
    simp only [BitVec.getLsbD_extractLsb', hj, decide_true, Bool.true_and]
    unfold bswap64
    simp only [BitVec.getLsbD_or, BitVec.getLsbD_ushiftRight, BitVec.getLsbD_shiftLeft, BitVec.getLsbD_and]
    have : i = 0 ∨ i = 1 ∨ i = 2 ∨ i = 3 ∨ i = 4 ∨ i = 5 ∨ i = 6 ∨ i = 7 := by omega
    have : j = 0 ∨ j = 1 ∨ j = 2 ∨ j = 3 ∨ j = 4 ∨ j = 5 ∨ j = 6 ∨ j = 7 := by omega
    rcases ‹i = 0 ∨ _› with rfl | rfl | rfl | rfl | rfl | rfl | rfl | rfl <;>
    rcases ‹j = 0 ∨ _› with rfl | rfl | rfl | rfl | rfl | rfl | rfl | rfl <;> simp
theorem bswap32_bytes (x : BitVec 32) :
    (leBytes 4 (bswap32 x).toNat).reverse = leBytes 4 x.toNat := by
  apply List.ext_getElem
  · simp [length_leBytes]
  · intro i h1 h2
    rw [List.getElem_reverse, getElem_leBytes_bv, getElem_leBytes_bv]
    simp only [length_leBytes] at *
    have : i < 4 := by simpa using h2
    apply BitVec.eq_of_getLsbD_eq
    intro j hj
    simp only [BitVec.getLsbD_extractLsb', hj, decide_true, Bool.true_and]
    unfold bswap32
    simp only [BitVec.getLsbD_or, BitVec.getLsbD_ushiftRight, BitVec.getLsbD_shiftLeft, BitVec.getLsbD_and]
    have : i = 0 ∨ i = 1 ∨ i = 2 ∨ i = 3 := by omega
    have : j = 0 ∨ j = 1 ∨ j = 2 ∨ j = 3 ∨ j = 4 ∨ j = 5 ∨ j = 6 ∨ j = 7 := by omega
    rcases ‹i = 0 ∨ _› with rfl | rfl | rfl | rfl <;>
    rcases ‹j = 0 ∨ _› with rfl | rfl | rfl | rfl | rfl | rfl | rfl | rfl <;> simp

theorem leBytes_inj {w : Nat} {n : Nat} (hw : 2 ^ w = 256 ^ n) {x y : BitVec w}
    (h : leBytes n x.toNat = leBytes n y.toNat) : x = y := by
  have := congrArg ofLE h
  rw [ofLE_leBytes, ofLE_leBytes, ← hw, Nat.mod_eq_of_lt x.isLt, Nat.mod_eq_of_lt y.isLt] at this
  exact BitVec.eq_of_toNat_eq this

theorem bswap64_bswap64 (x : BitVec 64) : bswap64 (bswap64 x) = x := by
  apply leBytes_inj (n := 8) (by decide)
  have h1 := bswap64_bytes (bswap64 x)
  have h2 := bswap64_bytes x
  rw [← h2, ← h1, List.reverse_reverse]

theorem bswap32_bswap32 (x : BitVec 32) : bswap32 (bswap32 x) = x := by
  apply leBytes_inj (n := 4) (by decide)
  have h1 := bswap32_bytes (bswap32 x)
  have h2 := bswap32_bytes x
  rw [← h2, ← h1, List.reverse_reverse]

theorem host_pack64 (little : Bool) (x : BitVec 64) :
    hostBytes little 8 (pack64 little x) = leBytes 8 x.toNat := by
  cases little
  · simpa [hostBytes, pack64] using bswap64_bytes x
  · simp [hostBytes, pack64]

theorem host_pack32 (little : Bool) (x : BitVec 32) :
    hostBytes little 4 (pack32 little x) = leBytes 4 x.toNat := by
  cases little
  · simpa [hostBytes, pack32] using bswap32_bytes x
  · simp [hostBytes, pack32]

theorem unpack64 (little : Bool) (x : BitVec 64) :
    pack64 little (ofHostBytes little 64 (leBytes 8 x.toNat)) = x := by
  cases little
  · have h := bswap64_bytes x
    have h' : (leBytes 8 x.toNat).reverse = leBytes 8 (bswap64 x).toNat := by
      rw [← h, List.reverse_reverse]
    simp only [ofHostBytes, pack64, Bool.false_eq_true, if_false, h', ofLE_leBytes]
    rw [Nat.mod_eq_of_lt (bswap64 x).isLt, BitVec.ofNat_toNat, BitVec.setWidth_eq, bswap64_bswap64]
  · simp only [ofHostBytes, pack64, if_true, ofLE_leBytes]
    rw [Nat.mod_eq_of_lt x.isLt, BitVec.ofNat_toNat, BitVec.setWidth_eq]

theorem unpack32 (little : Bool) (x : BitVec 32) :
    pack32 little (ofHostBytes little 32 (leBytes 4 x.toNat)) = x := by
  cases little
  · have h := bswap32_bytes x
    have h' : (leBytes 4 x.toNat).reverse = leBytes 4 (bswap32 x).toNat := by
      rw [← h, List.reverse_reverse]
    simp only [ofHostBytes, pack32, Bool.false_eq_true, if_false, h', ofLE_leBytes]
    rw [Nat.mod_eq_of_lt (bswap32 x).isLt, BitVec.ofNat_toNat, BitVec.setWidth_eq, bswap32_bswap32]
  · simp only [ofHostBytes, pack32, if_true, ofLE_leBytes]
    rw [Nat.mod_eq_of_lt x.isLt, BitVec.ofNat_toNat, BitVec.setWidth_eq]

theorem writes_u64 (little : Bool) (x : BitVec 64) :
    WritesBytes (serU64Fixed little x) (leBytes 8 x.toNat) := by
  unfold serU64Fixed
  rw [host_pack64]
  exact writes_fixed (length_leBytes _ _)

theorem decodes_u64 (little : Bool) (x : BitVec 64) :
    Decodes (deU64Fixed little) (leBytes 8 x.toNat) x := by
  have := decodes_fixed (n := 8) (f := fun bs => pack64 little (ofHostBytes little 64 bs))
    (length_leBytes 8 x.toNat)
  rw [unpack64] at this
  exact this

theorem writes_u32 (little : Bool) (x : BitVec 32) :
    WritesBytes (serU32Fixed little x) (leBytes 4 x.toNat) := by
  unfold serU32Fixed
  rw [host_pack32]
  exact writes_fixed (length_leBytes _ _)

theorem decodes_u32 (little : Bool) (x : BitVec 32) :
    Decodes (deU32Fixed little) (leBytes 4 x.toNat) x := by
  have := decodes_fixed (n := 4) (f := fun bs => pack32 little (ofHostBytes little 32 bs))
    (length_leBytes 4 x.toNat)
  rw [unpack32] at this
  exact this

/-! ### Signed -/

theorem writes_signed {w : Nat} (x : BitVec w) : WritesBytes (serSigned x) (lebBytes (zigzag x)) :=
  writes_leb _

theorem length_signed {w : Nat} (x : BitVec w) : (lebBytes (zigzag x)).length = szSigned x :=
  length_leb _

theorem decodes_signed {w : Nat} (hw : 8 ≤ w) (x : BitVec w) :
    Decodes (deSigned w) (lebBytes (zigzag x)) x :=
  decodes_bind_pure (decodes_leb hw _) (by rw [unzigzag_zigzag (by omega)])

theorem writes_enum (x : BitVec 32) : WritesBytes (serEnum x) (lebBytes x) := writes_leb x
theorem decodes_enum (x : BitVec 32) : Decodes deEnum (lebBytes x) x := decodes_leb (by decide) x
theorem writes_bool (x : BitVec 32) : WritesBytes (serBool x) (lebBytes x) := writes_leb x
theorem decodes_bool (x : BitVec 32) : Decodes deBool (lebBytes x) x := decodes_leb (by decide) x
theorem writes_int (x : BitVec 64) : WritesBytes (serInt x) (lebBytes (zigzag x)) := writes_signed x
theorem decodes_int (x : BitVec 64) : Decodes deInt (lebBytes (zigzag x)) x :=
  decodes_signed (by decide) x
theorem writes_handle (x : BitVec 64) : WritesBytes (serHandle x) (lebBytes x) := writes_leb x
theorem decodes_handle (x : BitVec 64) : Decodes deHandle (lebBytes x) x :=
  decodes_leb (by decide) x
theorem writes_result (x : BitVec 32) : WritesBytes (serResult x) (lebBytes (zigzag x)) :=
  writes_signed x
theorem decodes_result (x : BitVec 32) : Decodes deResult (lebBytes (zigzag x)) x :=
  decodes_signed (by decide) x

/-! ### Sizes, strings, blobs, user data -/

theorem writes_size (n : Nat) : WritesBytes (serSize n) (lebBytes (BitVec.ofNat 64 n)) :=
  writes_leb _

theorem length_size (n : Nat) : (lebBytes (BitVec.ofNat 64 n)).length = szSize n := length_leb _

theorem decodes_size {n : Nat} (hn : n < 2 ^ 64) :
    Decodes deSize (lebBytes (BitVec.ofNat 64 n)) n :=
  decodes_bind_pure (decodes_leb (by decide) _) (by simp [Nat.mod_eq_of_lt hn])

theorem cString_append {s : Bytes} (h : 0#8 ∉ s) (tail : Bytes) :
    cString (s ++ 0#8 :: tail) = .ok s := by
  induction s with
  | nil => rfl
  | cons b s ih =>
    simp only [List.mem_cons, not_or] at h
    rw [List.cons_append, cString, if_neg (fun h' => h.1 h'.symm), ih h.2]
    rfl

/-- Bytes of a string. -/
def strBytes (s : Bytes) : Bytes := lebBytes (BitVec.ofNat 64 (s.length + 1)) ++ (s ++ [0#8])

theorem writes_string (s : Bytes) : WritesBytes (serString s) (strBytes s) :=
  writes_seq (writes_size _) (writes_raw _)

theorem length_string (s : Bytes) : (strBytes s).length = szString s := by
  simp only [strBytes, List.length_append, length_size, szString, List.length_cons, List.length_nil]
  omega

theorem decodes_string {s : Bytes} (hz : 0#8 ∉ s) (hl : s.length + 1 < 2 ^ 64) :
    Decodes deString (strBytes s) s := by
  refine decodes_bind (decodes_size hl) ⟨fun tail => ?_, fun p q h hq => ?_⟩
  · have : ¬ ((s ++ [0#8] ++ tail).length < s.length + 1) := by simp
    simp only [deCString, this, if_false]
    rw [List.append_assoc, List.cons_append, List.nil_append, cString_append hz]
    have : s ++ 0#8 :: tail = (s ++ [0#8]) ++ tail := by simp
    rw [this, List.drop_left' (by simp)]
    rfl
  · have : p.length < s.length + 1 := by
      have h' := congrArg List.length h
      have := List.length_pos_iff.2 hq
      simp at h'; omega
    simp [deCString, this]

/-- Bytes of a length-prefixed blob. -/
def blobBytes (s : Bytes) : Bytes := lebBytes (BitVec.ofNat 64 s.length) ++ s

theorem writes_blob (s : Bytes) : WritesBytes (serBlob s) (blobBytes s) :=
  writes_seq (writes_size _) (writes_raw _)

theorem length_blob (s : Bytes) : (blobBytes s).length = szBlob s := by
  simp only [blobBytes, List.length_append, length_size, szBlob]

theorem decodes_blob {s : Bytes} (hl : s.length < 2 ^ 64) : Decodes deBlob (blobBytes s) s :=
  decodes_bind (decodes_size hl) (decodes_raw s)

theorem writes_userData (s : Bytes) : WritesBytes (serUserData s) (blobBytes s) :=
  writes_seq (writes_size _) (writes_raw _)

theorem length_userData (s : Bytes) : (blobBytes s).length = szUserData s := length_blob s

theorem reads_userData {s : Bytes} (hl : s.length < 2 ^ 64) :
    ReadsBack deUserData (blobBytes s) s := by
  refine reads_bind (decodes_size hl).1 fun tail => ?_
  simp [deUnchecked]

theorem decodes_userData_nil : Decodes deUserData (blobBytes []) [] := by
  refine decodes_bind (decodes_size (by decide)) ⟨fun tail => by simp [deUnchecked], fun p q h hq => ?_⟩
  simp_all

/-! ### Intervals -/

/-- Bytes of an interval. -/
def intervalBytes (iv : RawInterval) : Bytes :=
  lebBytes iv.type ++
  ((if iv.type = 2#32 then leBytes 8 iv.lower.toNat ++ leBytes 8 iv.upper.toNat
    else lebBytes (zigzag iv.lower) ++ lebBytes (zigzag iv.upper)) ++
  (lebBytes iv.lowerIncl ++ lebBytes iv.upperIncl))

theorem writes_interval (little : Bool) (iv : RawInterval) :
    WritesBytes (serInterval little iv) (intervalBytes iv) := by
  unfold serInterval intervalBytes
  refine writes_seq (writes_enum _) (writes_seq ?_ (writes_seq (writes_bool _) (writes_bool _)))
  by_cases h : iv.type = 2#32
  · rw [if_pos h, if_pos h]; exact writes_seq (writes_u64 _ _) (writes_u64 _ _)
  · rw [if_neg h, if_neg h]; exact writes_seq (writes_int _) (writes_int _)

theorem length_interval (iv : RawInterval) : (intervalBytes iv).length = szInterval iv := by
  unfold intervalBytes szInterval
  by_cases h : iv.type = 2#32
  · simp only [if_pos h, List.length_append, length_leb, length_leBytes, szEnum, szBool, szU64Fixed]
    omega
  · simp only [if_neg h, List.length_append, length_leb, szEnum, szBool, szInt, szSigned]
    omega

theorem decodes_interval (little : Bool) (iv : RawInterval) :
    Decodes (deInterval little) (intervalBytes iv) iv := by
  unfold deInterval intervalBytes
  refine decodes_bind (decodes_enum _) (decodes_bind (x := (iv.lower, iv.upper)) ?_
    (decodes_bind (decodes_bool _) (decodes_bind_pure (decodes_bool _) rfl)))
  by_cases h : iv.type = 2#32
  · rw [if_pos h, if_pos h]
    exact decodes_bind (decodes_u64 _ _) (decodes_bind_pure (decodes_u64 _ _) rfl)
  · rw [if_neg h, if_neg h]
    exact decodes_bind (decodes_int _) (decodes_bind_pure (decodes_int _) rfl)

/-! ### Datums -/

/-- Bytes of the payload of a datum. -/
def payloadBytes : Value → Bytes
  | .none | .inactive => []
  | .int i => lebBytes (zigzag i)
  | .float f => leBytes 8 f.toNat
  | .bool i => lebBytes (i.setWidth 32)
  | .str (Option.some s) => strBytes s
  | .str Option.none => []
  | .obj h => lebBytes h

/-- Bytes of a datum. -/
def datumBytes (v : Value) : Bytes := lebBytes (BitVec.ofNat 32 v.tag) ++ payloadBytes v

/-- A datum that can be serialized: its string, if any, is a real C string. -/
def Value.Writable : Value → Prop
  | .str (Option.some s) => 0#8 ∉ s ∧ s.length + 1 < 2 ^ 64
  | .str Option.none => False
  | _ => True

/-- What is read back: the same value with a boolean reduced to 32 bits, a string marked as
transient and a handle marked as identifier. -/
def readBack (v : Value) : Datum :=
  match v with
  | .bool i => { v := .bool ((i.setWidth 32).signExtend 64) }
  | .str s => { v := .str s, transient := true }
  | .obj h => { v := .obj h, id := true }
  | v => { v := v }

theorem writes_datum (little : Bool) (v : Value) (hv : v.Writable) :
    WritesBytes (serDatum little v) (datumBytes v) := by
  unfold serDatum datumBytes
  refine writes_seq (writes_enum _) ?_
  cases v with
  | none => exact writes_nop
  | inactive => exact writes_nop
  | int i => exact writes_int i
  | float f => exact writes_u64 little f
  | bool i => exact writes_bool _
  | obj h => exact writes_handle h
  | str s =>
    cases s with
    | none => exact absurd hv (by simp [Value.Writable])
    | some s => exact writes_string s

theorem length_datum (v : Value) (hv : v.Writable) : szDatum v = .ok (datumBytes v).length := by
  unfold datumBytes szDatum
  cases v with
  | str s =>
    cases s with
    | none => exact absurd hv (by simp [Value.Writable])
    | some s => simp [payloadBytes, length_leb, szEnum, length_string]
  | _ => simp [payloadBytes, length_leb, szEnum, szInt, szSigned, szBool, szU64Fixed, szHandle,
      length_leBytes]

theorem decodes_datum (little : Bool) (v : Value) (hv : v.Writable) :
    Decodes (deDatum little) (datumBytes v) (readBack v) := by
  unfold deDatum datumBytes
  refine decodes_bind (decodes_enum _) ?_
  cases v with
  | none => exact decodes_pure _
  | inactive => exact decodes_pure _
  | int i => exact decodes_bind_pure (decodes_int i) rfl
  | float f => exact decodes_bind_pure (decodes_u64 little f) rfl
  | bool i => exact decodes_bind_pure (decodes_bool _) rfl
  | obj h => exact decodes_bind_pure (decodes_handle h) rfl
  | str s =>
    cases s with
    | none => exact absurd hv (by simp [Value.Writable])
    | some s => exact decodes_bind_pure (decodes_string hv.1 hv.2) rfl

/-! ### Object header and stream header -/

/-- Bytes of an object's type and handle. -/
def objBytes (type : BitVec 32) (handle : BitVec 64) : Bytes := lebBytes type ++ lebBytes handle

theorem writes_obj (t : BitVec 32) (h : BitVec 64) : WritesBytes (serObj t h) (objBytes t h) :=
  writes_seq (writes_enum t) (writes_handle h)

theorem length_obj (t : BitVec 32) (h : BitVec 64) : (objBytes t h).length = szObj t h := by
  simp [objBytes, szObj, length_leb, szEnum, szHandle]

theorem decodes_obj (t : BitVec 32) (h : BitVec 64) : Decodes deObj (objBytes t h) (t, h) :=
  decodes_bind (decodes_enum t) (decodes_bind_pure (decodes_handle h) rfl)

/-- Bytes of the stream header announcing `size`. -/
def headerBytes (size : BitVec 64) : Bytes :=
  magicTag ++ (leBytes 8 size.toNat ++ lebBytes apiVersion)

theorem writes_header (little : Bool) (size : BitVec 64) :
    WritesBytes (serHeader little size) (headerBytes size) :=
  writes_seq (writes_raw _) (writes_seq (writes_u64 _ _) (writes_leb _))

theorem length_header (size : BitVec 64) : (headerBytes size).length = szHeader := by
  simp [headerBytes, szHeader, length_leBytes, length_leb, szU64Fixed, magicTag]
  omega

theorem decodes_header (little : Bool) (size : BitVec 64) :
    Decodes (deHeader little) (headerBytes size) (size, apiVersion) := by
  unfold deHeader headerBytes
  refine decodes_bind (decodes_raw magicTag) ?_
  have h1 : refute (magicTag ≠ magicTag) Err.invalidValue = .ok () := by simp [refute]
  rw [h1]
  have h2 : refute (apiVersion.toNat < apiVersion.toNat) Err.invalidValue = .ok () := by
    simp [refute]
  have := decodes_bind (r := Rd.lift (.ok ())) (b₁ := []) (decodes_lift ())
    (f := fun _ => (do
      let sz ← deU64Fixed little
      let version ← deLeb 32
      Rd.lift (refute (apiVersion.toNat < version.toNat) .invalidValue)
      pure (sz, version) : Rd (BitVec 64 × BitVec 32)))
    (decodes_bind (decodes_u64 little size) (decodes_bind (b₂ := []) (y := (size, apiVersion))
      (decodes_leb (by decide) apiVersion)
      (by
        rw [h2]
        exact decodes_bind_pure (decodes_lift ()) rfl)))
  simpa using this

end CCS
