import Verif.Spec.Wire

/-! Helper lemmas about wire formats: sequencing and the primitive encodings. -/

namespace CCS

open Spec

theorem WBuf.put_ok {b : WBuf} {bs : Bytes} (h : bs.length ≤ b.left) :
    b.put bs = .ok ⟨b.data ++ bs, b.left - bs.length⟩ := by
  unfold WBuf.put; rw [if_neg (by omega)]

/-! ### Writers -/

theorem writes_nop : WritesBytes Wr.nop [] := by
  intro b; simp [Wr.nop]

theorem writes_seq {w₁ w₂ : Wr} {b₁ b₂ : Bytes} (h₁ : WritesBytes w₁ b₁) (h₂ : WritesBytes w₂ b₂) :
    WritesBytes (w₁ ⨟ w₂) (b₁ ++ b₂) := by
  intro b
  simp only [Wr.seq, h₁ b]
  by_cases hl : b₁.length ≤ b.left
  · rw [if_pos hl, Out.bind_ok, h₂]
    by_cases hl' : b₁.length + b₂.length ≤ b.left
    · rw [if_pos (by simp only; omega), if_pos (by simpa using hl')]
      simp only [List.append_assoc, List.length_append, Out.ok.injEq, WBuf.mk.injEq, true_and]
      omega
    · rw [if_neg (by simp only; omega), if_neg (by simpa using hl')]
  · rw [if_neg hl, if_neg (by simp only [List.length_append]; omega)]; rfl

theorem writes_raw (bs : Bytes) : WritesBytes (serRaw bs) bs := by
  intro b
  unfold serRaw
  by_cases h : b.left < bs.length
  · rw [if_pos h, if_neg (by omega)]
  · rw [if_neg h, if_pos (by omega), WBuf.put_ok (by omega)]

theorem writes_fixed {n : Nat} {bs : Bytes} (hn : bs.length = n) :
    WritesBytes (serFixed n bs) bs := by
  subst hn; exact writes_raw bs

theorem writes_all {f : α → Wr} {g : α → Bytes} (xs : List α)
    (h : ∀ x ∈ xs, WritesBytes (f x) (g x)) : WritesBytes (Wr.all f xs) (xs.flatMap g) := by
  induction xs with
  | nil => exact writes_nop
  | cons x xs ih =>
    rw [Wr.all, List.flatMap_cons]
    exact writes_seq (h x (by simp)) (ih fun y hy => h y (by simp [hy]))

/-! ### Readers -/

theorem Rd.bind_eq (r : Rd α) (f : α → Rd β) (bs : Bytes) :
    (r >>= f) bs = (r bs >>= fun p => f p.1 p.2) := rfl

theorem Rd.pure_eq (x : α) (bs : Bytes) : (pure x : Rd α) bs = .ok (x, bs) := rfl

theorem Rd.lift_ok (x : α) (bs : Bytes) : (Rd.lift (.ok x)) bs = .ok (x, bs) := rfl

/-- Both reading properties at once. -/
def Decodes (r : Rd α) (bs : Bytes) (x : α) : Prop := ReadsBack r bs x ∧ RefusesTruncation r bs

theorem reads_pure (x : α) : ReadsBack (pure x : Rd α) [] x := fun _ => rfl

theorem decodes_pure (x : α) : Decodes (pure x : Rd α) [] x := by
  refine ⟨reads_pure x, fun p q h hq => ?_⟩
  simp_all

theorem reads_bind {r : Rd α} {f : α → Rd β} {b₁ b₂ : Bytes} {x : α} {y : β}
    (h₁ : ReadsBack r b₁ x) (h₂ : ReadsBack (f x) b₂ y) :
    ReadsBack (r >>= f) (b₁ ++ b₂) y := by
  intro tail
  rw [Rd.bind_eq, List.append_assoc, h₁, Out.bind_ok, h₂]

theorem decodes_bind {r : Rd α} {f : α → Rd β} {b₁ b₂ : Bytes} {x : α} {y : β}
    (h₁ : Decodes r b₁ x) (h₂ : Decodes (f x) b₂ y) :
    Decodes (r >>= f) (b₁ ++ b₂) y := by
  refine ⟨reads_bind h₁.1 h₂.1, fun p q h hq => ?_⟩
  rw [Rd.bind_eq]
  rcases List.append_eq_append_iff.1 h with ⟨a, ha, hq'⟩ | ⟨c, hc, hc'⟩
  · by_cases ha0 : a = []
    · subst ha0
      simp only [List.append_nil] at ha
      subst ha
      have := h₁.1 []
      rw [List.append_nil] at this
      rw [this, Out.bind_ok]
      exact h₂.2 [] q (by simpa using hq') hq
    · rw [h₁.2 p a ha.symm ha0]; rfl
  · rw [hc, h₁.1, Out.bind_ok]
    exact h₂.2 c q hc'.symm hq

theorem decodes_bind_pure {r : Rd α} {f : α → Rd β} {b : Bytes} {x : α} {y : β}
    (h₁ : Decodes r b x) (h₂ : f x = pure y) : Decodes (r >>= f) b y := by
  have := decodes_bind (f := f) (b₂ := []) (y := y) h₁ (by rw [h₂]; exact decodes_pure y)
  simpa using this

theorem reads_bind_pure {r : Rd α} {f : α → Rd β} {b : Bytes} {x : α} {y : β}
    (h₁ : ReadsBack r b x) (h₂ : f x = pure y) : ReadsBack (r >>= f) b y := by
  have := reads_bind (f := f) (b₂ := []) (y := y) h₁ (by rw [h₂]; exact reads_pure y)
  simpa using this

theorem decodes_lift (x : α) : Decodes (Rd.lift (.ok x)) [] x := by
  refine ⟨fun _ => rfl, fun p q h hq => ?_⟩
  simp_all

theorem decodes_raw (bs : Bytes) : Decodes (deRaw bs.length) bs bs := by
  constructor
  · intro tail
    simp [deRaw]
  · intro p q h hq
    have : p.length < bs.length := by
      subst h
      have := List.length_pos_iff.2 hq
      simp; omega
    simp [deRaw, this]

theorem decodes_fixed {n : Nat} {f : Bytes → α} {bs : Bytes} (hn : bs.length = n) :
    Decodes (deFixed n f) bs (f bs) := by
  subst hn
  constructor
  · intro tail
    simp [deFixed]
  · intro p q h hq
    have : p.length < bs.length := by
      subst h
      have := List.length_pos_iff.2 hq
      simp; omega
    simp [deFixed, this]

theorem decodes_times {r : Rd α} {g : α → Bytes} (xs : List α)
    (h : ∀ x ∈ xs, Decodes r (g x) x) : Decodes (Rd.times r xs.length) (xs.flatMap g) xs := by
  induction xs with
  | nil => exact decodes_pure _
  | cons x xs ih =>
    rw [List.length_cons, Rd.times, List.flatMap_cons]
    exact decodes_bind (h x (by simp))
      (decodes_bind_pure (ih fun y hy => h y (by simp [hy])) rfl)

theorem reads_times {r : Rd α} {g : α → Bytes} (xs : List α)
    (h : ∀ x ∈ xs, ReadsBack r (g x) x) : ReadsBack (Rd.times r xs.length) (xs.flatMap g) xs := by
  induction xs with
  | nil => exact reads_pure _
  | cons x xs ih =>
    rw [List.length_cons, Rd.times, List.flatMap_cons]
    exact reads_bind (h x (by simp))
      (reads_bind_pure (ih fun y hy => h y (by simp [hy])) rfl)

/-- With room for all, the loop that stores is the loop that reads. -/
theorem fill_room {r : Rd α} {size room : Nat} : ∀ (n i : Nat), size * (i + n) ≤ room → r.fill size room n i = r.times n
  | 0, _, _ => rfl
  | n + 1, i, h => by
    rw [Rd.fill, Rd.times]
    have h1 : size * (i + 1) ≤ size * (i + (n + 1)) := Nat.mul_le_mul_left _ (by omega)
    simp only [if_neg (show ¬ room < size * (i + 1) by omega)]
    rw [fill_room n (i + 1) (by rw [show i + 1 + n = i + (n + 1) by omega]; exact h)]

/-- Without, it writes past the end of the block as soon as there is enough to read. -/
theorem fill_ub {g : α → Bytes} {f : α → β} {r' : Rd β} {size room : Nat} :
    ∀ (l : List α) (n i : Nat), (∀ x ∈ l, ReadsBack r' (g x) (f x)) → l.length ≤ n → room < size * (i + l.length) →
      size * i ≤ room → ∀ tail, r'.fill size room n i (l.flatMap g ++ tail) = .ub
  | [], n, i, _, _, h, h', tail => by simp at h; omega
  | x :: l, 0, i, _, h0, h, h', tail => by simp at h0
  | x :: l, n + 1, i, hr, h0, h, h', tail => by
    rw [Rd.fill, List.flatMap_cons, List.append_assoc, Rd.bind_eq, hr x (by simp), Out.bind_ok]
    simp only
    split
    · rfl
    · rw [List.length_cons] at h h0
      rw [Rd.bind_eq, fill_ub l n (i + 1) (fun y hy => hr y (by simp [hy])) (by omega)
        (by rw [show i + 1 + l.length = i + (l.length + 1) by omega]; exact h) (by omega)]
      rfl

/-! ### LEB128 -/

/-- The bytes of the LEB128 encoding. -/
def lebBytes {w : Nat} (v : BitVec w) : Bytes :=
  if _h : v >>> 7 ≠ 0#w then
    ((v &&& BitVec.ofNat w 0x7f).setWidth 8 ||| 0x80#8) :: lebBytes (v >>> 7)
  else [(v &&& BitVec.ofNat w 0x7f).setWidth 8]
termination_by v.toNat
decreasing_by exact BitVec_ushiftRight7_lt v _h

theorem writes_leb {w : Nat} (v : BitVec w) : WritesBytes (serLeb v) (lebBytes v) := by
  generalize hn : v.toNat = n
  induction n using Nat.strongRecOn generalizing v with
  | _ n ih =>
    intro b
    rw [serLeb, lebBytes]
    by_cases hv : v >>> 7 ≠ 0#w
    · have ih' := ih _ (hn ▸ BitVec_ushiftRight7_lt v hv) (v >>> 7) rfl
      by_cases hb : b.left < 1
      · rw [if_pos hb, dif_pos hv, if_neg (by simp only [List.length_cons]; omega)]
      · rw [if_neg hb]
        simp only [if_pos hv, dif_pos hv]
        rw [WBuf.put_ok (by simpa using Nat.not_lt.1 hb)]
        simp only
        rw [ih']
        simp only [List.length_cons, List.length_nil, Nat.zero_add, List.append_assoc,
          List.cons_append, List.nil_append]
        by_cases hl : (lebBytes (v >>> 7)).length + 1 ≤ b.left
        · rw [if_pos (by omega), if_pos hl]
          congr 2
          omega
        · rw [if_neg (by omega), if_neg hl]
    · simp only [if_neg hv, dif_neg hv]
      by_cases hb : b.left < 1
      · rw [if_pos hb, if_neg (by simp only [List.length_cons, List.length_nil]; omega)]
      · rw [if_neg hb, WBuf.put_ok (by simpa using Nat.not_lt.1 hb), if_pos (by simpa using Nat.not_lt.1 hb)]

theorem length_leb {w : Nat} (v : BitVec w) : (lebBytes v).length = szLeb v := by
  generalize hn : v.toNat = n
  induction n using Nat.strongRecOn generalizing v with
  | _ n ih =>
    rw [szLeb, lebBytes]
    by_cases hv : v >>> 7 ≠ 0#w
    · rw [dif_pos hv, dif_pos hv, List.length_cons, ih _ (hn ▸ BitVec_ushiftRight7_lt v hv) _ rfl]
      omega
    · rw [dif_neg hv, dif_neg hv]; rfl

theorem byte_low (y : Byte) (hy : y.toNat < 128) : y &&& 0x7f#8 = y ∧ y &&& 0x80#8 = 0#8 := by
  revert hy; revert y; decide

theorem byte_high (y : Byte) (hy : y.toNat < 128) :
    (y ||| 0x80#8) &&& 0x7f#8 = y ∧ (y ||| 0x80#8) &&& 0x80#8 ≠ 0#8 := by
  revert hy; revert y; decide

theorem low7_toNat {w : Nat} (hw : 8 ≤ w) (v : BitVec w) :
    ((v &&& BitVec.ofNat w 0x7f).setWidth 8).toNat = v.toNat % 128 := by
  have h127 : (127 : Nat) % 2 ^ w = 127 := Nat.mod_eq_of_lt (by
    calc 127 < 2 ^ 8 := by decide
      _ ≤ 2 ^ w := Nat.pow_le_pow_right (by decide) hw)
  rw [BitVec.toNat_setWidth, BitVec.toNat_and, BitVec.toNat_ofNat, h127]
  have : v.toNat &&& 127 = v.toNat % 128 := Nat.and_two_pow_sub_one_eq_mod v.toNat 7
  rw [this]
  have := Nat.mod_lt v.toNat (show 128 > 0 by decide)
  exact Nat.mod_eq_of_lt (by omega)

theorem leb_accum {w s : Nat} (v0 v : BitVec w) (y : Byte)
    (h0 : v0.toNat < 2 ^ s) (hv : v.toNat * 2 ^ s < 2 ^ w) (hy : y.toNat = v.toNat % 128)  (hw : 8 ≤ w):
    (v0 ||| (y.setWidth w <<< s)).toNat = v0.toNat + (v.toNat % 128) * 2 ^ s := by
  have hyw : y.toNat % 2 ^ w = y.toNat := Nat.mod_eq_of_lt (by
    have := y.isLt
    calc y.toNat < 2 ^ 8 := this
      _ ≤ 2 ^ w := Nat.pow_le_pow_right (by decide) hw)
  have hlt : (v.toNat % 128) * 2 ^ s < 2 ^ w :=
    Nat.lt_of_le_of_lt (Nat.mul_le_mul_right _ (Nat.mod_le _ _)) hv
  rw [BitVec.toNat_or, BitVec.toNat_shiftLeft, BitVec.toNat_setWidth, hyw, hy, Nat.shiftLeft_eq,
    Nat.mod_eq_of_lt hlt, Nat.or_comm, Nat.mul_comm, ← Nat.two_pow_add_eq_or_of_lt h0]
  omega

theorem reads_leb_loop {w : Nat} (hw : 8 ≤ w) (v : BitVec w) (v0 : BitVec w) (s : Nat)
    (h0 : v0.toNat < 2 ^ s) (hv : v.toNat * 2 ^ s < 2 ^ w) (hs : s < w) :
    Decodes (deLebLoop v0 s) (lebBytes v) (BitVec.ofNat w (v0.toNat + v.toNat * 2 ^ s)) := by
  generalize hn : v.toNat = n
  induction n using Nat.strongRecOn generalizing v v0 s with
  | _ n ih =>
    have hylt : ((v &&& BitVec.ofNat w 0x7f).setWidth 8).toNat < 128 := by
      rw [low7_toNat hw]; exact Nat.mod_lt _ (by decide)
    have hacc := leb_accum v0 v _ h0 hv (low7_toNat hw v) hw
    rw [lebBytes]
    by_cases hz : v >>> 7 ≠ 0#w
    · rw [dif_pos hz]
      obtain ⟨e1, e2⟩ := byte_high _ hylt
      have h7 : (v >>> 7).toNat = v.toNat / 128 := by
        rw [BitVec.toNat_ushiftRight, Nat.shiftRight_eq_div_pow]
      have hnz : v.toNat / 128 ≠ 0 := by
        intro h; apply hz; apply BitVec.eq_of_toNat_eq; rw [h7, h]; simp
      have hp7 : 2 ^ (s + 7) = 2 ^ s * 128 := by rw [Nat.pow_add]
      have hv' : (v >>> 7).toNat * 2 ^ (s + 7) < 2 ^ w := by
        rw [h7, hp7]
        refine Nat.lt_of_le_of_lt ?_ hv
        rw [Nat.mul_comm (2 ^ s) 128, ← Nat.mul_assoc]
        exact Nat.mul_le_mul_right _ (Nat.div_mul_le_self _ _)
      have hs' : s + 7 < w := by
        have : 2 ^ (s + 7) < 2 ^ w := by
          refine Nat.lt_of_le_of_lt ?_ hv'
          rw [h7]
          exact Nat.le_mul_of_pos_left _ (Nat.pos_of_ne_zero hnz)
        exact (Nat.pow_lt_pow_iff_right (by decide)).1 this
      have h0' : (v0 ||| ((v &&& BitVec.ofNat w 0x7f).setWidth 8).setWidth w <<< s).toNat
          < 2 ^ (s + 7) := by
        rw [hacc, hp7]
        have : v.toNat % 128 < 128 := Nat.mod_lt _ (by decide)
        have : (v.toNat % 128) * 2 ^ s ≤ 127 * 2 ^ s := Nat.mul_le_mul_right _ (by omega)
        omega
      have IH := ih _ (hn ▸ BitVec_ushiftRight7_lt v hz) (v >>> 7) _ (s + 7) h0' hv' hs' rfl
      have hval : (v0 ||| ((v &&& BitVec.ofNat w 0x7f).setWidth 8).setWidth w <<< s).toNat +
          (v >>> 7).toNat * 2 ^ (s + 7) = v0.toNat + n * 2 ^ s := by
        rw [hacc, h7, hp7, ← hn]
        have : v.toNat = v.toNat % 128 + 128 * (v.toNat / 128) := (Nat.mod_add_div _ _).symm
        calc v0.toNat + v.toNat % 128 * 2 ^ s + v.toNat / 128 * (2 ^ s * 128)
            = v0.toNat + (v.toNat % 128 + 128 * (v.toNat / 128)) * 2 ^ s := by
              rw [Nat.add_mul, Nat.add_assoc]
              congr 2
              rw [Nat.mul_comm (2 ^ s) 128, ← Nat.mul_assoc, Nat.mul_comm 128]
          _ = _ := by rw [← this]
      rw [hval] at IH
      constructor
      · intro tail
        rw [List.cons_append, deLebLoop, if_neg (by omega)]
        simp only [e1]
        rw [if_pos e2]
        exact IH.1 tail
      · intro p q h hq
        cases p with
        | nil => rfl
        | cons y p =>
          rw [List.cons_append, List.cons.injEq] at h
          rw [h.1, deLebLoop, if_neg (by omega)]
          simp only [e1]
          rw [if_pos e2]
          exact IH.2 p q h.2 hq
    · rw [dif_neg hz]
      obtain ⟨e1, e2⟩ := byte_low _ hylt
      have hsm : v.toNat % 128 = v.toNat := by
        have : (v >>> 7).toNat = 0 := by
          have : v >>> 7 = 0#w := by simpa using hz
          rw [this]; simp
        rw [BitVec.toNat_ushiftRight, Nat.shiftRight_eq_div_pow] at this
        omega
      constructor
      · intro tail
        rw [List.cons_append, List.nil_append, deLebLoop, if_neg (by omega)]
        simp only [e1, e2, ne_eq, not_true, if_false]
        congr 2
        apply BitVec.eq_of_toNat_eq
        have hb := (v0 ||| ((v &&& BitVec.ofNat w 0x7f).setWidth 8).setWidth w <<< s).isLt
        rw [hacc, hsm] at hb
        rw [hacc, hsm, BitVec.toNat_ofNat, ← hn, Nat.mod_eq_of_lt hb]
      · intro p q h hq
        cases p with
        | nil => rfl
        | cons y p =>
          rw [List.cons_append, List.cons.injEq] at h
          have := List.append_eq_nil_iff.1 h.2
          exact absurd this.2 hq

theorem decodes_leb {w : Nat} (hw : 8 ≤ w) (v : BitVec w) : Decodes (deLeb w) (lebBytes v) v := by
  have := reads_leb_loop hw v 0#w 0 (by simp) (by simpa using v.isLt) (by omega)
  simpa [deLeb] using this

end CCS
