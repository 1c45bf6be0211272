import Verif.Spec.FloatDraw
import Verif.Lemmas.Ieee
import Verif.Lemmas.Distribution

/-!
# Rounded sums and products stay on their side of a double

Rounding to nearest is monotone: a sum or a product that is at most (at least) a double is rounded to at most (at least)
that double.  From this the values of a linear uniform distribution of doubles stay within its closed bounds.
-/

namespace CCS

open Spec

namespace IeeeLemmas

open Ieee


theorem signed_low (x : F64) : signed x = if neg x then -(uval (low x) : Int) else (uval (low x) : Int) := by
  unfold signed
  rw [mag_low]

theorem uval_zero : uval 0 = 0 := by decide

theorem signed_nonneg_of {x : F64} (h : neg x = false) : 0 ≤ signed x := by
  rw [signed_low, h]
  simp

theorem signed_nonpos {x : F64} (h : neg x = true) : signed x ≤ 0 := by
  rw [signed_low, h]
  simp

theorem low_le_inf {x : F64} (h : F64.isNaN x = false) : low x ≤ infBits := by
  rw [isNaN_low] at h
  simpa using h

theorem one_lt_uval {n : Nat} (h : 0 < n) : 1 ≤ uval n := by
  have := uval_lt h
  omega

/-- A rounded sum is on the same side of a number as the exact sum. -/
theorem add_le {a b c : F64} (ha : F64.isFinite a = true) (hb : F64.isFinite b = true) (hc : F64.isNaN c = false)
    (h : signed a + signed b ≤ signed c) : signed (add a b) ≤ signed c := by
  obtain ⟨a1, a2⟩ := finite_num ha
  obtain ⟨b1, b2⟩ := finite_num hb
  have hi := low_le_inf hc
  unfold add
  simp only [a1, b1, a2, b2, Bool.or_self, Bool.false_eq_true, if_false]
  generalize signed a + signed b = s at h
  by_cases h0 : s = 0
  · rw [if_pos h0, signed_pack (Nat.zero_le _), uval_zero]
    have : (if (neg a && neg b) = true then -((0 : Nat) : Int) else ((0 : Nat) : Int)) = 0 := by split <;> rfl
    rw [this]
    omega
  · rw [if_neg h0, signed_pack (roundMag_le_inf _ _)]
    by_cases hs : s < 0
    · simp only [hs, decide_true, if_true]
      cases hn : neg c with
      | false => have := signed_nonneg_of hn; omega
      | true =>
        rw [signed_low, hn] at h ⊢
        simp only [if_true] at h ⊢
        have := le_roundMag (num := s.natAbs) (den := 1) (b := low c) Nat.one_pos hi (by omega)
        have := uval_le_iff.mpr this
        omega
    · simp only [hs, decide_false, Bool.false_eq_true, if_false]
      cases hn : neg c with
      | true => have := signed_nonpos hn; omega
      | false =>
        rw [signed_low, hn] at h ⊢
        simp only [Bool.false_eq_true, if_false] at h ⊢
        have := roundMag_le (num := s.natAbs) (den := 1) (b := low c) Nat.one_pos (by omega)
        have := uval_le_iff.mpr this
        omega

theorem le_add {a b c : F64} (ha : F64.isFinite a = true) (hb : F64.isFinite b = true) (hc : F64.isNaN c = false)
    (h : signed c ≤ signed a + signed b) : signed c ≤ signed (add a b) := by
  obtain ⟨a1, a2⟩ := finite_num ha
  obtain ⟨b1, b2⟩ := finite_num hb
  have hi := low_le_inf hc
  unfold add
  simp only [a1, b1, a2, b2, Bool.or_self, Bool.false_eq_true, if_false]
  generalize signed a + signed b = s at h
  by_cases h0 : s = 0
  · rw [if_pos h0, signed_pack (Nat.zero_le _), uval_zero]
    have : (if (neg a && neg b) = true then -((0 : Nat) : Int) else ((0 : Nat) : Int)) = 0 := by split <;> rfl
    rw [this]
    omega
  · rw [if_neg h0, signed_pack (roundMag_le_inf _ _)]
    by_cases hs : s < 0
    · simp only [hs, decide_true, if_true]
      cases hn : neg c with
      | false => have := signed_nonneg_of hn; omega
      | true =>
        rw [signed_low, hn] at h ⊢
        simp only [if_true] at h ⊢
        have := roundMag_le (num := s.natAbs) (den := 1) (b := low c) Nat.one_pos (by omega)
        have := uval_le_iff.mpr this
        omega
    · simp only [hs, decide_false, Bool.false_eq_true, if_false]
      cases hn : neg c with
      | true => have := signed_nonpos hn; omega
      | false =>
        rw [signed_low, hn] at h ⊢
        simp only [Bool.false_eq_true, if_false] at h ⊢
        have := le_roundMag (num := s.natAbs) (den := 1) (b := low c) Nat.one_pos hi (by omega)
        have := uval_le_iff.mpr this
        omega

/-- The opposite number. -/
theorem neg_flip (x : F64) : neg (x ^^^ 0x8000000000000000#64) = !neg x ∧ low (x ^^^ 0x8000000000000000#64) = low x := by
  have e1 : ∀ y : F64, neg y = y.msb := by
    intro y
    unfold neg
    rw [BitVec.msb_eq_decide]
  have e2 : ∀ y : F64, low y = (y &&& 0x7fffffffffffffff#64).toNat := by
    intro y
    unfold low
    rw [BitVec.toNat_and]
    exact (Nat.and_two_pow_sub_one_eq_mod y.toNat 63).symm
  constructor
  · rw [e1, e1, BitVec.msb_xor]
    have : (0x8000000000000000#64).msb = true := by decide
    rw [this]
    simp
  · rw [e2, e2]
    congr 1
    ext i hi
    simp only [BitVec.getElem_and, BitVec.getElem_xor]
    have : ((0x8000000000000000#64)[i] && (0x7fffffffffffffff#64)[i]) = false := by
      have h : 0x8000000000000000#64 &&& 0x7fffffffffffffff#64 = 0#64 := by decide
      rw [← BitVec.getElem_and, h]
      simp
    cases h1 : (0x7fffffffffffffff#64)[i] with
    | false => simp
    | true => simp only [h1, Bool.and_true] at this; simp [this]

theorem signed_flip (x : F64) : signed (x ^^^ 0x8000000000000000#64) = -signed x := by
  rw [signed_low, signed_low, (neg_flip x).1, (neg_flip x).2]
  cases neg x <;> simp

theorem finite_flip {x : F64} (h : F64.isFinite x = true) : F64.isFinite (x ^^^ 0x8000000000000000#64) = true := by
  rw [isFinite_low] at h ⊢
  rw [(neg_flip x).2]
  exact h

/-- A rounded positive number below which no double is farther than one part in `2^52`. -/
theorem uval_pred {r : Nat} (h : 2 ^ 53 < r) : 2 ^ 52 * uval r ≤ 2 ^ 52 * uval (r - 1) + uval r := by
  obtain ⟨k, m, hm1, hm2, he⟩ : ∃ k m, 2 ^ 52 ≤ m ∧ m < 2 ^ 53 ∧ r - 1 = k * 2 ^ 52 + m :=
    ⟨(r - 1) / 2 ^ 52 - 1, (r - 1) % 2 ^ 52 + 2 ^ 52, by omega, by omega, by omega⟩
  have h1 : uval (r - 1) = m * 2 ^ k := by rw [he]; exact uval_scaled hm1 (by omega)
  have h2 : uval r = (m + 1) * 2 ^ k := by
    rw [show r = k * 2 ^ 52 + (m + 1) by omega]
    exact uval_scaled (by omega) (by omega)
  rw [h1, h2]
  have h3 : (m + 1) * 2 ^ k = m * 2 ^ k + 2 ^ k := by rw [Nat.add_mul, Nat.one_mul]
  have h4 : 2 ^ 52 * 2 ^ k ≤ m * 2 ^ k := Nat.mul_le_mul_right _ hm1
  rw [h3]
  generalize m * 2 ^ k = x at *
  generalize 2 ^ k = y at *
  omega

theorem uval_split {b : Nat} (h : 2 ^ 53 ≤ b) : ∃ x y, 2 ^ 52 * y ≤ x ∧ x < 2 ^ 53 * y ∧ uval b = x ∧ uval (b + 1) = x + y := by
  obtain ⟨k, m, hm1, hm2, he⟩ : ∃ k m, 2 ^ 52 ≤ m ∧ m < 2 ^ 53 ∧ b = k * 2 ^ 52 + m :=
    ⟨b / 2 ^ 52 - 1, b % 2 ^ 52 + 2 ^ 52, by omega, by omega, by omega⟩
  refine ⟨m * 2 ^ k, 2 ^ k, Nat.mul_le_mul_right _ hm1, Nat.mul_lt_mul_of_pos_right hm2 (Nat.two_pow_pos _), ?_, ?_⟩
  · rw [he]; exact uval_scaled hm1 (by omega)
  · rw [he, show k * 2 ^ 52 + m + 1 = k * 2 ^ 52 + (m + 1) by omega, uval_scaled (by omega) (by omega), Nat.add_mul, Nat.one_mul]

/-- Three doubles above: at least three parts in `2^53` more, at most four parts in `2^52`. -/
theorem uval_third {b : Nat} (h : 2 ^ 53 ≤ b) : uval b * 2 ^ 52 ≤ uval (b + 3) * (2 ^ 52 - 1) ∧
    2 ^ 52 * uval (b + 3) ≤ 2 ^ 52 * uval b + 4 * uval b := by
  obtain ⟨x1, y1, a1, a2, a3, a4⟩ := uval_split h
  obtain ⟨x2, y2, b1, b2, b3, b4⟩ := uval_split (b := b + 1) (by omega)
  obtain ⟨x3, y3, c1, c2, c3, c4⟩ := uval_split (b := b + 2) (by omega)
  have e1 : uval (b + 1 + 1) = uval (b + 2) := rfl
  have e2 : uval (b + 2 + 1) = uval (b + 3) := rfl
  rw [Nat.mul_sub_one]
  omega

theorem scale_le {x y z c : Nat} (h1 : 2 ^ 52 * x ≤ 2 ^ 52 * y + x) (h : z * 2 ^ 52 ≤ c * (2 ^ 52 - 1)) : x * z ≤ c * y := by
  have h2 : x * (2 ^ 52 - 1) ≤ y * 2 ^ 52 := by
    rw [Nat.mul_sub_one, Nat.mul_comm x, Nat.mul_comm y]
    exact Nat.sub_le_iff_le_add.mpr h1
  have hk : 0 < 2 ^ 52 := by decide
  generalize 2 ^ 52 - 1 = j at *
  generalize 2 ^ 52 = k at *
  have h3 : x * z * k ≤ c * y * k := by
    calc x * z * k = x * (z * k) := Nat.mul_assoc ..
      _ ≤ x * (c * j) := Nat.mul_le_mul_left _ h
      _ = c * (x * j) := Nat.mul_left_comm ..
      _ ≤ c * (y * k) := Nat.mul_le_mul_left _ h2
      _ = c * y * k := (Nat.mul_assoc ..).symm
  exact Nat.le_of_mul_le_mul_right h3 hk

/-- The values `fl(fl(d * t) + low)`, with `d = fl(up - low)` and `t` not above `1 - 2^-52`, do not pass `up`. -/
theorem shifted_le {lo up d t : F64} (hlo : F64.isFinite lo = true) (hup : F64.isFinite up = true)
    (hlt : signed lo < signed up) (hd : d = sub up lo) (hfin : F64.isFinite d = true) (ht0 : 0 ≤ signed t)
    (htf : F64.isFinite t = true) (hmt1 : mag t * 2 ^ 52 ≤ 2 ^ 1074 * (2 ^ 52 - 1)) :
    0 ≤ signed d ∧ 0 ≤ signed (mul d t) ∧ F64.isFinite (mul d t) = true ∧ signed (mul d t) + signed lo ≤ signed up := by
  obtain ⟨d1, d2⟩ := finite_num hfin
  obtain ⟨t1, t2⟩ := finite_num htf
  obtain ⟨l1, l2⟩ := finite_num (finite_flip hlo)
  obtain ⟨u1, u2⟩ := finite_num hup
  have he : signed up + signed (lo ^^^ 0x8000000000000000#64) = signed up - signed lo := by rw [signed_flip]; omega
  obtain ⟨e, hE⟩ : ∃ e : Nat, (e : Int) = signed up - signed lo := ⟨(signed up - signed lo).toNat, by omega⟩
  have hepos : 0 < e := by omega
  have hdd : d = pack false (roundMag e 1) := by
    rw [hd]
    unfold sub add
    simp only [l1, u1, l2, u2, Bool.or_self, Bool.false_eq_true, if_false]
    rw [he, ← hE, if_neg (by omega)]
    have : decide ((e : Int) < 0) = false := by simp
    rw [this, Int.natAbs_natCast]
  have hr := roundMag_le_inf e 1
  have hneg : neg d = false := by rw [hdd, neg_pack hr]
  have hlow : low d = roundMag e 1 := by rw [hdd, low_pack hr]
  have hsd : signed d = (uval (roundMag e 1) : Int) := by
    rw [signed_low, hneg, hlow]; simp
  generalize hround : roundMag e 1 = r at *
  have hround := hround.symm
  have hmt : signed t = (mag t : Int) := by
    cases hn : neg t with
    | false => unfold signed; rw [hn]; simp
    | true =>
      have := signed_nonpos hn
      unfold signed at this ht0 ⊢
      rw [hn] at this ht0 ⊢
      simp only [if_true] at this ht0 ⊢
      omega
  have hz : neg t = true → mag t = 0 := by
    intro hn
    have := signed_nonpos hn
    omega
  have hmd : mag d = uval r := by rw [mag_low, hlow]
  have hp : mul d t = pack (neg t) (roundMag (uval r * mag t) (2 ^ 1074)) := by
    unfold mul
    simp only [d1, t1, d2, t2, Bool.or_self, Bool.false_eq_true, if_false, Bool.false_and, Bool.and_false, hneg, hmd]
    cases neg t <;> rfl
  -- the product is at most d
  have hple : roundMag (uval r * mag t) (2 ^ 1074) ≤ r := by
    apply roundMag_le (Nat.two_pow_pos _)
    rw [Nat.mul_comm]
    apply Nat.mul_le_mul_right
    exact Nat.le_of_mul_le_mul_right (Nat.le_trans hmt1 (Nat.mul_le_mul_left _ (Nat.sub_le _ _))) (Nat.two_pow_pos 52)
  have hri : r < infBits := by rw [isFinite_low, hlow] at hfin; simpa using hfin
  have hpi := roundMag_le_inf (uval r * mag t) (2 ^ 1074)
  have hsp : signed (mul d t) = (uval (roundMag (uval r * mag t) (2 ^ 1074)) : Int) := by
    rw [hp, signed_pack hpi]
    cases hn : neg t with
    | false => simp
    | true =>
      rw [hz hn, Nat.mul_zero]
      have : roundMag 0 (2 ^ 1074) ≤ 0 := roundMag_le (Nat.two_pow_pos _) (by omega)
      rw [Nat.le_zero.mp this, uval_zero]
      simp
  refine ⟨by rw [hsd]; omega, by rw [hsp]; omega, ?_, ?_⟩
  · rw [isFinite_low, hp, low_pack hpi]
    simp only [decide_eq_true_eq]
    omega
  · rw [hsp]
    suffices h : uval (roundMag (uval r * mag t) (2 ^ 1074)) ≤ e by omega
    by_cases hle : uval r ≤ e
    · exact Nat.le_trans (uval_le_iff.mpr hple) hle
    · have hbig : 2 ^ 53 < r := Nat.lt_of_not_le fun hb => by
        have hru := uval_small hb
        have : e ≤ uval e := Nat.le_of_eq (uval_small (by omega)).symm
        have h1 : r ≤ e := by
          rw [hround]
          exact roundMag_le Nat.one_pos (by omega)
        omega
      have hpred : uval (r - 1) < e := Nat.lt_of_not_le fun hb => by
        have : roundMag e 1 ≤ r - 1 := roundMag_le Nat.one_pos (by omega)
        omega
      refine Nat.le_trans (uval_le_iff.mpr (roundMag_le (b := r - 1) (Nat.two_pow_pos _) ?_)) (Nat.le_of_lt hpred)
      exact scale_le (uval_pred hbig) hmt1

theorem chain_lt {D c Q x y N j : Nat} (hj : 0 < j) (h1 : D * c * j < x * Q * N) (h2 : x * N ≤ y * j) :
    D * c ≤ Q * y := by
  have h3 : D * c * j ≤ Q * y * j := by
    calc D * c * j ≤ x * Q * N := Nat.le_of_lt h1
      _ = Q * (x * N) := by rw [Nat.mul_comm x Q, Nat.mul_assoc]
      _ ≤ Q * (y * j) := Nat.mul_le_mul_left _ h2
      _ = Q * y * j := (Nat.mul_assoc ..).symm
  exact Nat.le_of_mul_le_mul_right h3 hj

/-- The number of steps drawn leaves one part in `2^52` of the width: with `m = fl(d / q)` and `t` not above `1 - 2^-48`,
an integer not above `fl(m * t)` is at most `(1 - 2^-52) d / q`. -/
theorem steps_le {D Q b T : Nat} (hQ : 0 < Q) (hT : T * 2 ^ 48 ≤ 2 ^ 1074 * (2 ^ 48 - 1)) (hb : 2 ^ 53 < b)
    (h : b ≤ roundMag (uval (roundMag (D * 2 ^ 1074) Q) * T) (2 ^ 1074)) :
    uval b * Q * 2 ^ 52 ≤ D * 2 ^ 1074 * (2 ^ 52 - 1) := by
  apply Nat.le_of_not_lt
  intro hlt
  obtain ⟨h1, h2⟩ := uval_third (Nat.le_of_lt hb)
  have hm : roundMag (D * 2 ^ 1074) Q ≤ b + 3 := roundMag_le hQ (chain_lt (by decide) hlt h1)
  have hy := uval_le_iff.mpr hm
  have hp := uval_pred hb
  have hv : roundMag (uval (roundMag (D * 2 ^ 1074) Q) * T) (2 ^ 1074) ≤ b - 1 := by
    apply roundMag_le (Nat.two_pow_pos _)
    generalize uval (roundMag (D * 2 ^ 1074) Q) = y at hy
    generalize uval b = x at *
    generalize uval (b - 1) = z at *
    generalize uval (b + 3) = w at *
    clear hlt h hm
    have h3 : y * (2 ^ 48 - 1) ≤ z * 2 ^ 48 := by
      rw [Nat.mul_sub_one]
      omega
    have hk : 0 < 2 ^ 48 := by decide
    generalize 2 ^ 48 - 1 = j at *
    generalize 2 ^ 48 = k at *
    generalize 2 ^ 1074 = c at *
    refine Nat.le_of_mul_le_mul_right (c := k) ?_ hk
    calc y * T * k = y * (T * k) := Nat.mul_assoc ..
      _ ≤ y * (c * j) := Nat.mul_le_mul_left _ hT
      _ = c * (y * j) := Nat.mul_left_comm ..
      _ ≤ c * (z * k) := Nat.mul_le_mul_left _ h3
      _ = c * z * k := (Nat.mul_assoc ..).symm
  omega

/-- The rounded difference of two doubles is not above the exact one, or the double before it is below. -/
theorem width_facts {lo up : F64} (hlo : F64.isFinite lo = true) (hup : F64.isFinite up = true)
    (hlt : signed lo < signed up) (hfin : F64.isFinite (sub up lo) = true) : ∃ e r : Nat,
      (e : Int) = signed up - signed lo ∧ r < infBits ∧ 0 < r ∧ sub up lo = pack false r ∧
      (uval r ≤ e ∨ (2 ^ 53 < r ∧ uval (r - 1) < e)) := by
  obtain ⟨l1, l2⟩ := finite_num (finite_flip hlo)
  obtain ⟨u1, u2⟩ := finite_num hup
  have he : signed up + signed (lo ^^^ 0x8000000000000000#64) = signed up - signed lo := by rw [signed_flip]; omega
  obtain ⟨e, hE⟩ : ∃ e : Nat, (e : Int) = signed up - signed lo := ⟨(signed up - signed lo).toNat, by omega⟩
  have hepos : 0 < e := by omega
  have hdd : sub up lo = pack false (roundMag e 1) := by
    unfold sub add
    simp only [l1, u1, l2, u2, Bool.or_self, Bool.false_eq_true, if_false]
    rw [he, ← hE, if_neg (by omega)]
    have : decide ((e : Int) < 0) = false := by simp
    rw [this, Int.natAbs_natCast]
  have hr := roundMag_le_inf e 1
  have hri : roundMag e 1 < infBits := by rw [isFinite_low, hdd, low_pack hr] at hfin; simpa using hfin
  have h1 : uval 1 = 1 := by decide
  have hpos := le_roundMag (num := e) (den := 1) (b := 1) Nat.one_pos (by decide) (by omega)
  refine ⟨e, roundMag e 1, hE, hri, hpos, hdd, ?_⟩
  generalize hround : roundMag e 1 = r at *
  by_cases hle : uval r ≤ e
  · exact Or.inl hle
  · have hbig : 2 ^ 53 < r := Nat.lt_of_not_le fun hb => by
      have hru := uval_small hb
      have : e ≤ uval e := Nat.le_of_eq (uval_small (by omega)).symm
      have h1 : r ≤ e := by
        rw [← hround]
        exact roundMag_le Nat.one_pos (by omega)
      omega
    refine Or.inr ⟨hbig, Nat.lt_of_not_le fun hb => ?_⟩
    have : roundMag e 1 ≤ r - 1 := roundMag_le Nat.one_pos (by omega)
    omega

theorem mag_signed {t : F64} (h : 0 ≤ signed t) : signed t = (mag t : Int) ∧ (neg t = true → mag t = 0) := by
  have e : signed t = if neg t then -(mag t : Int) else mag t := rfl
  cases hs : neg t <;> rw [hs] at e <;> simp only [if_true, if_false, Bool.false_eq_true] at e
  · exact ⟨e, fun h => by cases h⟩
  · exact ⟨by omega, fun _ => by omega⟩

/-- A product of finite numbers, the first not negative and the second positive. -/
theorem mul_nonneg_mag {a b : F64} (ha : F64.isFinite a = true) (hb : F64.isFinite b = true) (h0 : 0 ≤ signed a)
    (h1 : 0 ≤ signed b) : signed (mul a b) = (uval (roundMag (mag a * mag b) (2 ^ 1074)) : Int) ∧
      low (mul a b) = roundMag (mag a * mag b) (2 ^ 1074) := by
  obtain ⟨a1, a2⟩ := finite_num ha
  obtain ⟨b1, b2⟩ := finite_num hb
  obtain ⟨-, za⟩ := mag_signed h0
  obtain ⟨-, zb⟩ := mag_signed h1
  have hi := roundMag_le_inf (mag a * mag b) (2 ^ 1074)
  have hp : mul a b = pack (neg a != neg b) (roundMag (mag a * mag b) (2 ^ 1074)) := by
    unfold mul
    simp only [a1, b1, a2, b2, Bool.or_self, Bool.false_eq_true, if_false, Bool.false_and, Bool.and_false]
  rw [hp, signed_pack hi, low_pack hi]
  refine ⟨?_, rfl⟩
  have zero : ∀ {n : Nat}, n = 0 → uval (roundMag n (2 ^ 1074)) = 0 := by
    rintro n rfl
    have : roundMag 0 (2 ^ 1074) ≤ 0 := roundMag_le (Nat.two_pow_pos _) (by omega)
    rw [Nat.le_zero.mp this, uval_zero]
  cases hs : (neg a != neg b) with
  | false => simp
  | true =>
    have : mag a * mag b = 0 := by
      cases hna : neg a with
      | true => rw [za hna, Nat.zero_mul]
      | false =>
        cases hnb : neg b with
        | true => rw [zb hnb, Nat.mul_zero]
        | false => rw [hna, hnb] at hs; cases hs
    rw [zero this]
    simp

theorem div_sign {a b : F64} (ha : neg a = false) (hb : neg b = false) (h : F64.isFinite (div a b) = true) :
    0 ≤ signed (div a b) := by
  unfold div at h ⊢
  simp only [ha, hb] at h ⊢
  split at h
  · exact absurd h (by decide)
  · rename_i h1
    rw [if_neg h1]
    split at h
    · exact absurd h (by decide)
    · rename_i h2
      rw [if_neg h2]
      have e : (false != false) = false := rfl
      rw [e]
      split
      · exact signed_nonneg_of (neg_pack (Nat.le_refl _))
      · split
        · exact signed_nonneg_of (neg_pack (Nat.zero_le _))
        · exact signed_nonneg_of (neg_pack (roundMag_le_inf _ _))

/-- A finite number times one that is not above 1. -/
theorem mul_unit {m t : F64} (hm : F64.isFinite m = true) (ht : F64.isFinite t = true) (h0 : 0 ≤ signed m)
    (h1 : 0 ≤ signed t) (h : mag t ≤ 2 ^ 1074) : F64.isFinite (mul m t) = true := by
  rw [isFinite_low, (mul_nonneg_mag hm ht h0 h1).2]
  rw [isFinite_low] at hm
  refine decide_eq_true (Nat.lt_of_le_of_lt (roundMag_le (b := low m) (Nat.two_pow_pos _) ?_) (of_decide_eq_true hm))
  rw [← mag_low m, Nat.mul_comm (2 ^ 1074)]
  exact Nat.mul_le_mul_left _ h

/-- The values `fl(fl(k * q) + low)`, with `k` an integer not above `fl(fl(d / q) * t)`, `d = fl(up - low)` and `t` not above
`1 - 2^-48`, do not pass `up`. -/
theorem stepped_le {lo up q t k : F64} (hlo : F64.isFinite lo = true) (hup : F64.isFinite up = true)
    (hlt : signed lo < signed up) (hfin : F64.isFinite (sub up lo) = true) (hqf : F64.isFinite q = true) (hq0 : 0 < signed q)
    (hm : F64.isFinite (div (sub up lo) q) = true) (ht0 : 0 ≤ signed t) (htf : F64.isFinite t = true)
    (hT : mag t * 2 ^ 48 ≤ 2 ^ 1074 * (2 ^ 48 - 1)) (hkf : F64.isFinite k = true) (hk0 : 0 ≤ signed k)
    (hkm : signed k ≤ signed (mul (div (sub up lo) q) t)) (hki : signed k = 0 ∨ 0x3ff0000000000000 ≤ low k) :
    0 ≤ signed (mul k q) ∧ F64.isFinite (mul k q) = true ∧ signed (mul k q) + signed lo ≤ signed up := by
  obtain ⟨e, r, hE, hri, hr0, hd, hor⟩ := width_facts hlo hup hlt hfin
  obtain ⟨q1, q2⟩ := finite_num hqf
  obtain ⟨hqm, hqz⟩ := mag_signed (Int.le_of_lt hq0)
  obtain ⟨hkm', -⟩ := mag_signed hk0
  have hQ : 0 < mag q := by omega
  have hqn : neg q = false := by
    cases h : neg q with
    | false => rfl
    | true => have := hqz h; omega
  obtain ⟨d1, d2⟩ := finite_num hfin
  have hmd : mag (sub up lo) = uval r := by rw [mag_low, hd, low_pack (Nat.le_of_lt hri)]
  have hdn : neg (sub up lo) = false := by rw [hd, neg_pack (Nat.le_of_lt hri)]
  have hz : isZero q = false := by
    unfold isZero
    rw [show q.toNat % 2 ^ 63 = low q from rfl]
    simp only [decide_eq_false_iff_not]
    intro h0
    rw [mag_low, h0, uval_zero] at hQ
    omega
  have hdiv : div (sub up lo) q = pack false (roundMag (uval r * 2 ^ 1074) (mag q)) := by
    unfold div
    simp only [d1, q1, d2, q2, hz, Bool.or_self, Bool.false_eq_true, if_false, Bool.and_false, hmd, hdn, hqn]
    rfl
  have hmi := roundMag_le_inf (uval r * 2 ^ 1074) (mag q)
  have hm0 : 0 ≤ signed (div (sub up lo) q) := signed_nonneg_of (by rw [hdiv, neg_pack hmi])
  obtain ⟨hv, hvl⟩ := mul_nonneg_mag hm htf hm0 ht0
  have hmm : mag (div (sub up lo) q) = uval (roundMag (uval r * 2 ^ 1074) (mag q)) := by rw [mag_low, hdiv, low_pack hmi]
  rw [hmm] at hv
  have key : mag k * mag q * 2 ^ 52 ≤ uval r * 2 ^ 1074 * (2 ^ 52 - 1) := by
    rcases hki with h0 | h0
    · have : mag k = 0 := by omega
      rw [this, Nat.zero_mul, Nat.zero_mul]
      exact Nat.zero_le _
    · rw [mag_low k]
      refine steps_le hQ hT (by omega) ?_
      apply uval_le_iff.mp
      rw [← mag_low k]
      omega
  obtain ⟨hp, hpl⟩ := mul_nonneg_mag hkf hqf hk0 (Int.le_of_lt hq0)
  have hle : roundMag (mag k * mag q) (2 ^ 1074) ≤ r := by
    apply roundMag_le (Nat.two_pow_pos _)
    rw [Nat.mul_comm (2 ^ 1074)]
    exact Nat.le_of_mul_le_mul_right (Nat.le_trans key (Nat.mul_le_mul_left _ (Nat.sub_le _ _))) (Nat.two_pow_pos 52)
  refine ⟨by rw [hp]; omega, ?_, ?_⟩
  · rw [isFinite_low, hpl]
    exact decide_eq_true (Nat.lt_of_le_of_lt hle hri)
  · rw [hp]
    suffices h : uval (roundMag (mag k * mag q) (2 ^ 1074)) ≤ e by omega
    rcases hor with h1 | ⟨h1, h2⟩
    · exact Nat.le_trans (uval_le_iff.mpr hle) h1
    · refine Nat.le_trans (uval_le_iff.mpr (roundMag_le (b := r - 1) (Nat.two_pow_pos _) ?_)) (Nat.le_of_lt h2)
      have h3 := uval_pred h1
      generalize mag k * mag q = a at key
      generalize uval r = x at *
      generalize uval (r - 1) = y at *
      clear hle hp hpl hv hdiv hmi hmm
      have h4 : x * (2 ^ 52 - 1) ≤ y * 2 ^ 52 := by
        rw [Nat.mul_sub_one, Nat.mul_comm x, Nat.mul_comm y]
        exact Nat.sub_le_iff_le_add.mpr h3
      refine Nat.le_of_mul_le_mul_right (c := 2 ^ 52) ?_ (Nat.two_pow_pos 52)
      generalize 2 ^ 52 - 1 = j at *
      generalize 2 ^ 52 = n at *
      generalize 2 ^ 1074 = c at *
      calc a * n ≤ x * c * j := key
        _ = c * (x * j) := by rw [Nat.mul_comm x c, Nat.mul_assoc]
        _ ≤ c * (y * n) := Nat.mul_le_mul_left _ h4
        _ = c * y * n := (Nat.mul_assoc ..).symm

theorem zero_add_signed {z p : F64} (hz : F64.isFinite z = true) (h0 : signed z = 0) (hp : F64.isFinite p = true) :
    signed (add z p) = signed p := by
  obtain ⟨p1, -⟩ := finite_num hp
  have h1 := add_le hz hp p1 (by omega)
  have h2 := le_add hz hp p1 (by omega)
  omega

theorem uval_inf_gt {b : Nat} (h : b < infBits) : uval b < uval infBits := uval_lt h

/-- A number between two finite ones is finite. -/
theorem finite_between {a x b : F64} (ha : F64.isFinite a = true) (hb : F64.isFinite b = true)
    (hx : F64.isNaN x = false) (h1 : signed a ≤ signed x) (h2 : signed x ≤ signed b) : F64.isFinite x = true := by
  rw [isFinite_low] at ha hb ⊢
  simp only [decide_eq_true_eq] at ha hb ⊢
  have hi := low_le_inf hx
  have ha' := uval_inf_gt ha
  have hb' := uval_inf_gt hb
  rcases Nat.lt_or_eq_of_le hi with h | h
  · exact h
  · exfalso
    rw [signed_low a, signed_low x, h] at h1
    rw [signed_low b, signed_low x, h] at h2
    cases hn : neg x <;> rw [hn] at h1 h2 <;> revert h1 h2 <;> cases neg a <;> cases neg b <;> simp <;> omega

/-- A finite product has finite factors. -/
theorem mul_finite {a b : F64} (h : F64.isFinite (mul a b) = true) : F64.isFinite a = true ∧ F64.isFinite b = true := by
  have key : ∀ {x : F64}, F64.isNaN x = false → isInf x = false → F64.isFinite x = true := by
    intro x h1 h2
    rw [isNaN_low] at h1
    rw [isFinite_low]
    unfold isInf at h2
    rw [show x.toNat % 2 ^ 63 = low x from rfl] at h2
    simp at h1 h2 ⊢
    unfold infBits at *
    omega
  unfold mul at h
  split at h
  · exact absurd h (by decide)
  · rename_i hn
    simp only [Bool.or_eq_true, not_or, Bool.not_eq_true] at hn
    split at h
    · exact absurd h (by decide)
    · split at h
      · rw [isFinite_low, low_pack (Nat.le_refl _)] at h
        simp at h
      · rename_i hi
        simp only [Bool.or_eq_true, not_or, Bool.not_eq_true] at hi
        exact ⟨key hn.1 hi.1, key hn.2 hi.2⟩

theorem uval_big {b : Nat} (h : 2 ^ 53 * 2 ^ 1074 ≤ uval b) : 2 ^ 1074 ∣ uval b := by
  have hb : 2 ^ 53 ≤ b := Nat.le_of_not_lt fun hlt => by
    rw [uval_small (Nat.le_of_lt hlt)] at h
    have h1 : 2 ^ 53 * 1 ≤ 2 ^ 53 * 2 ^ 1074 := Nat.mul_le_mul_left _ (Nat.two_pow_pos _)
    exact absurd (Nat.le_trans h1 h) (by omega)
  obtain ⟨k, m, hm1, hm2, he⟩ : ∃ k m, 2 ^ 52 ≤ m ∧ m < 2 ^ 53 ∧ b = k * 2 ^ 52 + m :=
    ⟨b / 2 ^ 52 - 1, b % 2 ^ 52 + 2 ^ 52, by omega, by omega, by omega⟩
  rw [he, uval_scaled hm1 (by omega)] at h ⊢
  have hk : 1074 ≤ k := Nat.le_of_not_lt fun hlt => by
    have h1 : m * 2 ^ k < 2 ^ 53 * 2 ^ k := Nat.mul_lt_mul_of_pos_right hm2 (Nat.two_pow_pos _)
    have h2 : 2 ^ 53 * 2 ^ k ≤ 2 ^ 53 * 2 ^ 1074 := Nat.mul_le_mul_left _ (Nat.pow_le_pow_right (by decide) (Nat.le_of_lt hlt))
    exact absurd (Nat.lt_of_le_of_lt h h1) (Nat.not_lt.mpr h2)
  exact Nat.dvd_trans (Nat.pow_dvd_pow 2 hk) (Nat.dvd_mul_left _ _)

theorem div_facts (a c : Nat) (hc : 0 < c) : ((a / c : Nat) : Int) * c ≤ a ∧ (a : Int) < ((a / c : Nat) : Int) * c + c := by
  have h1 := Nat.div_mul_le_self a c
  have h2 := Nat.lt_div_mul_add (a := a) hc
  constructor
  · exact_mod_cast h1
  · exact_mod_cast h2

/-- `floorOf` is `floor`. -/
theorem floorOf_spec {x : F64} {v : Int} (hf : F64.isFinite x = true) (hv : realValue x = some v) (h0 : 0 ≤ v) :
    F64.isFinite (floorOf x) = true ∧ ∃ k : Nat, realValue (floorOf x) = some (k * 2 ^ 1074 : Int) ∧
      (k * 2 ^ 1074 : Int) ≤ v ∧ v < (k * 2 ^ 1074 : Int) + 2 ^ 1074 := by
  have hn := (finite_num hf).1
  rw [realValue_signed hn] at hv
  obtain rfl := Option.some.inj hv
  obtain ⟨hm, -⟩ := mag_signed h0
  obtain ⟨d1, d2⟩ := div_facts (mag x) (2 ^ 1074) (Nat.two_pow_pos _)
  rw [Int.natCast_pow] at d1 d2
  rw [hm]
  unfold floorOf
  split
  · next h =>
    obtain ⟨b, hb, hu, he⟩ := ofNat_exact h
    have hi := Nat.le_of_lt hb
    refine ⟨by rw [he, isFinite_low, low_pack hi]; exact decide_eq_true hb, mag x / 2 ^ 1074, ?_, d1, d2⟩
    rw [he, realValue_signed (isNaN_pack hi), signed_pack hi, hu, Int.natCast_mul, Int.natCast_pow]
    rfl
  · next h =>
    refine ⟨hf, mag x / 2 ^ 1074, ?_, d1, d2⟩
    have hdvd : 2 ^ 1074 ∣ mag x := by
      rw [mag_low] at h ⊢
      apply uval_big
      exact (Nat.le_div_iff_mul_le (Nat.two_pow_pos _)).mp (Nat.le_of_not_lt h)
    rw [realValue_signed hn, hm]
    have e := Nat.div_mul_cancel hdvd
    have e' : ((mag x / 2 ^ 1074 : Nat) : Int) * ((2 ^ 1074 : Nat) : Int) = (mag x : Int) := by
      rw [← Int.natCast_mul, e]
    rw [Int.natCast_pow] at e'
    exact congrArg some e'.symm

end IeeeLemmas

end CCS
