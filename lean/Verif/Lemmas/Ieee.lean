import Verif.Spec.Ieee
import Verif.Lemmas.Num
import Verif.Lemmas.Roulette

/-! Helper lemmas about double arithmetic: rounding never crosses a representable number. -/

namespace CCS

open Spec

namespace IeeeLemmas

open Ieee

/-- The number denoted by the 63 low bits, in units of `2^-1074`. -/
def uval (b : Nat) : Nat := magnitude (b / 2 ^ 52) (b % 2 ^ 52)

theorem uval_lt {a b : Nat} (h : a < b) : uval a < uval b := magnitude_lt h

theorem uval_le_iff {a b : Nat} : uval a ≤ uval b ↔ a ≤ b := by
  have := @magnitude_lt_iff b a
  unfold uval
  omega

theorem uval_scaled {k m : Nat} (h1 : 2 ^ 52 ≤ m) (h2 : m ≤ 2 ^ 53) : uval (k * 2 ^ 52 + m) = m * 2 ^ k := by
  unfold uval magnitude
  rcases Nat.lt_or_ge m (2 ^ 53) with h | h
  · have e1 : (k * 2 ^ 52 + m) / 2 ^ 52 = k + 1 := by omega
    have e2 : (k * 2 ^ 52 + m) % 2 ^ 52 = m - 2 ^ 52 := by omega
    rw [e1, e2, if_neg (by omega)]
    have : 2 ^ 52 + (m - 2 ^ 52) = m := by omega
    rw [this, Nat.add_sub_cancel]
  · have hm : m = 2 ^ 53 := by omega
    subst hm
    have e1 : (k * 2 ^ 52 + 2 ^ 53) / 2 ^ 52 = k + 2 := by omega
    have e2 : (k * 2 ^ 52 + 2 ^ 53) % 2 ^ 52 = 0 := by omega
    rw [e1, e2, if_neg (by omega)]
    have : k + 2 - 1 = k + 1 := by omega
    rw [this, Nat.add_zero, Nat.pow_succ 2 k, show (2 : Nat) ^ 53 = 2 ^ 52 * 2 from rfl, Nat.mul_assoc,
      Nat.mul_comm (2 ^ k) 2]

theorem uval_small {b : Nat} (h : b ≤ 2 ^ 53) : uval b = b := by
  rcases Nat.lt_or_ge b (2 ^ 52) with h1 | h1
  · unfold uval magnitude
    rw [if_pos (by omega), Nat.mod_eq_of_lt h1]
  · have := uval_scaled (k := 0) h1 h
    simpa using this

theorem roundDiv_le {n d b : Nat} (hd : 0 < d) (h : n ≤ d * b) : roundDiv n d ≤ b := by
  have h1 : n / d ≤ b := Nat.div_le_of_le_mul h
  have h2 := Nat.div_add_mod n d
  unfold roundDiv
  rcases Nat.lt_or_ge (n / d) b with h3 | h3
  · split
    · omega
    · split <;> omega
  · have h4 : n / d = b := by omega
    rw [h4] at h2 ⊢
    have h5 : n % d = 0 := by omega
    rw [h5, if_pos (by omega)]
    exact Nat.le_refl b

theorem le_roundDiv {n d b : Nat} (hd : 0 < d) (h : d * b ≤ n) : b ≤ roundDiv n d := by
  have h1 : b ≤ n / d := (Nat.le_div_iff_mul_le hd).mpr (by rw [Nat.mul_comm]; exact h)
  unfold roundDiv
  split
  · exact h1
  · split <;> omega

theorem log2_bounds {q : Nat} (hq : 2 ^ 53 ≤ q) :
    2 ^ (52 + (q.log2 - 52)) ≤ q ∧ q < 2 ^ (53 + (q.log2 - 52)) ∧ 53 ≤ q.log2 := by
  have hne : q ≠ 0 := by have := Nat.two_pow_pos 53; omega
  have h1 : 53 ≤ q.log2 := (Nat.le_log2 hne).mpr hq
  have h2 := Nat.log2_self_le hne
  have h3 := @Nat.lt_log2_self q
  have e1 : 52 + (q.log2 - 52) = q.log2 := by omega
  have e2 : 53 + (q.log2 - 52) = q.log2 + 1 := by omega
  rw [e1, e2]
  exact ⟨h2, h3, h1⟩

/-- Rounding a number at most a representable one gives at most that one. -/
theorem roundMag_le {num den b : Nat} (hd : 0 < den) (h : num ≤ den * uval b) : roundMag num den ≤ b := by
  have hq : num / den ≤ uval b := Nat.div_le_of_le_mul h
  unfold roundMag
  by_cases hs : num / den < 2 ^ 53
  · rw [if_pos hs]
    rcases Nat.lt_or_ge b (2 ^ 53) with hb | hb
    · rw [uval_small (by omega)] at h
      exact roundDiv_le hd h
    · have : roundDiv num den ≤ 2 ^ 53 := by
        refine roundDiv_le hd ?_
        have := (Nat.div_lt_iff_lt_mul hd).mp hs
        rw [Nat.mul_comm]; omega
      omega
  · rw [if_neg hs]
    obtain ⟨h1, h2, -⟩ := log2_bounds (Nat.not_lt.mp hs)
    generalize (num / den).log2 - 52 = k at *
    have hdk : 0 < den * 2 ^ k := Nat.mul_pos hd (Nat.two_pow_pos k)
    refine Nat.le_trans (Nat.min_le_left _ _) ?_
    have hlow : (k + 1) * 2 ^ 52 ≤ b := by
      have e : uval (k * 2 ^ 52 + 2 ^ 52) = 2 ^ 52 * 2 ^ k := uval_scaled (Nat.le_refl _) (by decide)
      have : uval (k * 2 ^ 52 + 2 ^ 52) ≤ uval b := by
        rw [e, ← Nat.pow_add]; omega
      have := uval_le_iff.mp this
      omega
    rcases Nat.lt_or_ge b ((k + 2) * 2 ^ 52) with hb | hb
    · obtain ⟨m, rfl⟩ : ∃ m, b = k * 2 ^ 52 + m := ⟨b - k * 2 ^ 52, by omega⟩
      rw [uval_scaled (by omega) (by omega)] at h
      have := roundDiv_le (b := m) hdk (by rw [Nat.mul_assoc, Nat.mul_comm (2 ^ k)]; exact h)
      omega
    · have : roundDiv num (den * 2 ^ k) ≤ 2 ^ 53 := by
        refine roundDiv_le hdk ?_
        have := (Nat.div_lt_iff_lt_mul hd).mp h2
        rw [Nat.pow_add, Nat.mul_comm] at this
        rw [Nat.mul_assoc, Nat.mul_comm (2 ^ k)]
        omega
      omega

/-- Rounding a number at least a representable one gives at least that one. -/
theorem le_roundMag {num den b : Nat} (hd : 0 < den) (hb : b ≤ infBits) (h : den * uval b ≤ num) :
    b ≤ roundMag num den := by
  have hq : uval b ≤ num / den := (Nat.le_div_iff_mul_le hd).mpr (by rw [Nat.mul_comm]; exact h)
  unfold roundMag
  by_cases hs : num / den < 2 ^ 53
  · rw [if_pos hs]
    have hb53 : b ≤ 2 ^ 53 := by
      refine uval_le_iff.mp ?_
      rw [uval_small (Nat.le_refl _)]
      omega
    rw [uval_small hb53] at h
    exact le_roundDiv hd h
  · rw [if_neg hs]
    obtain ⟨h1, h2, -⟩ := log2_bounds (Nat.not_lt.mp hs)
    generalize (num / den).log2 - 52 = k at *
    have hdk : 0 < den * 2 ^ k := Nat.mul_pos hd (Nat.two_pow_pos k)
    refine Nat.le_min.mpr ⟨?_, hb⟩
    have hup : b < k * 2 ^ 52 + 2 ^ 53 := by
      rcases Nat.lt_or_ge b (k * 2 ^ 52 + 2 ^ 53) with h3 | h3
      · exact h3
      · have := uval_le_iff.mpr h3
        rw [uval_scaled (by decide) (Nat.le_refl _), ← Nat.pow_add] at this
        omega
    have hm52 : 2 ^ 52 ≤ roundDiv num (den * 2 ^ k) := by
      refine le_roundDiv hdk ?_
      have := (Nat.le_div_iff_mul_le hd).mp h1
      rw [Nat.pow_add, Nat.mul_comm] at this
      rw [Nat.mul_assoc, Nat.mul_comm (2 ^ k)]
      omega
    rcases Nat.lt_or_ge b (k * 2 ^ 52 + 2 ^ 52) with h3 | h3
    · omega
    · obtain ⟨m, rfl⟩ : ∃ m, b = k * 2 ^ 52 + m := ⟨b - k * 2 ^ 52, by omega⟩
      rw [uval_scaled (by omega) (by omega)] at h
      have := le_roundDiv (b := m) hdk (by rw [Nat.mul_assoc, Nat.mul_comm (2 ^ k)]; exact h)
      omega

/-- Rounding a representable number changes nothing. -/
theorem roundMag_exact {b den : Nat} (hd : 0 < den) (hb : b ≤ infBits) : roundMag (uval b * den) den = b :=
  Nat.le_antisymm (roundMag_le hd (by rw [Nat.mul_comm]; exact Nat.le_refl _))
    (le_roundMag hd hb (by rw [Nat.mul_comm]; exact Nat.le_refl _))

theorem roundMag_le_inf (num den : Nat) : roundMag num den ≤ infBits := by
  unfold roundMag
  split
  · rename_i h
    rcases Nat.eq_zero_or_pos den with rfl | hd
    · unfold roundDiv infBits; simp; split <;> omega
    · have : roundDiv num den ≤ 2 ^ 53 := by
        refine roundDiv_le hd ?_
        have := (Nat.div_lt_iff_lt_mul hd).mp h
        rw [Nat.mul_comm]; omega
      unfold infBits
      omega
  · exact Nat.min_le_right _ _

/-- The 63 low bits. -/
def low (x : F64) : Nat := x.toNat % 2 ^ 63

theorem pack_toNat {s : Bool} {b : Nat} (hb : b ≤ infBits) : (pack s b).toNat = if s then 2 ^ 63 + b else b := by
  unfold infBits at hb
  unfold pack
  rw [BitVec.toNat_ofNat]
  split <;> exact Nat.mod_eq_of_lt (by omega)

theorem low_pack {s : Bool} {b : Nat} (hb : b ≤ infBits) : low (pack s b) = b := by
  unfold low
  rw [pack_toNat hb]
  unfold infBits at hb
  split <;> omega

theorem neg_pack {s : Bool} {b : Nat} (hb : b ≤ infBits) : neg (pack s b) = s := by
  unfold neg
  rw [pack_toNat hb]
  unfold infBits at hb
  cases s
  · simp; omega
  · simp

theorem pack_self (x : F64) : pack (neg x) (low x) = x := by
  have := x.isLt
  unfold pack neg low
  apply BitVec.eq_of_toNat_eq
  rw [BitVec.toNat_ofNat]
  by_cases h : 2 ^ 63 ≤ x.toNat
  · simp only [h, decide_true, if_true]; omega
  · simp only [h, decide_false, Bool.false_eq_true, if_false]; omega

theorem mag_low (x : F64) : mag x = uval (low x) := by
  have := x.isLt
  unfold mag uval low
  have e1 : x.toNat / 2 ^ 52 % 2 ^ 11 = x.toNat % 2 ^ 63 / 2 ^ 52 := by omega
  have e2 : x.toNat % 2 ^ 52 = x.toNat % 2 ^ 63 % 2 ^ 52 := by omega
  rw [e1, ← e2]

theorem isNaN_low (x : F64) : F64.isNaN x = decide (infBits < low x) := rfl

theorem isFinite_low (x : F64) : F64.isFinite x = decide (low x < infBits) := rfl

theorem isNaN_pack {s : Bool} {b : Nat} (hb : b ≤ infBits) : F64.isNaN (pack s b) = false := by
  rw [isNaN_low, low_pack hb]
  simp; omega

theorem realValue_signed {x : F64} (h : F64.isNaN x = false) : realValue x = some (signed x) := by
  rw [realValue_eq, h]
  simp only [Bool.false_eq_true, if_false, signed, neg, decide_eq_true_eq]
  have := mag_low x
  unfold uval low at this
  rw [this]

theorem finite_num {x : F64} (h : F64.isFinite x = true) : F64.isNaN x = false ∧ isInf x = false := by
  rw [isFinite_low, decide_eq_true_eq] at h
  constructor
  · rw [isNaN_low]; simp; omega
  · unfold isInf; rw [show x.toNat % 2 ^ 63 = low x from rfl]
    unfold infBits at h; simp; omega

/-- A sum or a product of finite numbers is a number. -/
theorem add_num {a b : F64} (ha : F64.isFinite a = true) (hb : F64.isFinite b = true) :
    F64.isNaN (add a b) = false := by
  obtain ⟨a1, a2⟩ := finite_num ha
  obtain ⟨b1, b2⟩ := finite_num hb
  unfold add
  simp only [a1, b1, a2, b2, Bool.or_self, Bool.false_eq_true, if_false]
  split
  · exact isNaN_pack (Nat.zero_le _)
  · exact isNaN_pack (roundMag_le_inf _ _)

theorem mul_num {a b : F64} (ha : F64.isFinite a = true) (hb : F64.isFinite b = true) :
    F64.isNaN (mul a b) = false := by
  obtain ⟨a1, a2⟩ := finite_num ha
  obtain ⟨b1, b2⟩ := finite_num hb
  unfold mul
  simp only [a1, b1, a2, b2, Bool.or_self, Bool.false_eq_true, if_false, Bool.false_and, Bool.and_false]
  exact isNaN_pack (roundMag_le_inf _ _)

/-- Adding a zero of any sign changes no number but the negative zero. -/
theorem add_zero {a z : F64} (ha : F64.isNaN a = false) (hne : a ≠ 0x8000000000000000#64) (hz : realValue z = some 0) :
    add a z = a := by
  have hzn : F64.isNaN z = false := by
    cases h : F64.isNaN z with
    | false => rfl
    | true => rw [(realValue_none z).mpr h] at hz; cases hz
  have hs : signed z = 0 := by
    rw [realValue_signed hzn] at hz; exact Option.some.inj hz
  have hzl : low z = 0 := by
    have h1 : mag z = 0 := by
      unfold signed at hs; split at hs <;> omega
    rw [mag_low] at h1
    have h2 : uval 0 = 0 := uval_small (Nat.zero_le _)
    have := (uval_le_iff (a := low z) (b := 0)).mp (by omega)
    omega
  have hzi : isInf z = false := by
    unfold isInf; rw [show z.toNat % 2 ^ 63 = low z from rfl, hzl]; rfl
  unfold add
  simp only [ha, hzn, Bool.or_self, Bool.false_eq_true, if_false]
  by_cases hi : isInf a = true
  · simp only [hi, hzi, if_true, Bool.false_and, Bool.false_eq_true, if_false]
  · simp only [hi, hzi, Bool.false_eq_true, if_false, hs, Int.add_zero]
    have hlow : low a ≤ infBits := by rw [isNaN_low] at ha; simpa using ha
    by_cases h0 : signed a = 0
    · rw [if_pos h0]
      have h1 : mag a = 0 := by
        unfold signed at h0; split at h0 <;> omega
      have hal : low a = 0 := by
        rw [mag_low] at h1
        have h2 : uval 0 = 0 := uval_small (Nat.zero_le _)
        have := (uval_le_iff (a := low a) (b := 0)).mp (by omega)
        omega
      cases hn : neg a with
      | true =>
        exfalso
        apply hne
        rw [← pack_self a, hn, hal]
        rfl
      | false =>
        rw [Bool.false_and]
        conv => rhs; rw [← pack_self a, hn, hal]
    · rw [if_neg h0]
      have e1 : (signed a).natAbs = uval (low a) := by
        rw [← mag_low]; unfold signed; split <;> omega
      have e2 : decide (signed a < 0) = neg a := by
        have : mag a ≠ 0 := by
          intro h; apply h0; unfold signed; rw [h]; simp
        unfold signed
        cases neg a
        · simp
        · simp; omega
      have := roundMag_exact (b := low a) (den := 1) (by decide) hlow
      rw [e1, e2]
      rw [Nat.mul_one] at this
      rw [this, pack_self]

/-- A sum is never the negative zero when its first term is not. -/
theorem add_ne_negzero {a b : F64} (hne : a ≠ 0x8000000000000000#64) : add a b ≠ 0x8000000000000000#64 := by
  unfold add
  split
  · decide
  · split
    · split
      · decide
      · exact hne
    · split
      · rename_i h
        intro hb
        rw [hb] at h
        exact absurd h (by decide)
      · split
        · rename_i h0
          intro h
          have h1 := congrArg neg h
          rw [neg_pack (Nat.zero_le _)] at h1
          have h2 : neg a = true := by
            have : (neg a && neg b) = true := h1
            simp at this; exact this.1
          have h3 : neg b = true := by
            have : (neg a && neg b) = true := h1
            simp at this; exact this.2
          apply hne
          have h4 : mag a = 0 := by
            unfold signed at h0; simp only [h2, h3, if_true] at h0; omega
          have hal : low a = 0 := by
            rw [mag_low] at h4
            have h5 : uval 0 = 0 := uval_small (Nat.zero_le _)
            have := (uval_le_iff (a := low a) (b := 0)).mp (by omega)
            omega
          rw [← pack_self a, h2, hal]
          rfl
        · rename_i h0
          intro h
          have h1 := congrArg low h
          rw [low_pack (roundMag_le_inf _ _)] at h1
          have h2 : low (0x8000000000000000#64) = 0 := by decide
          rw [h2] at h1
          have h3 := le_roundMag (num := (signed a + signed b).natAbs) (den := 1) (b := 1) (by decide) (by decide)
            (by rw [uval_small (by decide)]; omega)
          omega

/-- Integers below `2^53` are doubles. -/
theorem ofNat_exact {u : Nat} (h : u < 2 ^ 53) : ∃ b, b < infBits ∧ uval b = u * 2 ^ 1074 ∧ ofNat u = pack false b := by
  have key : ∃ b, b < infBits ∧ uval b = u * 2 ^ 1074 := by
    rcases Nat.eq_zero_or_pos u with rfl | hu
    · exact ⟨0, by decide, by rw [uval_small (Nat.zero_le _), Nat.zero_mul]⟩
    · have h1 := Nat.log2_self_le (n := u) (by omega)
      have h2 := @Nat.lt_log2_self u
      have h3 : u.log2 ≤ 52 := by
        have := (Nat.log2_lt (n := u) (k := 53) (by omega)).mpr h
        omega
      generalize u.log2 = k at *
      obtain ⟨j, hj⟩ : ∃ j, k + j = 52 := ⟨52 - k, by omega⟩
      have hm1 : 2 ^ 52 ≤ u * 2 ^ j := by
        calc 2 ^ 52 = 2 ^ k * 2 ^ j := by rw [← Nat.pow_add, hj]
          _ ≤ _ := Nat.mul_le_mul_right _ h1
      have hm2 : u * 2 ^ j < 2 ^ 53 := by
        calc u * 2 ^ j < 2 ^ (k + 1) * 2 ^ j := Nat.mul_lt_mul_of_pos_right h2 (Nat.two_pow_pos j)
          _ = 2 ^ 53 := by rw [← Nat.pow_add]; congr 1; omega
      refine ⟨(1022 + k) * 2 ^ 52 + u * 2 ^ j, ?_, ?_⟩
      · unfold infBits; omega
      · rw [uval_scaled hm1 (by omega), Nat.mul_assoc, ← Nat.pow_add]
        congr 2
        omega
  obtain ⟨b, h1, h2⟩ := key
  refine ⟨b, h1, h2, ?_⟩
  unfold ofNat
  rw [← h2]
  have := roundMag_exact (b := b) (den := 1) (by decide) (by omega)
  rw [Nat.mul_one] at this
  rw [this]

theorem signed_pack {s : Bool} {b : Nat} (hb : b ≤ infBits) : signed (pack s b) = if s then -(uval b : Int) else uval b := by
  unfold signed
  rw [neg_pack hb, mag_low, low_pack hb]

theorem realValue_zero : realValue F64.zero = some 0 := by decide +kernel

theorem realValue_one : realValue F64.one = some (2 ^ 1074) := by decide +kernel

/-- The first guess of a selection among at most `2^53` areas is one of them. -/
theorem guess_good {n : Nat} {t : F64} (h0 : 0 < n) (h : n ≤ 2 ^ 53) (ht : UnitDraw t) : GoodGuess guess n t := by
  obtain ⟨a, b, x, h1, h2, h3, h4, h5⟩ := ht
  rw [realValue_zero] at h1; cases h1
  rw [realValue_one] at h2
  have hb : b = 2 ^ 1074 := (Option.some.inj h2).symm
  have htn : F64.isNaN t = false := by
    cases hh : F64.isNaN t with
    | false => rfl
    | true => rw [(realValue_none t).mpr hh] at h3; cases h3
  rw [realValue_signed htn] at h3
  have hx : signed t = x := Option.some.inj h3
  obtain ⟨c, hc1, hc2, hc3⟩ := ofNat_exact (u := n - 1) (by omega)
  have hu : (((n : Int) - 1).toNat) = n - 1 := by omega
  have hmt : mag t < 2 ^ 1074 := by
    have e : ((2 ^ 1074 : Nat) : Int) = 2 ^ 1074 := by simp
    rw [← e] at hb
    generalize 2 ^ 1074 = P at *
    unfold signed at hx
    split at hx <;> omega
  have hti : isInf t = false := by
    cases hh : isInf t with
    | false => rfl
    | true =>
      exfalso
      unfold isInf at hh
      rw [decide_eq_true_eq] at hh
      have : uval infBits ≤ mag t := by
        rw [mag_low, uval_le_iff]; unfold low infBits; omega
      have h6 : 2 ^ 1074 ≤ uval infBits := by decide +kernel
      exact Nat.lt_irrefl _ (Nat.lt_of_lt_of_le hmt (Nat.le_trans h6 this))
  have hcn := isNaN_pack (s := false) (b := c) (by omega)
  have hci : isInf (pack false c) = false := by
    unfold isInf
    rw [show (pack false c).toNat % 2 ^ 63 = low (pack false c) from rfl, low_pack (by omega)]
    unfold infBits at hc1; simp; omega
  have hmul : mul (ofNat (n - 1)) t = pack (neg t) (roundMag (uval c * mag t) (2 ^ 1074)) := by
    rw [hc3]
    unfold mul
    simp only [hcn, htn, hci, hti, Bool.or_self, Bool.false_and, Bool.and_false, Bool.false_eq_true, if_false]
    rw [neg_pack (by omega), mag_low (pack false c), low_pack (by omega)]
    simp
  have hle : roundMag (uval c * mag t) (2 ^ 1074) ≤ c := by
    refine roundMag_le (Nat.two_pow_pos _) ?_
    rw [Nat.mul_comm]
    exact Nat.mul_le_mul_right _ (Nat.le_of_lt hmt)
  have hval : uval (roundMag (uval c * mag t) (2 ^ 1074)) ≤ (n - 1) * 2 ^ 1074 := by
    rw [← hc2]; exact uval_le_iff.mpr hle
  unfold GoodGuess guess
  rw [hu, hmul]
  unfold trunc
  rw [signed_pack (roundMag_le_inf _ _)]
  cases hn : neg t with
  | true =>
    have hm0 : mag t = 0 := by
      unfold signed at hx
      rw [hn] at hx
      simp only [if_true] at hx
      omega
    have h7 : roundMag 0 (2 ^ 1074) = 0 := Nat.le_zero.mp (roundMag_le (Nat.two_pow_pos _) (Nat.zero_le _))
    rw [hm0, Nat.mul_zero, h7, uval_small (Nat.zero_le _)]
    simp
    exact h0
  | false =>
    simp only [Bool.false_eq_true, if_false]
    generalize uval (roundMag (uval c * mag t) (2 ^ 1074)) = v at *
    have e : (2 ^ 1074 : Int) = ((2 ^ 1074 : Nat) : Int) := by simp
    rw [e, ← Int.ofNat_tdiv]
    have h8 : v / 2 ^ 1074 ≤ n - 1 := Nat.div_le_of_le_mul (by rw [Nat.mul_comm]; exact hval)
    generalize v / 2 ^ 1074 = w at *
    omega

/-- A finite sum has finite terms. -/
theorem add_finite {a b : F64} (h : F64.isFinite (add a b) = true) : F64.isFinite a = true ∧ F64.isFinite b = true := by
  have key : ∀ {x : F64}, F64.isNaN x = false → isInf x = false → F64.isFinite x = true := by
    intro x h1 h2
    rw [isNaN_low] at h1
    rw [isFinite_low]
    unfold isInf at h2
    rw [show x.toNat % 2 ^ 63 = low x from rfl] at h2
    simp at h1 h2 ⊢
    unfold infBits at *
    omega
  have hinf : ∀ {x : F64}, isInf x = true → F64.isFinite x = false := by
    intro x h1
    unfold isInf at h1
    rw [isFinite_low]
    rw [show x.toNat % 2 ^ 63 = low x from rfl] at h1
    simp at h1 ⊢
    unfold infBits
    omega
  unfold add at h
  split at h
  · exact absurd h (by decide)
  · rename_i hn
    simp only [Bool.or_eq_true, not_or, Bool.not_eq_true] at hn
    split at h
    · rename_i hi
      split at h
      · exact absurd h (by decide)
      · rw [hinf hi] at h; cases h
    · rename_i hi
      split at h
      · rename_i hj
        rw [hinf hj] at h; cases h
      · rename_i hj
        exact ⟨key hn.1 (by simpa using hi), key hn.2 (by simpa using hj)⟩

theorem foldl_finite {l : List F64} : ∀ {acc : F64}, F64.isFinite (l.foldl add acc) = true → F64.isFinite acc = true := by
  induction l with
  | nil => intro acc h; exact h
  | cons a l ih => intro acc h; exact (add_finite (ih h)).1

theorem foldl_ne_negzero {l : List F64} : ∀ {acc : F64}, acc ≠ 0x8000000000000000#64 →
    l.foldl add acc ≠ 0x8000000000000000#64 := by
  induction l with
  | nil => intro acc h; exact h
  | cons a l ih => intro acc h; exact ih (add_ne_negzero h)

/-- Zero times a finite number is a zero. -/
theorem zero_mul {z a : F64} (hz : realValue z = some 0) (ha : F64.isFinite a = true) : realValue (mul z a) = some 0 := by
  have hzn : F64.isNaN z = false := by
    cases h : F64.isNaN z with
    | false => rfl
    | true => rw [(realValue_none z).mpr h] at hz; cases hz
  have hm : mag z = 0 := by
    rw [realValue_signed hzn] at hz
    have := Option.some.inj hz
    unfold signed at this
    split at this <;> omega
  have hzi : isInf z = false := by
    cases h : isInf z with
    | false => rfl
    | true =>
      exfalso
      unfold isInf at h
      rw [show z.toNat % 2 ^ 63 = low z from rfl, decide_eq_true_eq] at h
      rw [mag_low, h] at hm
      exact absurd hm (by decide +kernel)
  obtain ⟨h1, h2⟩ := finite_num ha
  have h7 : roundMag 0 (2 ^ 1074) = 0 := Nat.le_zero.mp (roundMag_le (Nat.two_pow_pos _) (Nat.zero_le _))
  have e : mul z a = pack (neg z != neg a) 0 := by
    unfold mul
    simp only [hzn, h1, hzi, h2, Bool.or_self, Bool.false_and, Bool.and_false, Bool.false_eq_true, if_false, hm, Nat.zero_mul, h7]
  rw [e, realValue_signed (isNaN_pack (Nat.zero_le _)), signed_pack (Nat.zero_le _), uval_small (Nat.zero_le _)]
  split <;> rfl

end IeeeLemmas

end CCS
