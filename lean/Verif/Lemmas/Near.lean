import Verif.Spec.Chance
import Verif.Lemmas.FloatRange
import Verif.Lemmas.TreeSpace
import Verif.Lemmas.Restore
import Mathlib.Tactic.Linarith
import Mathlib.Tactic.Ring
import Mathlib.Tactic.Positivity
import Mathlib.Tactic.FieldSimp
import Mathlib.Tactic.NormNum

/-! How far rounded sums, products and inverses are from the exact ones. -/

namespace CCS.IeeeLemmas

open CCS CCS.Spec Ieee

theorem roundDiv_near {n d : Nat} (hd : 0 < d) :
    2 * (roundDiv n d * d) ≤ 2 * n + d ∧ 2 * n ≤ 2 * (roundDiv n d * d) + d := by
  have e : n / d * d + n % d = n := by rw [Nat.mul_comm]; exact Nat.div_add_mod n d
  have hm : n % d < d := Nat.mod_lt _ hd
  unfold roundDiv
  split
  · omega
  · split
    · rw [Nat.add_mul, Nat.one_mul]; omega
    · rcases Nat.mod_two_eq_zero_or_one (n / d) with h | h
      · rw [h, Nat.add_zero]; omega
      · rw [h, Nat.add_mul, Nat.one_mul]; omega

/-- A rounded quotient differs from the exact one by a relative `2^-53`, or by half a unit when it is small. -/
theorem roundMag_near {num den : Nat} (hd : 0 < den) (hf : roundMag num den < infBits) :
    (num < 2 ^ 53 * den ∧ 2 * (uval (roundMag num den) * den) ≤ 2 * num + den ∧ 2 * num ≤ 2 * (uval (roundMag num den) * den) + den) ∨
    (2 ^ 53 * (uval (roundMag num den) * den) ≤ 2 ^ 53 * num + num ∧ 2 ^ 53 * num ≤ 2 ^ 53 * (uval (roundMag num den) * den) + num) := by
  unfold roundMag at hf ⊢
  by_cases hs : num / den < 2 ^ 53
  · rw [if_pos hs]
    have hlt : num < 2 ^ 53 * den := (Nat.div_lt_iff_lt_mul hd).mp hs
    have h1 : roundDiv num den ≤ 2 ^ 53 := roundDiv_le hd (by rw [Nat.mul_comm]; exact Nat.le_of_lt hlt)
    rw [uval_small h1]
    exact .inl ⟨hlt, roundDiv_near hd⟩
  · rw [if_neg hs] at hf ⊢
    have hs := Nat.le_of_not_lt hs
    obtain ⟨b1, b2, b3⟩ := log2_bounds hs
    generalize (num / den).log2 - 52 = k at *
    have hm : k * 2 ^ 52 + roundDiv num (den * 2 ^ k) < infBits := by
      rcases Nat.lt_or_ge (k * 2 ^ 52 + roundDiv num (den * 2 ^ k)) infBits with h | h
      · exact h
      · rw [Nat.min_eq_right h] at hf; exact absurd hf (Nat.lt_irrefl _)
    rw [Nat.min_eq_left (Nat.le_of_lt hm)]
    have hp : 0 < den * 2 ^ k := Nat.mul_pos hd (Nat.two_pow_pos _)
    have l1 : den * 2 ^ (52 + k) ≤ num := by
      rw [Nat.mul_comm]; exact (Nat.le_div_iff_mul_le hd).mp b1
    have l2 : num < den * 2 ^ (53 + k) := by
      rw [Nat.mul_comm]; exact (Nat.div_lt_iff_lt_mul hd).mp b2
    have e1 : den * 2 ^ (52 + k) = den * 2 ^ k * 2 ^ 52 := by rw [Nat.pow_add, Nat.mul_comm (2 ^ 52), Nat.mul_assoc]
    have e2 : den * 2 ^ (53 + k) = den * 2 ^ k * 2 ^ 53 := by rw [Nat.pow_add, Nat.mul_comm (2 ^ 53), Nat.mul_assoc]
    rw [e1] at l1
    rw [e2] at l2
    have m1 : 2 ^ 52 ≤ roundDiv num (den * 2 ^ k) := le_roundDiv hp l1
    have m2 : roundDiv num (den * 2 ^ k) ≤ 2 ^ 53 := roundDiv_le hp (Nat.le_of_lt l2)
    rw [uval_scaled m1 m2]
    obtain ⟨r1, r2⟩ := roundDiv_near (n := num) hp
    have e3 : roundDiv num (den * 2 ^ k) * 2 ^ k * den = roundDiv num (den * 2 ^ k) * (den * 2 ^ k) := by
      rw [Nat.mul_assoc, Nat.mul_comm (2 ^ k)]
    rw [e3]
    generalize roundDiv num (den * 2 ^ k) * (den * 2 ^ k) = x at *
    generalize den * 2 ^ k = y at *
    right
    omega

/-- The unit of the magnitudes. -/
def grain : ℚ := 2 ^ 1074

theorem grain_pos : 0 < grain := pow_pos (by norm_num) _

theorem toRat_eq (x : F64) : toRat x = (signed x : ℚ) / grain := rfl

theorem toRat_mag {x : F64} (h : 0 ≤ signed x) : toRat x = (mag x : ℚ) / grain := by
  rw [toRat_eq, (mag_signed h).1]
  rfl

theorem toRat_nonneg {x : F64} (h : 0 ≤ signed x) : 0 ≤ toRat x :=
  div_nonneg (by exact_mod_cast h) grain_pos.le

theorem toRat_le {x y : F64} : toRat x ≤ toRat y ↔ signed x ≤ signed y := by
  rw [toRat_eq, toRat_eq, div_le_div_iff_of_pos_right grain_pos]
  exact_mod_cast Iff.rfl

theorem toRat_lt {x y : F64} : toRat x < toRat y ↔ signed x < signed y := by
  rw [toRat_eq, toRat_eq, div_lt_div_iff_of_pos_right grain_pos]
  exact_mod_cast Iff.rfl

theorem grain_nat : ((2 ^ 1074 : ℕ) : ℚ) = grain := by
  unfold grain
  rw [Nat.cast_pow]
  rfl

theorem toRat_zero : toRat F64.zero = 0 := by
  rw [toRat_eq, show signed F64.zero = 0 by decide +kernel]
  simp

theorem toRat_one : toRat F64.one = 1 := by
  rw [toRat_eq, show signed F64.one = ((2 ^ 1074 : ℕ) : Int) by decide +kernel, Int.cast_natCast, grain_nat]
  exact div_self grain_pos.ne'

/-- A sum of numbers that are not negative. -/
theorem add_near {a b : F64} (ha : F64.isFinite a = true) (hb : F64.isFinite b = true) (h0 : 0 ≤ signed a) (h1 : 0 ≤ signed b)
    (hf : F64.isFinite (add a b) = true) : 0 ≤ signed (add a b) ∧
      |toRat (add a b) - (toRat a + toRat b)| ≤ (toRat a + toRat b) / 2 ^ 53 := by
  obtain ⟨a1, a2⟩ := finite_num ha
  obtain ⟨b1, b2⟩ := finite_num hb
  have e : toRat a + toRat b = ((signed a + signed b : Int) : ℚ) / grain := by
    rw [toRat_eq, toRat_eq, ← add_div]; push_cast; rfl
  rw [e]
  have hs : 0 ≤ signed a + signed b := by omega
  unfold add at hf ⊢
  simp only [a1, b1, a2, b2, Bool.or_self, Bool.false_eq_true, if_false] at hf ⊢
  by_cases hz : signed a + signed b = 0
  · rw [if_pos hz] at hf ⊢
    rw [hz, toRat_eq, signed_pack (Nat.zero_le _), uval_zero]
    simp
  · rw [if_neg hz] at hf ⊢
    have hn : decide (signed a + signed b < 0) = false := decide_eq_false (by omega)
    rw [hn] at hf ⊢
    obtain ⟨n, hn⟩ := Int.eq_ofNat_of_zero_le hs
    rw [hn, Int.natAbs_natCast] at hf ⊢
    have hi := roundMag_le_inf n 1
    rw [isFinite_low, low_pack hi, decide_eq_true_eq] at hf
    rw [toRat_eq, signed_pack hi]
    simp only [Bool.false_eq_true, if_false]
    refine ⟨Int.natCast_nonneg _, ?_⟩
    rw [← sub_div, abs_div, abs_of_pos grain_pos, div_div, mul_comm grain, ← div_div, div_le_div_iff_of_pos_right grain_pos]
    have key : 2 ^ 53 * uval (roundMag n 1) ≤ 2 ^ 53 * n + n ∧ 2 ^ 53 * n ≤ 2 ^ 53 * uval (roundMag n 1) + n := by
      rcases roundMag_near (Nat.one_pos) hf with h | h
      · omega
      · omega
    generalize uval (roundMag n 1) = v at *
    obtain ⟨k1, k2⟩ := key
    have q1 : (2 : ℚ) ^ 53 * v ≤ 2 ^ 53 * n + n := by exact_mod_cast k1
    have q2 : (2 : ℚ) ^ 53 * n ≤ 2 ^ 53 * v + n := by exact_mod_cast k2
    rw [Int.cast_natCast, Int.cast_natCast, abs_le]
    constructor <;> linarith

theorem near_abs {num den : Nat} (hd : 0 < den) (hf : roundMag num den < infBits) :
    |(uval (roundMag num den) : ℚ) - num / den| ≤ num / den / 2 ^ 53 ∨
    ((num : ℚ) / den < 2 ^ 53 ∧ |(uval (roundMag num den) : ℚ) - num / den| ≤ 1 / 2) := by
  have hq : (0 : ℚ) < den := by exact_mod_cast hd
  have e : |(uval (roundMag num den) : ℚ) - num / den| = |(uval (roundMag num den) : ℚ) * den - num| / den := by
    rw [← abs_of_pos hq, ← abs_div, abs_of_pos hq, sub_div, mul_div_cancel_right₀ _ hq.ne']
  rw [e]
  rcases roundMag_near hd hf with ⟨h0, h1, h2⟩ | ⟨h1, h2⟩
  · generalize uval (roundMag num den) = v at *
    right
    have q0 : (num : ℚ) < 2 ^ 53 * den := by exact_mod_cast h0
    have q1 : (2 : ℚ) * (v * den) ≤ 2 * num + den := by exact_mod_cast h1
    have q2 : (2 : ℚ) * num ≤ 2 * (v * den) + den := by exact_mod_cast h2
    refine ⟨by rw [div_lt_iff₀ hq]; exact q0, ?_⟩
    rw [div_le_iff₀ hq, abs_le]
    constructor <;> linarith
  · generalize uval (roundMag num den) = v at *
    left
    have q1 : (2 : ℚ) ^ 53 * (v * den) ≤ 2 ^ 53 * num + num := by exact_mod_cast h1
    have q2 : (2 : ℚ) ^ 53 * num ≤ 2 ^ 53 * (v * den) + num := by exact_mod_cast h2
    rw [div_div, mul_comm (den : ℚ), ← div_div, div_le_div_iff_of_pos_right hq, abs_le]
    constructor <;> linarith

/-- A product of numbers that are not negative. -/
theorem mul_near {a b : F64} (ha : F64.isFinite a = true) (hb : F64.isFinite b = true) (h0 : 0 ≤ signed a) (h1 : 0 ≤ signed b)
    (hf : F64.isFinite (mul a b) = true) : 0 ≤ signed (mul a b) ∧
      (|toRat (mul a b) - toRat a * toRat b| ≤ toRat a * toRat b / 2 ^ 53 ∨
       (toRat a * toRat b < 2 ^ 53 / grain ∧ |toRat (mul a b) - toRat a * toRat b| ≤ 1 / 2 / grain)) := by
  obtain ⟨e1, e2⟩ := mul_nonneg_mag ha hb h0 h1
  rw [isFinite_low, e2, decide_eq_true_eq] at hf
  refine ⟨by rw [e1]; exact Int.natCast_nonneg _, ?_⟩
  have hn := near_abs (Nat.two_pow_pos 1074) hf
  rw [toRat_eq (mul a b), e1, toRat_mag h0, toRat_mag h1, Int.cast_natCast]
  rw [grain_nat] at hn
  have e : (mag a : ℚ) / grain * (mag b / grain) = ((mag a * mag b : ℕ) : ℚ) / grain / grain := by
    push_cast; rw [div_mul_div_comm, div_div]
  rw [e, ← sub_div, abs_div, abs_of_pos grain_pos]
  rcases hn with h | ⟨h2, h3⟩
  · left
    rw [div_div _ grain (2 ^ 53), mul_comm grain (2 ^ 53), ← div_div, div_le_div_iff_of_pos_right grain_pos]
    exact h
  · right
    exact ⟨(div_lt_div_iff_of_pos_right grain_pos).mpr h2, (div_le_div_iff_of_pos_right grain_pos).mpr h3⟩

theorem uval_inf : uval infBits = 2 ^ 2098 := by decide +kernel

theorem mag_lt_inf {x : F64} (h : F64.isFinite x = true) : mag x < 2 ^ 2098 := by
  rw [isFinite_low, decide_eq_true_eq] at h
  rw [mag_low, ← uval_inf]
  exact uval_lt h

/-- The inverse of a positive number. -/
theorem inv_near {s : F64} (hs : F64.isFinite s = true) (h0 : 0 < signed s) (hf : F64.isFinite (div F64.one s) = true) :
    0 ≤ signed (div F64.one s) ∧ |toRat (div F64.one s) - 1 / toRat s| ≤ 1 / toRat s / 2 ^ 51 := by
  obtain ⟨s1, s2⟩ := finite_num hs
  obtain ⟨m1, m2⟩ := mag_signed h0.le
  have hm : 0 < mag s := by omega
  have hneg : neg s = false := by
    cases h : neg s with
    | false => rfl
    | true => have := m2 h; omega
  have hz : isZero s = false := by
    cases h : isZero s with
    | false => rfl
    | true =>
      unfold isZero at h
      rw [show s.toNat % 2 ^ 63 = low s from rfl, decide_eq_true_eq] at h
      rw [mag_low, h, uval_zero] at hm
      exact absurd hm (Nat.lt_irrefl _)
  have hone : F64.isNaN F64.one = false ∧ isInf F64.one = false ∧ isZero F64.one = false ∧ neg F64.one = false ∧
      mag F64.one = 2 ^ 1074 := by decide +kernel
  obtain ⟨o1, o2, o3, o4, o5⟩ := hone
  have e : div F64.one s = pack false (roundMag (2 ^ 1074 * 2 ^ 1074) (mag s)) := by
    unfold div
    simp only [s1, s2, hz, hneg, o1, o2, o3, o4, o5, Bool.or_self, Bool.and_self, Bool.false_eq_true, if_false,
      bne_self_eq_false]
  rw [e] at hf ⊢
  have hi := roundMag_le_inf (2 ^ 1074 * 2 ^ 1074) (mag s)
  rw [isFinite_low, low_pack hi, decide_eq_true_eq] at hf
  have hn := near_abs hm hf
  rw [toRat_eq, signed_pack hi, toRat_mag h0.le]
  simp only [Bool.false_eq_true, if_false]
  refine ⟨Int.natCast_nonneg _, ?_⟩
  rw [Int.cast_natCast]
  have hlt : (mag s : ℚ) < grain * grain / 2 ^ 50 := by
    have h := mag_lt_inf hs
    have e : (2 : ℕ) ^ 1074 * 2 ^ 1074 = 2 ^ 50 * 2 ^ 2098 := by rw [← Nat.pow_add, ← Nat.pow_add]
    have h' : 2 ^ 50 * mag s < 2 ^ 1074 * 2 ^ 1074 := by
      rw [e]; exact Nat.mul_lt_mul_of_pos_left h (Nat.two_pow_pos _)
    have : (2 : ℚ) ^ 50 * mag s < grain * grain := by
      rw [← grain_nat]; exact_mod_cast h'
    rw [lt_div_iff₀ (by norm_num), mul_comm]
    exact this
  have hcast : ((2 ^ 1074 * 2 ^ 1074 : ℕ) : ℚ) = grain * grain := by rw [Nat.cast_mul, grain_nat]
  rw [hcast] at hn
  generalize uval (roundMag (2 ^ 1074 * 2 ^ 1074) (mag s)) = v at *
  have hmq : (0 : ℚ) < mag s := by exact_mod_cast hm
  have hg := grain_pos
  generalize grain = g at *
  generalize (mag s : ℚ) = m at *
  have e1 : 1 / (m / g) = g * g / m / g := by field_simp
  rw [e1, ← sub_div, abs_div, abs_of_pos hg, div_div (g * g / m) g, mul_comm g (2 ^ 51), ← div_div, div_le_div_iff_of_pos_right hg]
  have hx : 2 ^ 50 < g * g / m := by
    rw [lt_div_iff₀ hmq]
    rw [lt_div_iff₀ (by norm_num)] at hlt
    linarith
  rcases hn with h | ⟨-, h⟩
  · refine h.trans ?_
    generalize g * g / m = x at *
    linarith
  · refine h.trans ?_
    generalize g * g / m = x at *
    linarith

/-- The exact sum of weights. -/
def sumRat (l : List F64) : ℚ := (l.map toRat).sum

theorem sumRat_append (a b : List F64) : sumRat (a ++ b) = sumRat a + sumRat b := by
  unfold sumRat; rw [List.map_append, List.sum_append]

theorem sumRat_nonneg {l : List F64} (h : ∀ w ∈ l, 0 ≤ signed w) : 0 ≤ sumRat l := by
  unfold sumRat
  refine List.sum_nonneg fun x hx => ?_
  obtain ⟨w, hw, rfl⟩ := List.mem_map.mp hx
  exact toRat_nonneg (h w hw)

theorem prefix_finite {ws : List F64} (hfin : F64.isFinite (ieee.total ws) = true) (i : Nat) :
    F64.isFinite ((ws.take i).foldl add F64.zero) = true := by
  have : ieee.total ws = (ws.drop i).foldl add ((ws.take i).foldl add F64.zero) := by
    rw [← List.foldl_append, List.take_append_drop]; rfl
  rw [this] at hfin
  exact foldl_finite hfin

/-- The partial sums are near the exact ones, not negative, and grow. -/
theorem prefix_near {ws : List F64} (hw : ∀ w ∈ ws, 0 ≤ signed w) (hfin : F64.isFinite (ieee.total ws) = true) :
    ∀ i, i ≤ ws.length → i ≤ 2 ^ 52 →
      0 ≤ signed ((ws.take i).foldl add F64.zero) ∧
      |toRat ((ws.take i).foldl add F64.zero) - sumRat (ws.take i)| ≤ i / 2 ^ 52 * sumRat (ws.take i) ∧
      (i < ws.length → signed ((ws.take i).foldl add F64.zero) ≤ signed ((ws.take (i + 1)).foldl add F64.zero)) := by
  have hstep : ∀ i, i < ws.length → ∃ w ∈ ws, ws.take (i + 1) = ws.take i ++ [w] ∧
      (ws.take (i + 1)).foldl add F64.zero = add ((ws.take i).foldl add F64.zero) w ∧ F64.isFinite w = true := by
    intro i hi
    have e : ws.take (i + 1) = ws.take i ++ [ws[i]] := by
      rw [List.take_add_one, List.getElem?_eq_getElem hi]; rfl
    have e2 : (ws.take (i + 1)).foldl add F64.zero = add ((ws.take i).foldl add F64.zero) ws[i] := by
      rw [e, List.foldl_append]; rfl
    have hf := prefix_finite hfin (i + 1)
    rw [e2] at hf
    exact ⟨ws[i], List.getElem_mem hi, e, e2, (add_finite hf).2⟩
  have hgrow : ∀ i, i < ws.length → signed ((ws.take i).foldl add F64.zero) ≤ signed ((ws.take (i + 1)).foldl add F64.zero) := by
    intro i hi
    obtain ⟨w, h1, h2, h3, h4⟩ := hstep i hi
    rw [h3]
    have hf := prefix_finite hfin i
    refine le_add hf h4 (finite_num hf).1 ?_
    have := hw w h1
    omega
  intro i
  induction i with
  | zero =>
    intro _ _
    refine ⟨by show 0 ≤ signed F64.zero; decide, ?_, fun h => hgrow 0 h⟩
    rw [List.take_zero, List.foldl_nil, toRat_zero]
    simp [sumRat]
  | succ i ih =>
    intro hi hb
    obtain ⟨h0, h1, -⟩ := ih (by omega) (by omega)
    refine ⟨h0.trans (hgrow i (by omega)), ?_, fun h => hgrow _ h⟩
    obtain ⟨w, hwm, h2, h3, h4⟩ := hstep i (by omega)
    have hf := prefix_finite hfin i
    have hf' := prefix_finite hfin (i + 1)
    rw [h3] at hf'
    obtain ⟨-, hn⟩ := add_near hf h4 h0 (hw w hwm) hf'
    rw [h3, h2, sumRat_append]
    have hs : sumRat [w] = toRat w := by simp [sumRat]
    rw [hs]
    have hw0 := toRat_nonneg (hw w hwm)
    have hp0 : 0 ≤ sumRat (ws.take i) := sumRat_nonneg fun v hv => hw v (List.mem_of_mem_take hv)
    have hib : (i : ℚ) / 2 ^ 52 ≤ 1 := by
      rw [div_le_one (by norm_num)]
      exact_mod_cast (by omega : i ≤ 2 ^ 52)
    generalize toRat (add ((ws.take i).foldl add F64.zero) w) = b at *
    generalize toRat ((ws.take i).foldl add F64.zero) = a at *
    generalize sumRat (ws.take i) = p at *
    generalize toRat w = x at *
    have hi0 : (0 : ℚ) ≤ i / 2 ^ 52 := by positivity
    have e : ((i + 1 : ℕ) : ℚ) / 2 ^ 52 = i / 2 ^ 52 + 1 / 2 ^ 52 := by push_cast; ring
    rw [e]
    generalize (i : ℚ) / 2 ^ 52 = d at *
    rw [abs_le] at *
    have hdp : d * p ≤ p := by nlinarith
    constructor <;> nlinarith [_root_.mul_nonneg hi0 hw0]

/-- Quotients of numbers known with a relative error. -/
theorem ratio_near {p S a A d : ℚ} (hp : 0 ≤ p) (hpS : p ≤ S) (hS : 0 < S) (ha : |a - p| ≤ d * p) (hA : |A - S| ≤ d * S)
    (hd0 : 0 ≤ d) (hd : d ≤ 1 / 8) : 0 < A ∧ |a / A - p / S| ≤ 16 / 7 * d := by
  have hA' : 7 / 8 * S ≤ A := by rw [abs_le] at hA; nlinarith
  have hA0 : 0 < A := by nlinarith
  refine ⟨hA0, ?_⟩
  rw [div_sub_div _ _ hA0.ne' hS.ne', abs_div, abs_of_pos (mul_pos hA0 hS), div_le_iff₀ (mul_pos hA0 hS)]
  have h1 : |a * S - A * p| ≤ 2 * d * (p * S) := by
    have e : a * S - A * p = (a - p) * S - (A - S) * p := by ring
    rw [e]
    refine (abs_sub _ _).trans ?_
    rw [abs_mul, abs_mul, abs_of_pos hS, abs_of_nonneg hp]
    have := mul_le_mul_of_nonneg_right ha hS.le
    have := mul_le_mul_of_nonneg_right hA hp
    nlinarith
  refine h1.trans ?_
  have h2 : p * S ≤ S * S := mul_le_mul_of_nonneg_right hpS hS.le
  have h3 : 7 / 8 * S * S ≤ A * S := mul_le_mul_of_nonneg_right hA' hS.le
  have h4 : 2 * (p * S) ≤ 16 / 7 * (A * S) := by nlinarith
  nlinarith

theorem mul_finite_of {a b : F64} (ha : F64.isFinite a = true) (hb : F64.isFinite b = true) (h0 : 0 ≤ signed a)
    (h1 : 0 ≤ signed b) (h : toRat a * toRat b ≤ 2) : F64.isFinite (mul a b) = true := by
  rw [isFinite_low, (mul_nonneg_mag ha hb h0 h1).2]
  have hu : uval 0x4000000000000000 = 2 * 2 ^ 1074 := by decide +kernel
  refine decide_eq_true (Nat.lt_of_le_of_lt (roundMag_le (b := 0x4000000000000000) (Nat.two_pow_pos _) ?_) (by decide))
  rw [hu]
  rw [toRat_mag h0, toRat_mag h1, div_mul_div_comm, div_le_iff₀ (mul_pos grain_pos grain_pos), ← grain_nat] at h
  have h' : mag a * mag b ≤ 2 * (2 ^ 1074 * 2 ^ 1074) := by exact_mod_cast h
  have aux : ∀ c m : Nat, m ≤ 2 * (c * c) → m ≤ c * (2 * c) := fun c m h => by rw [Nat.mul_left_comm]; exact h
  revert h'
  generalize (2 : ℕ) ^ 1074 = c
  exact aux c _

theorem grain_big : (2 : ℚ) ^ 53 ≤ grain := by
  rw [← grain_nat]
  exact_mod_cast Nat.pow_le_pow_right (by decide) (by decide)

theorem bound_near {p S a A x b d : ℚ} (hp : 0 ≤ p) (hpS : p ≤ S) (hS : 0 < S) (ha0 : 0 ≤ a) (ha : |a - p| ≤ d * p)
    (hA : |A - S| ≤ d * S) (hd0 : 0 ≤ d) (hd : d ≤ 1 / 8) (hx : |x - 1 / A| ≤ 1 / A / 2 ^ 51) :
    a * x ≤ 2 ∧ ((|b - a * x| ≤ a * x / 2 ^ 53 ∨ |b - a * x| ≤ 1 / 2 ^ 54) → |b - p / S| ≤ 4 * d + 1 / 2 ^ 50) := by
  obtain ⟨hA0, hr⟩ := ratio_near hp hpS hS ha hA hd0 hd
  have hpS1 : p / S ≤ 1 := (div_le_one hS).mpr hpS
  have haA : a / A ≤ 9 / 7 := by rw [abs_le] at hr; linarith
  have haA0 : 0 ≤ a / A := div_nonneg ha0 hA0.le
  have hax : |a * x - a / A| ≤ a / A / 2 ^ 51 := by
    have e : a * x - a / A = a * (x - 1 / A) := by ring
    rw [e, abs_mul, abs_of_nonneg ha0]
    have := mul_le_mul_of_nonneg_left hx ha0
    refine this.trans (le_of_eq ?_)
    ring
  generalize a / A = q at *
  generalize a * x = y at *
  generalize p / S = r at *
  rw [abs_le] at hr hax
  have hy : y ≤ 2 := by linarith
  refine ⟨hy, ?_⟩
  rintro (h | h) <;> rw [abs_le] at h ⊢ <;> constructor <;> linarith

/-- The bounds of the areas are near the exact shares of the partial sums, and grow up to the last one. -/
theorem areas_near {ws : List F64} (hw : ∀ w ∈ ws, 0 ≤ signed w) (h0 : 0 < ws.length) (hn : ws.length ≤ 2 ^ 49)
    (hfin : F64.isFinite (ieee.total ws) = true) (hpos : 0 < signed (ieee.total ws))
    (hinv : F64.isFinite (div F64.one (ieee.total ws)) = true) :
    0 < sumRat ws ∧
    (∀ (i : Nat) v, (normalizeAreas ieee ws (div F64.one (ieee.total ws)))[i]? = some v →
      F64.isNaN v = false ∧ 0 ≤ toRat v ∧ |toRat v - sumRat (ws.take i) / sumRat ws| ≤ (ws.length + 1) / 2 ^ 50) ∧
    (∀ (i : Nat) v v', i + 1 < ws.length → (normalizeAreas ieee ws (div F64.one (ieee.total ws)))[i]? = some v →
      (normalizeAreas ieee ws (div F64.one (ieee.total ws)))[i + 1]? = some v' → signed v ≤ signed v') := by
  have hn' : (ws.length : ℚ) / 2 ^ 52 ≤ 1 / 8 := by
    rw [div_le_div_iff₀ (by norm_num) (by norm_num)]
    have : ws.length * 8 ≤ 1 * 2 ^ 52 := by omega
    exact_mod_cast this
  have hd0 : (0 : ℚ) ≤ ws.length / 2 ^ 52 := by positivity
  have htot := prefix_near hw hfin ws.length (Nat.le_refl _) (by omega)
  rw [List.take_length] at htot
  obtain ⟨-, hA, -⟩ := htot
  change |toRat (ieee.total ws) - sumRat ws| ≤ _ at hA
  have hAp : 0 < toRat (ieee.total ws) := by
    rw [← toRat_zero, toRat_lt]; exact hpos
  have hS : 0 < sumRat ws := by
    have h1 := sumRat_nonneg hw
    rcases h1.lt_or_eq with h | h
    · exact h
    · rw [← h, mul_zero] at hA
      have := abs_nonpos_iff.mp hA
      rw [sub_zero] at this
      linarith
  obtain ⟨hx0, hx⟩ := inv_near hfin hpos hinv
  obtain ⟨hl, hfirst, hlast⟩ := normalizeAreas_shape ieee (inv := div F64.one (ieee.total ws)) h0
  have hbig : (1 : ℚ) / 2 / grain ≤ 1 / 2 ^ 54 := by
    have := grain_big
    rw [div_div, div_le_div_iff₀ (by have := grain_pos; positivity) (by norm_num)]
    linarith
  have hsplit : ∀ i, sumRat ws = sumRat (ws.take i) + sumRat (ws.drop i) := fun i => by
    rw [← sumRat_append, List.take_append_drop]
  have hinner : ∀ j, j + 1 < ws.length → ∃ v, (normalizeAreas ieee ws (div F64.one (ieee.total ws)))[j + 1]? = some v ∧
      v = mul ((ws.take (j + 1)).foldl add F64.zero) (div F64.one (ieee.total ws)) ∧ F64.isNaN v = false ∧ 0 ≤ signed v ∧
      |toRat v - sumRat (ws.take (j + 1)) / sumRat ws| ≤ (ws.length + 1) / 2 ^ 50 := by
    intro j hj
    refine ⟨_, normalizeAreas_get ieee hj, rfl, ?_⟩
    show F64.isNaN (mul ((ws.take (j + 1)).foldl add F64.zero) (div F64.one (ieee.total ws))) = false ∧
      0 ≤ signed (mul ((ws.take (j + 1)).foldl add F64.zero) (div F64.one (ieee.total ws))) ∧ _
    have hf := prefix_finite hfin (j + 1)
    obtain ⟨ha0, ha, -⟩ := prefix_near hw hfin (j + 1) (by omega) (by omega)
    have hp0 : 0 ≤ sumRat (ws.take (j + 1)) := sumRat_nonneg fun v hv => hw v (List.mem_of_mem_take hv)
    have hpS : sumRat (ws.take (j + 1)) ≤ sumRat ws := by
      rw [hsplit (j + 1)]
      have : 0 ≤ sumRat (ws.drop (j + 1)) := sumRat_nonneg fun v hv => hw v (List.mem_of_mem_drop hv)
      linarith
    have ha' : |toRat ((ws.take (j + 1)).foldl add F64.zero) - sumRat (ws.take (j + 1))| ≤
        ws.length / 2 ^ 52 * sumRat (ws.take (j + 1)) := by
      refine ha.trans (mul_le_mul_of_nonneg_right ?_ hp0)
      rw [div_le_div_iff_of_pos_right (by norm_num)]
      exact_mod_cast hj.le
    obtain ⟨hle, hb⟩ := bound_near (b := toRat (mul ((ws.take (j + 1)).foldl add F64.zero) (div F64.one (ieee.total ws))))
      hp0 hpS hS (toRat_nonneg ha0) ha' hA hd0 hn' hx
    have hmf := mul_finite_of hf hinv ha0 hx0 hle
    obtain ⟨hm0, hm⟩ := mul_near hf hinv ha0 hx0 hmf
    refine ⟨(finite_num hmf).1, hm0, ?_⟩
    refine (hb (hm.imp id fun h => h.2.trans hbig)).trans (le_of_eq ?_)
    ring
  have hge : (0 : ℚ) ≤ (ws.length + 1) / 2 ^ 50 := by positivity
  refine ⟨hS, ?_, ?_⟩
  · intro i v hv
    have hi : i < ws.length + 1 := by
      rw [← hl]; exact (List.getElem?_eq_some_iff.mp hv).1
    rcases Nat.eq_zero_or_pos i with rfl | hi0
    · rw [hfirst] at hv
      cases hv
      refine ⟨by decide, by rw [toRat_zero], ?_⟩
      rw [toRat_zero]
      simpa [sumRat] using hge
    · rcases Nat.lt_or_ge i ws.length with h2 | h2
      · obtain ⟨j, rfl⟩ : ∃ j, i = j + 1 := ⟨i - 1, by omega⟩
        obtain ⟨v', h3, -, h4, h5, h6⟩ := hinner j h2
        rw [h3] at hv
        cases hv
        exact ⟨h4, toRat_nonneg h5, h6⟩
      · have : i = ws.length := by omega
        subst this
        rw [hlast] at hv
        cases hv
        refine ⟨by decide, by rw [toRat_one]; norm_num, ?_⟩
        rw [toRat_one, List.take_length, div_self hS.ne', sub_self, abs_zero]
        exact hge
  · intro i v v' hi hv hv'
    obtain ⟨w', h3, h4, h5, h6, -⟩ := hinner i hi
    rw [h3] at hv'
    cases hv'
    rcases Nat.eq_zero_or_pos i with rfl | hi0
    · rw [hfirst] at hv
      cases hv
      exact le_trans (by decide) h6
    · obtain ⟨j, rfl⟩ : ∃ j, i = j + 1 := ⟨i - 1, by omega⟩
      obtain ⟨w, g3, g4, -, -, -⟩ := hinner j (by omega)
      rw [g3] at hv
      cases hv
      rw [h4, g4]
      obtain ⟨a0, -, hgrow⟩ := prefix_near hw hfin (j + 1) (by omega) (by omega)
      obtain ⟨b0, -, -⟩ := prefix_near hw hfin (j + 1 + 1) (by omega) (by omega)
      rw [(mul_nonneg_mag (prefix_finite hfin _) hinv a0 hx0).1, (mul_nonneg_mag (prefix_finite hfin _) hinv b0 hx0).1]
      have hm : mag ((ws.take (j + 1)).foldl add F64.zero) ≤ mag ((ws.take (j + 1 + 1)).foldl add F64.zero) := by
        have := hgrow (by omega)
        rw [(mag_signed a0).1, (mag_signed b0).1] at this
        exact_mod_cast this
      exact_mod_cast uval_le_iff.mpr (roundMag_mono (Nat.two_pow_pos _) (Nat.mul_le_mul_right _ hm))

end CCS.IeeeLemmas
