import Verif.Spec.Rounded
import Verif.Lemmas.FloatRange

/-! The doubles nearest to `log 16` and to the exponential of that double. -/

namespace CCS

open Spec

namespace IeeeLemmas

open Ieee

theorem log_two_bounds : (0.693147180559945309 : ℝ) < Real.log 2 ∧ Real.log 2 < 0.69314718055994531 := by
  have t : |(2⁻¹ : ℝ)| = 2⁻¹ := by rw [abs_of_pos]; norm_num
  have z := Real.abs_log_sub_add_sum_range_le (show |(2⁻¹ : ℝ)| < 1 by rw [t]; norm_num) 66
  rw [t] at z
  norm_num1 at z
  rw [one_div (2 : ℝ), Real.log_inv, ← sub_eq_add_neg, abs_sub_comm] at z
  constructor
  · rw [abs_le] at z
    have := z.1
    norm_num [Finset.sum_range_succ] at this
    linarith
  · rw [abs_le] at z
    have := z.2
    norm_num [Finset.sum_range_succ] at this
    linarith

/-- A double that is not above `b - 1` nor below `b + 1` is `b`. -/
theorem eq_of_close {x : F64} {b g : Nat} (hb : 0 < b)
    (h1 : uval (b - 1) + g ≤ uval b) (h2 : uval b + g ≤ uval (b + 1))
    (hlo : (uval b : Int) - g < signed x) (hhi : signed x < (uval b : Int) + g) : x = pack false b := by
  have h0 : uval 0 ≤ uval (b - 1) := uval_le_iff.mpr (Nat.zero_le _)
  cases hn : neg x with
  | true =>
    have := signed_nonpos hn
    omega
  | false =>
    rw [signed_low, hn] at hlo hhi
    simp only [Bool.false_eq_true, if_false] at hlo hhi
    have e : low x = b := by
      rcases Nat.lt_trichotomy (low x) b with h | h | h
      · have := uval_le_iff.mpr (show low x ≤ b - 1 by omega)
        omega
      · exact h
      · have := uval_le_iff.mpr (show b + 1 ≤ low x by omega)
        omega
    rw [← pack_self x, hn, e]

/-- The nearest double is the one that is nearer than half its distance to its neighbours. -/
theorem nearest_double {r : ℝ} {x : F64} {b g : Nat} (h : NearestDouble r x) (hb : 0 < b) (hbi : b < infBits)
    (h1 : uval (b - 1) + g ≤ uval b) (h2 : uval b + g ≤ uval (b + 1))
    (hr : |toReal (pack false b) - r| < (g : ℝ) / 2 ^ 1074 / 2) : x = pack false b := by
  have hle := h.2 (pack false b) (by rw [isFinite_low, low_pack (Nat.le_of_lt hbi)]; exact decide_eq_true hbi)
  have hlt : |toReal x - toReal (pack false b)| < (g : ℝ) / 2 ^ 1074 := by
    calc |toReal x - toReal (pack false b)| = |(toReal x - r) - (toReal (pack false b) - r)| := by congr 1; ring
      _ ≤ |toReal x - r| + |toReal (pack false b) - r| := abs_sub _ _
      _ ≤ |toReal (pack false b) - r| + |toReal (pack false b) - r| := by linarith
      _ < (g : ℝ) / 2 ^ 1074 := by linarith
  unfold toReal at hlt
  rw [signed_pack (Nat.le_of_lt hbi)] at hlt
  simp only [Bool.false_eq_true, if_false] at hlt
  have hpos : (0 : ℝ) < 2 ^ 1074 := pow_pos (by norm_num) _
  rw [← sub_div, abs_div, abs_of_pos hpos, div_lt_div_iff_of_pos_right hpos, abs_lt] at hlt
  refine eq_of_close hb h1 h2 ?_ ?_
  · have := hlt.1
    have : ((uval b : Int) : ℝ) - ((g : Int) : ℝ) < (signed x : ℝ) := by
      rw [Int.cast_natCast g]; linarith
    exact_mod_cast this
  · have := hlt.2
    have : (signed x : ℝ) < ((uval b : Int) : ℝ) + ((g : Int) : ℝ) := by
      rw [Int.cast_natCast g]; linarith
    exact_mod_cast this

/-- The double 16. -/
def sixteen : F64 := 0x4030000000000000#64
/-- The double nearest to `log 16`. -/
def logSixteen : F64 := 0x40062e42fefa39ef#64
/-- The double before 16. -/
def belowSixteen : F64 := 0x402fffffffffffff#64

theorem toReal_of {x : F64} {m k : Nat} (j : Nat) (h : signed x = (m * 2 ^ k : Nat)) (hj : k + j = 1074) : toReal x = m / 2 ^ j := by
  unfold toReal
  rw [h, ← hj, pow_add]
  push_cast
  rw [mul_comm ((2 : ℝ) ^ k), mul_div_mul_right _ _ (pow_ne_zero k (by norm_num))]

theorem toReal_sixteen : toReal sixteen = 16 := by
  rw [toReal_of (m := 16) (k := 1074) 0 (by decide +kernel) rfl]
  norm_num

theorem toReal_log : toReal logSixteen = 6243314768165359 / 2 ^ 51 := by
  rw [toReal_of (m := 6243314768165359) (k := 1023) 51 (by decide +kernel) rfl]
  norm_num

theorem toReal_below : toReal belowSixteen = 9007199254740991 / 2 ^ 49 := by
  rw [toReal_of (m := 9007199254740991) (k := 1025) 49 (by decide +kernel) rfl]
  norm_num

theorem log_gap : (9e-17 : ℝ) < Real.log 16 - 6243314768165359 / 2 ^ 51 ∧ Real.log 16 - 6243314768165359 / 2 ^ 51 < 1e-16 := by
  have h : Real.log 16 = 4 * Real.log 2 := by
    rw [show (16 : ℝ) = 2 ^ 4 by norm_num, Real.log_pow]
    norm_num
  obtain ⟨h1, h2⟩ := log_two_bounds
  rw [h]
  constructor <;> norm_num <;> linarith

/-- The double nearest to `log 16`. -/
theorem nearest_log {x : F64} (h : NearestDouble (Real.log (toReal sixteen)) x) : x = logSixteen := by
  have e : logSixteen = pack false 0x40062e42fefa39ef := by decide +kernel
  rw [toReal_sixteen] at h
  rw [e]
  refine nearest_double (g := 2 ^ 1023) h (by decide) (by decide) (by decide +kernel) (by decide +kernel) ?_
  rw [← e, toReal_log]
  obtain ⟨h1, h2⟩ := log_gap
  have hg : ((2 ^ 1023 : Nat) : ℝ) / 2 ^ 1074 = 1 / 2 ^ 51 := by
    rw [show (1074 : Nat) = 51 + 1023 from rfl, pow_add]
    push_cast
    rw [← div_div, div_right_comm, div_self (pow_ne_zero 1023 (by norm_num))]
  rw [hg, abs_sub_comm, abs_of_pos (by linarith)]
  calc _ < _ := h2
    _ < _ := by norm_num

/-- The double nearest to the exponential of the double nearest to `log 16` is below 16. -/
theorem nearest_exp {x : F64} (h : NearestDouble (Real.exp (toReal logSixteen)) x) : x = belowSixteen := by
  have e : belowSixteen = pack false 0x402fffffffffffff := by decide +kernel
  rw [toReal_log] at h
  rw [e]
  refine nearest_double (g := 2 ^ 1025) h (by decide) (by decide) (by decide +kernel) (by decide +kernel) ?_
  rw [← e, toReal_below]
  obtain ⟨h1, h2⟩ := log_gap
  have hg : ((2 ^ 1025 : Nat) : ℝ) / 2 ^ 1074 = 1 / 2 ^ 49 := by
    rw [show (1074 : Nat) = 49 + 1025 from rfl, pow_add]
    push_cast
    rw [← div_div, div_right_comm, div_self (pow_ne_zero 1025 (by norm_num))]
  rw [hg]
  generalize hd : Real.log 16 - 6243314768165359 / 2 ^ 51 = d at h1 h2
  have hx : Real.exp (6243314768165359 / 2 ^ 51) = 16 * Real.exp (-d) := by
    rw [← hd, neg_sub, Real.exp_sub, Real.exp_log (by norm_num)]
    ring
  rw [hx]
  have l1 := Real.add_one_le_exp (-d)
  have l2 : Real.exp (-d) * (1 + d) ≤ 1 := by
    have := Real.add_one_le_exp d
    have hp := Real.exp_pos (-d)
    calc Real.exp (-d) * (1 + d) ≤ Real.exp (-d) * Real.exp d := by
          apply mul_le_mul_of_nonneg_left _ hp.le; linarith
      _ = 1 := by rw [← Real.exp_add]; simp
  have l3 : Real.exp (-d) ≤ 1 - 9e-17 + 1e-30 := by
    nlinarith [Real.exp_pos (-d)]
  rw [abs_lt]
  clear hg h e hx
  constructor <;> norm_num <;> norm_num at l3 l1 h1 h2 <;> linarith

end IeeeLemmas

end CCS
