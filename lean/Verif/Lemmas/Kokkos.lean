import Verif.Spec.Kokkos
import Verif.Lemmas.Ieee
import Verif.Lemmas.Expr

/-! Helper lemmas for the Kokkos connector: adding a double too small to matter. -/

namespace CCS

open Spec

namespace IeeeLemmas

open Ieee

theorem roundDiv_above {d m e : Nat} (h : 2 * e < d) : roundDiv (m * d + e) d = m := by
  have hd : 0 < d := by omega
  have h1 : (m * d + e) / d = m := by
    rw [Nat.mul_comm, Nat.mul_add_div hd, Nat.div_eq_of_lt (by omega), Nat.add_zero]
  have h2 : (m * d + e) % d = e := by
    rw [Nat.mul_comm, Nat.mul_add_mod, Nat.mod_eq_of_lt (by omega)]
  unfold roundDiv
  rw [h1, h2, if_pos h]

theorem roundDiv_below {d m e : Nat} (h : 2 * e < d) (hm : 0 < m) : roundDiv (m * d - e) d = m := by
  rcases Nat.eq_zero_or_pos e with rfl | he
  · exact roundDiv_above (e := 0) h
  · have hd : 0 < d := by omega
    obtain ⟨j, rfl⟩ : ∃ j, m = j + 1 := ⟨m - 1, by omega⟩
    have h0 : (j + 1) * d - e = j * d + (d - e) := by rw [Nat.add_mul, Nat.one_mul]; omega
    rw [h0]
    have h1 : (j * d + (d - e)) / d = j := by
      rw [Nat.mul_comm, Nat.mul_add_div hd, Nat.div_eq_of_lt (by omega), Nat.add_zero]
    have h2 : (j * d + (d - e)) % d = d - e := by
      rw [Nat.mul_comm, Nat.mul_add_mod, Nat.mod_eq_of_lt (by omega)]
    unfold roundDiv
    rw [h1, h2, if_neg (by omega), if_pos (by omega)]

theorem log2_between {n k : Nat} (h1 : 2 ^ k ≤ n) (h2 : n < 2 ^ (k + 1)) : n.log2 = k := by
  have hne : n ≠ 0 := by have := Nat.two_pow_pos k; omega
  have h3 := (Nat.le_log2 hne).mpr h1
  have h4 := (Nat.log2_lt hne).mpr h2
  omega

theorem roundMag_of {n k b : Nat} (hk : 1 ≤ k) (h1 : 2 ^ (52 + k) ≤ n) (h2 : n < 2 ^ (53 + k)) (h : roundDiv n (2 ^ k) = b)
    (hb : k * 2 ^ 52 + b ≤ infBits) : roundMag n 1 = k * 2 ^ 52 + b := by
  unfold roundMag
  have hl : n.log2 = 52 + k := log2_between h1 (by rw [show 52 + k + 1 = 53 + k by omega]; exact h2)
  have : 2 ^ 53 ≤ n := Nat.le_trans (Nat.pow_le_pow_right (by decide) (by omega)) h1
  rw [Nat.div_one, if_neg (by omega), hl, Nat.add_sub_cancel_left, Nat.one_mul, h, Nat.min_eq_left hb]

/-- Rounding ignores what is less than a quarter of the last place. -/
theorem roundMag_absorb {k m e : Nat} (hk : 2 ≤ k) (hm1 : 2 ^ 52 ≤ m) (hm2 : m < 2 ^ 53) (he : 4 * e < 2 ^ k)
    (hb : k * 2 ^ 52 + m ≤ infBits) :
    roundMag (m * 2 ^ k + e) 1 = k * 2 ^ 52 + m ∧ roundMag (m * 2 ^ k - e) 1 = k * 2 ^ 52 + m := by
  have hlo : 2 ^ (52 + k) ≤ m * 2 ^ k := by rw [Nat.pow_add]; exact Nat.mul_le_mul_right _ hm1
  have hhi : (m + 1) * 2 ^ k ≤ 2 ^ (53 + k) := by rw [Nat.pow_add]; exact Nat.mul_le_mul_right _ hm2
  rw [Nat.add_mul, Nat.one_mul] at hhi
  constructor
  · exact roundMag_of (by omega) (by omega) (by omega) (roundDiv_above (by omega)) hb
  · rcases Nat.lt_or_ge (m * 2 ^ k - e) (2 ^ (52 + k)) with h | h
    · have hm : m = 2 ^ 52 := by
        rcases Nat.lt_or_ge (2 ^ 52) m with h3 | h3
        · have : (2 ^ 52 + 1) * 2 ^ k ≤ m * 2 ^ k := Nat.mul_le_mul_right _ h3
          rw [Nat.add_mul, Nat.one_mul, ← Nat.pow_add] at this
          omega
        · omega
      subst hm
      obtain ⟨j, rfl⟩ : ∃ j, k = j + 1 := ⟨k - 1, by omega⟩
      have e1 : 2 ^ 52 * 2 ^ (j + 1) = 2 ^ 53 * 2 ^ j := by
        rw [← Nat.pow_add, ← Nat.pow_add]; congr 1; omega
      have e2 : (2 : Nat) ^ (53 + j) = 2 ^ 53 * 2 ^ j := Nat.pow_add ..
      have e3 : (2 : Nat) ^ (52 + j) * 2 = 2 ^ 53 * 2 ^ j := by rw [← Nat.pow_succ, ← Nat.pow_add]; congr 1; omega
      have e4 : (2 : Nat) ^ (j + 1) = 2 ^ j * 2 := Nat.pow_succ ..
      have e5 : (2 : Nat) ^ (52 + (j + 1)) = 2 ^ 53 * 2 ^ j := by rw [← Nat.pow_add]; congr 1; omega
      have e6 : (2 : Nat) ^ j ≤ 2 ^ (52 + j) := Nat.pow_le_pow_right (by decide) (by omega)
      have := roundMag_of (n := 2 ^ 52 * 2 ^ (j + 1) - e) (k := j) (b := 2 ^ 53) (by omega) (by rw [e1]; omega)
        (by rw [e1, e2]; omega) (by rw [e1]; exact roundDiv_below (by omega) (by decide)) (by omega)
      rw [this]; omega
    · exact roundMag_of (by omega) h (by omega) (roundDiv_below (by omega) (by omega)) hb

/-- Adding a positive double smaller than a quarter of the last place changes nothing. -/
theorem add_absorb {x e : F64} {k m : Nat} (hx : F64.isFinite x = true) (he : F64.isFinite e = true) (hpos : neg e = false)
    (hk : 2 ≤ k) (hl : low x = k * 2 ^ 52 + m) (hm1 : 2 ^ 52 ≤ m) (hm2 : m < 2 ^ 53) (hs : 4 * mag e < 2 ^ k) :
    add x e = x := by
  obtain ⟨a1, a2⟩ := finite_num hx
  obtain ⟨b1, b2⟩ := finite_num he
  have hlow : low x < infBits := by rw [isFinite_low] at hx; simpa using hx
  have hmag : mag x = m * 2 ^ k := by rw [mag_low, hl, uval_scaled hm1 (by omega)]
  have hbig : 2 ^ k ≤ m * 2 ^ k := Nat.le_mul_of_pos_left _ (by omega)
  have he' : signed e = mag e := by unfold signed; rw [hpos]; rfl
  obtain ⟨r1, r2⟩ := roundMag_absorb hk hm1 hm2 hs (by omega)
  unfold add
  simp only [a1, b1, a2, b2, Bool.or_self, Bool.false_eq_true, if_false]
  rw [he']
  conv => rhs; rw [← pack_self x, hl]
  cases hn : neg x with
  | false =>
    have hsx : signed x = mag x := by unfold signed; rw [hn]; rfl
    rw [hsx, if_neg (by omega)]
    have : ((mag x : Int) + mag e).natAbs = m * 2 ^ k + mag e := by omega
    rw [this, r1]
    congr 1
  | true =>
    have hsx : signed x = -(mag x : Int) := by unfold signed; rw [hn]; rfl
    rw [hsx, if_neg (by omega)]
    have : (-(mag x : Int) + mag e).natAbs = m * 2 ^ k - mag e := by omega
    rw [this, r2]
    congr 1
    simp; omega

end IeeeLemmas

namespace Kokkos

open IeeeLemmas Ieee

/-- Adding 1E-24 changes no finite double of magnitude at least `2^-25`. -/
theorem add_epsilon {x : F64} (hx : F64.isFinite x = true) (hbig : 2 ^ 1049 ≤ mag x) : ieee.add x epsilon = x := by
  have hlow : low x < infBits := by rw [isFinite_low] at hx; simpa using hx
  have hge : 998 * 2 ^ 52 ≤ low x := by
    refine uval_le_iff.1 ?_
    rw [← mag_low]
    refine Nat.le_trans ?_ hbig
    have := uval_scaled (k := 997) (m := 2 ^ 52) (Nat.le_refl _) (by decide)
    have e : 997 * 2 ^ 52 + 2 ^ 52 = 998 * 2 ^ 52 := by decide
    rw [e] at this
    rw [this, ← Nat.pow_add]
    exact Nat.pow_le_pow_right (by decide) (by decide)
  have e : low x = (low x / 2 ^ 52 - 1) * 2 ^ 52 + (low x % 2 ^ 52 + 2 ^ 52) := by omega
  refine add_absorb hx (by decide +kernel) (by decide +kernel) (by omega) e (by omega) (by omega) ?_
  have h1 : 4 * mag epsilon < 2 ^ 997 := by decide +kernel
  exact Nat.lt_of_lt_of_le h1 (Nat.pow_le_pow_right (by decide) (by omega))

/-- On integers of magnitude at most `2^53`, adding 1E-24 and truncating changes nothing. -/
theorem addEpsilon_exact {u : BitVec 64} (h1 : -2 ^ 53 ≤ u.toInt) (h2 : u.toInt ≤ 2 ^ 53) :
    addEpsilon ieee truncated u = .ok u := by
  have hr := realValue_ofInt h1 h2
  have hnan : F64.isNaN (F64.ofInt u) = false := by
    cases h : F64.isNaN (F64.ofInt u) with
    | false => rfl
    | true => rw [(realValue_none _).mpr h] at hr; cases hr
  unfold addEpsilon
  by_cases h0 : u.toInt = 0
  · obtain rfl : u = 0#64 := BitVec.eq_of_toInt_eq h0
    decide +kernel
  · have hs : signed (F64.ofInt u) = u.toInt * ((2 ^ 1074 : Nat) : Int) := by
      rw [realValue_signed hnan] at hr; exact Option.some.inj hr
    have hm : mag (F64.ofInt u) = u.toInt.natAbs * 2 ^ 1074 := by
      have : (signed (F64.ofInt u)).natAbs = mag (F64.ofInt u) := by unfold signed; split <;> omega
      rw [← this, hs, Int.natAbs_mul, Int.natAbs_natCast]
    have hlow : low (F64.ofInt u) < infBits := by
      have h3 : low (F64.ofInt u) ≤ infBits := by rw [isNaN_low] at hnan; simpa using hnan
      have h4 : uval (low (F64.ofInt u)) < uval infBits := by
        rw [← mag_low, hm]
        have e : uval infBits = 2 ^ 52 * 2 ^ 2046 := by
          have := uval_scaled (k := 2046) (m := 2 ^ 52) (Nat.le_refl _) (by decide)
          rw [← this]; rfl
        rw [e]
        have : u.toInt.natAbs * 2 ^ 1074 ≤ 2 ^ 53 * 2 ^ 1074 := Nat.mul_le_mul_right _ (by omega)
        refine Nat.lt_of_le_of_lt this ?_
        rw [← Nat.pow_add, ← Nat.pow_add]
        exact Nat.pow_lt_pow_right (by decide) (by decide)
      rcases Nat.lt_or_eq_of_le h3 with h | h
      · exact h
      · rw [h] at h4; omega
    have hfin : F64.isFinite (F64.ofInt u) = true := by rw [isFinite_low]; simpa using hlow
    have hbig : 2 ^ 1049 ≤ mag (F64.ofInt u) := by
      rw [hm]
      have h3 : 2 ^ 1049 ≤ 2 ^ 1074 := Nat.pow_le_pow_right (by decide) (by decide)
      exact Nat.le_trans h3 (Nat.le_mul_of_pos_left _ (by omega))
    rw [add_epsilon hfin hbig]
    unfold truncated
    rw [hr]
    simp only
    rw [Int.mul_tdiv_cancel _ (by have := Nat.two_pow_pos 1074; omega), if_pos (by omega), BitVec.ofInt_toInt]

end Kokkos

end CCS
