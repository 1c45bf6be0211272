import Verif.Lemmas.Chance
import Verif.Model.Distribution

/-! The shares of the components of a mixture. -/

namespace CCS.IeeeLemmas

open CCS CCS.Spec Ieee

theorem add_finite_of {a b : F64} (ha : F64.isFinite a = true) (hb : F64.isFinite b = true) (h0 : 0 ≤ signed a) (h1 : 0 ≤ signed b)
    (h : toRat a + toRat b ≤ 4) : F64.isFinite (add a b) = true := by
  obtain ⟨a1, a2⟩ := finite_num ha
  obtain ⟨b1, b2⟩ := finite_num hb
  have hu : uval 0x4010000000000000 = 4 * 2 ^ 1074 := by decide +kernel
  have hs : 0 ≤ signed a + signed b := by omega
  unfold add
  simp only [a1, b1, a2, b2, Bool.or_self, Bool.false_eq_true, if_false]
  by_cases hz : signed a + signed b = 0
  · rw [if_pos hz, isFinite_low, low_pack (Nat.zero_le _)]
    exact decide_eq_true (by decide)
  · rw [if_neg hz]
    have hn : decide (signed a + signed b < 0) = false := decide_eq_false (by omega)
    rw [hn]
    obtain ⟨n, hn⟩ := Int.eq_ofNat_of_zero_le hs
    rw [hn, Int.natAbs_natCast]
    rw [isFinite_low, low_pack (roundMag_le_inf n 1)]
    refine decide_eq_true (Nat.lt_of_le_of_lt (roundMag_le (b := 0x4010000000000000) Nat.one_pos ?_) (by decide))
    rw [hu, Nat.one_mul]
    have e : toRat a + toRat b = (n : ℚ) / grain := by
      rw [toRat_eq, toRat_eq, ← add_div]
      have : ((signed a : ℚ) + signed b) = ((signed a + signed b : Int) : ℚ) := by push_cast; rfl
      rw [this, hn, Int.cast_natCast]
    rw [e, div_le_iff₀ grain_pos, ← grain_nat] at h
    revert h
    generalize (2 : ℕ) ^ 1074 = c
    intro h
    exact_mod_cast h

/-- A weight times the inverse of the total is near the share of the weight. -/
theorem share_near {w S A x v d : ℚ} (hw : 0 ≤ w) (hS : 0 < S) (hA : |A - S| ≤ d * S) (hd0 : 1 / 2 ^ 52 ≤ d) (hd : d ≤ 1 / 8)
    (hx : |x - 1 / A| ≤ 1 / A / 2 ^ 51) :
    w * x ≤ 2 * (w / S) ∧ ((|v - w * x| ≤ w * x / 2 ^ 53 ∨ |v - w * x| ≤ 1 / 2 ^ 54) → |v - w / S| ≤ 6 * d * (w / S) + 1 / 2 ^ 54) := by
  have hd1 : 0 ≤ d := le_trans (by norm_num) hd0
  have hA' : 7 / 8 * S ≤ A := by rw [abs_le] at hA; nlinarith
  have hA0 : 0 < A := by nlinarith
  have hs0 : 0 ≤ w / S := div_nonneg hw hS.le
  have h1 : |w / A - w / S| ≤ 8 / 7 * d * (w / S) := by
    have e : w / A - w / S = (w / S) * ((S - A) / A) := by field_simp
    rw [e, abs_mul, abs_of_nonneg hs0, mul_comm]
    refine mul_le_mul_of_nonneg_right ?_ hs0
    rw [abs_div, abs_of_pos hA0, div_le_iff₀ hA0, abs_sub_comm]
    nlinarith
  have h2 : |w * x - w / A| ≤ w / A / 2 ^ 51 := by
    have e : w * x - w / A = w * (x - 1 / A) := by ring
    rw [e, abs_mul, abs_of_nonneg hw]
    refine (mul_le_mul_of_nonneg_left hx hw).trans (le_of_eq ?_)
    ring
  generalize w / A = q at *
  generalize w * x = y at *
  generalize w / S = s at *
  have hds : s / 2 ^ 52 ≤ d * s := by
    have := mul_le_mul_of_nonneg_right hd0 hs0
    linarith
  have hds' : d * s ≤ s / 8 := by
    have := mul_le_mul_of_nonneg_right hd hs0
    linarith
  have e1 : 8 / 7 * d * s = 8 / 7 * (d * s) := by ring
  have e2 : 6 * d * s = 6 * (d * s) := by ring
  rw [e1] at h1
  rw [e2]
  have hp : 0 ≤ d * s := _root_.mul_nonneg hd1 hs0
  generalize d * s = m at *
  rw [abs_le] at h1 h2
  have hy : y ≤ 2 * s := by linarith
  refine ⟨hy, ?_⟩
  rintro (h | h) <;> rw [abs_le] at h ⊢ <;> constructor <;> linarith

theorem partialWeights_eq (M : Machine σ) (hM : M.ops = ieee) (inv : F64) : ∀ (ws : List F64) (acc : F64),
    Mixture.partialWeights M acc inv ws = FloatOps.partials ieee acc (ws.map (mul · inv)) := by
  intro ws
  induction ws with
  | nil => intro acc; rfl
  | cons w ws ih =>
    intro acc
    simp only [Mixture.partialWeights, FloatOps.partials, List.map_cons, hM]
    rw [ih]
    rfl

theorem partials_get (ops : FloatOps) : ∀ (ws : List F64) (acc : F64) (i : Nat), i < ws.length →
    (FloatOps.partials ops acc ws)[i]? = some ((ws.take (i + 1)).foldl ops.add acc) := by
  intro ws
  induction ws with
  | nil => intro acc i h; simp at h
  | cons w ws ih =>
    intro acc i h
    cases i with
    | zero => rfl
    | succ i =>
      simp only [FloatOps.partials, List.getElem?_cons_succ, List.take_succ_cons, List.foldl_cons]
      exact ih _ i (by simpa using h)

theorem partials_len (ops : FloatOps) : ∀ (ws : List F64) (acc : F64), (FloatOps.partials ops acc ws).length = ws.length := by
  intro ws
  induction ws with
  | nil => intro acc; rfl
  | cons w ws ih => intro acc; simp [FloatOps.partials, ih]

theorem mix_shape (M : Machine σ) (hM : M.ops = ieee) {inv : F64} {ws : List F64} :
    (Mixture.areas M inv ws).length = ws.length + 1 ∧ (Mixture.areas M inv ws)[ws.length]? = some F64.one ∧
    ∀ i, i < ws.length → (Mixture.areas M inv ws)[i]? = some (((ws.map (mul · inv)).take i).foldl add F64.zero) := by
  unfold Mixture.areas
  rw [partialWeights_eq M hM]
  have hl : (F64.zero :: FloatOps.partials ieee F64.zero (ws.map (mul · inv))).dropLast.length = ws.length := by
    simp [partials_len]
  refine ⟨by rw [List.length_append, hl]; rfl, ?_, ?_⟩
  · rw [List.getElem?_append_right (by omega), hl]
    simp
  · intro i hi
    rw [List.getElem?_append_left (by omega), List.getElem?_dropLast]
    rw [if_pos (by simp [partials_len]; omega)]
    cases i with
    | zero => rfl
    | succ i =>
      rw [List.getElem?_cons_succ, partials_get _ _ _ _ (by simp; omega)]
      rfl

/-- The bounds of the components are near the exact shares. -/
theorem mix_near {ws : List F64} (h : Usable ws) (i : Nat) (hi : i ≤ ws.length) :
    F64.isFinite (((ws.map (mul · (div F64.one (ieee.total ws)))).take i).foldl add F64.zero) = true ∧
    0 ≤ signed (((ws.map (mul · (div F64.one (ieee.total ws)))).take i).foldl add F64.zero) ∧
    |toRat (((ws.map (mul · (div F64.one (ieee.total ws)))).take i).foldl add F64.zero) - sumRat (ws.take i) / sumRat ws| ≤ 9 * (ws.length / 2 ^ 52) ∧
    (i < ws.length → signed (((ws.map (mul · (div F64.one (ieee.total ws)))).take i).foldl add F64.zero) ≤
      signed (((ws.map (mul · (div F64.one (ieee.total ws)))).take (i + 1)).foldl add F64.zero)) := by
  have hsz := h.size
  have hlen := h.len
  obtain ⟨hS, -, -⟩ := areas_near h.nonneg h.len h.size h.fin h.pos h.inv
  have hd : (ws.length : ℚ) / 2 ^ 52 ≤ 1 / 8 := by
    rw [div_le_div_iff₀ (by norm_num) (by norm_num)]
    have : ws.length * 8 ≤ 1 * 2 ^ 52 := by omega
    exact_mod_cast this
  have hd0 : (1 : ℚ) / 2 ^ 52 ≤ ws.length / 2 ^ 52 := by
    rw [div_le_div_iff_of_pos_right (by norm_num)]
    exact_mod_cast hlen
  have hA := (prefix_near h.nonneg h.fin ws.length (Nat.le_refl _) (by omega)).2.1
  rw [List.take_length] at hA
  change |toRat (ieee.total ws) - sumRat ws| ≤ _ at hA
  obtain ⟨hx0, hx⟩ := inv_near h.fin h.pos h.inv
  have hbig : (1 : ℚ) / 2 / grain ≤ 1 / 2 ^ 54 := by
    have := grain_big
    rw [div_div, div_le_div_iff₀ (by have := grain_pos; positivity) (by norm_num)]
    linarith
  generalize hinv : div F64.one (ieee.total ws) = inv at *
  have hfinv : F64.isFinite inv = true := hinv ▸ h.inv
  /- each share -/
  have hone : ∀ w ∈ ws, F64.isFinite (mul w inv) = true ∧ 0 ≤ signed (mul w inv) ∧
      |toRat (mul w inv) - toRat w / sumRat ws| ≤ 6 * (ws.length / 2 ^ 52) * (toRat w / sumRat ws) + 1 / 2 ^ 54 := by
    intro w hw
    have hwf := mem_finite h.fin hw
    have hw0 := h.nonneg w hw
    obtain ⟨h1, h2⟩ := share_near (v := toRat (mul w inv)) (toRat_nonneg hw0) hS hA hd0 hd hx
    have hws : toRat w / sumRat ws ≤ 1 := by
      rw [div_le_one hS]
      obtain ⟨a, b, rfl⟩ := List.append_of_mem hw
      have ha : 0 ≤ sumRat a := sumRat_nonneg fun v hv => h.nonneg v (List.mem_append_left _ hv)
      have hb : 0 ≤ sumRat b := sumRat_nonneg fun v hv => h.nonneg v (List.mem_append_right _ (List.mem_cons_of_mem _ hv))
      have : sumRat (a ++ w :: b) = sumRat a + (toRat w + sumRat b) := by
        rw [sumRat_append]; simp [sumRat]
      linarith
    have hf := mul_finite_of hwf hfinv hw0 hx0 (by linarith)
    obtain ⟨h3, h4⟩ := mul_near hwf hfinv hw0 hx0 hf
    exact ⟨hf, h3, h2 (h4.imp id fun h => h.2.trans hbig)⟩
  /- exact sums of the shares -/
  have hsum : ∀ i, i ≤ ws.length → |sumRat ((ws.map (mul · inv)).take i) - sumRat (ws.take i) / sumRat ws| ≤
      6 * (ws.length / 2 ^ 52) * (sumRat (ws.take i) / sumRat ws) + i / 2 ^ 54 := by
    intro i
    induction i with
    | zero => intro _; simp [sumRat]
    | succ i ih =>
      intro hi
      have ih := ih (by omega)
      have e1 : sumRat ((ws.map (mul · inv)).take (i + 1)) = sumRat ((ws.map (mul · inv)).take i) + toRat (mul ws[i] inv) := by
        rw [List.take_add_one, List.getElem?_map, List.getElem?_eq_getElem (by omega), sumRat_append]
        simp [sumRat]
      have e2 : sumRat (ws.take (i + 1)) = sumRat (ws.take i) + toRat ws[i] := by
        rw [List.take_add_one, List.getElem?_eq_getElem (by omega), sumRat_append]
        simp [sumRat]
      have h1 := (hone ws[i] (List.getElem_mem _)).2.2
      rw [e1, e2, add_div]
      push_cast
      rw [add_div (i : ℚ)]
      rw [abs_le] at *
      constructor <;> linarith
  have hle : ∀ i, 0 ≤ sumRat (ws.take i) / sumRat ws ∧ sumRat (ws.take i) / sumRat ws ≤ 1 := by
    intro i
    refine ⟨div_nonneg (sumRat_nonneg fun v hv => h.nonneg v (List.mem_of_mem_take hv)) hS.le, ?_⟩
    rw [div_le_one hS]
    have e : sumRat ws = sumRat (ws.take i) + sumRat (ws.drop i) := by rw [← sumRat_append, List.take_append_drop]
    have : 0 ≤ sumRat (ws.drop i) := sumRat_nonneg fun v hv => h.nonneg v (List.mem_of_mem_drop hv)
    linarith
  have hV : ∀ i, i ≤ ws.length → |sumRat ((ws.map (mul · inv)).take i) - sumRat (ws.take i) / sumRat ws| ≤ 7 * (ws.length / 2 ^ 52) ∧
      sumRat ((ws.map (mul · inv)).take i) ≤ 2 := by
    intro i hi
    have h1 := hsum i hi
    obtain ⟨p0, p1⟩ := hle i
    have hi' : (i : ℚ) / 2 ^ 54 ≤ ws.length / 2 ^ 52 / 4 := by
      have : (i : ℚ) ≤ ws.length := by exact_mod_cast hi
      linarith
    have h2 : 6 * ((ws.length : ℚ) / 2 ^ 52) * (sumRat (ws.take i) / sumRat ws) ≤ 6 * (ws.length / 2 ^ 52) := by
      refine mul_le_of_le_one_right ?_ p1
      positivity
    have h3 : |sumRat ((ws.map (mul · inv)).take i) - sumRat (ws.take i) / sumRat ws| ≤ 7 * (ws.length / 2 ^ 52) := by
      refine h1.trans ?_
      have : (0 : ℚ) ≤ ws.length / 2 ^ 52 := by positivity
      linarith
    refine ⟨h3, ?_⟩
    rw [abs_le] at h3
    linarith
  have hvs : ∀ v ∈ ws.map (mul · inv), F64.isFinite v = true ∧ 0 ≤ signed v := by
    intro v hv
    obtain ⟨w, hw, rfl⟩ := List.mem_map.mp hv
    exact ⟨(hone w hw).1, (hone w hw).2.1⟩
  have hlv : (ws.map (mul · inv)).length = ws.length := List.length_map ..
  generalize ws.map (mul · inv) = vs at *
  have key : ∀ i, i ≤ ws.length → F64.isFinite ((vs.take i).foldl add F64.zero) = true ∧
      0 ≤ signed ((vs.take i).foldl add F64.zero) ∧
      |toRat ((vs.take i).foldl add F64.zero) - sumRat (vs.take i)| ≤ i / 2 ^ 52 * sumRat (vs.take i) := by
    intro i
    induction i with
    | zero =>
      intro _
      refine ⟨by show F64.isFinite F64.zero = true; decide, by show 0 ≤ signed F64.zero; decide, ?_⟩
      rw [List.take_zero, List.foldl_nil, toRat_zero]
      simp [sumRat]
    | succ i ih =>
      intro hi
      obtain ⟨h1, h2, h3⟩ := ih (by omega)
      have hi' : i < vs.length := by omega
      obtain ⟨v1, v2⟩ := hvs vs[i] (List.getElem_mem hi')
      have e : (vs.take (i + 1)).foldl add F64.zero = add ((vs.take i).foldl add F64.zero) vs[i] := by
        rw [List.take_add_one, List.getElem?_eq_getElem hi', Option.toList_some, List.foldl_append]; rfl
      have e2 : sumRat (vs.take (i + 1)) = sumRat (vs.take i) + toRat vs[i] := by
        rw [List.take_add_one, List.getElem?_eq_getElem hi', sumRat_append]
        simp [sumRat]
      have hb := (hV (i + 1) hi).2
      rw [e2] at hb
      have hid : (i : ℚ) / 2 ^ 52 ≤ 1 / 8 := by
        refine le_trans ?_ hd
        rw [div_le_div_iff_of_pos_right (by norm_num)]
        exact_mod_cast (by omega : i ≤ ws.length)
      have hv0 := toRat_nonneg v2
      have hs0 : 0 ≤ sumRat (vs.take i) := sumRat_nonneg fun v hv => (hvs v (List.mem_of_mem_take hv)).2
      have hprod : (i : ℚ) / 2 ^ 52 * sumRat (vs.take i) ≤ 1 / 8 * sumRat (vs.take i) := mul_le_mul_of_nonneg_right hid hs0
      have hfin : F64.isFinite ((vs.take (i + 1)).foldl add F64.zero) = true := by
        rw [e]
        refine add_finite_of h1 v1 h2 v2 ?_
        rw [abs_le] at h3
        linarith
      have hp := prefix_near (ws := vs.take (i + 1)) (fun v hv => (hvs v (List.mem_of_mem_take hv)).2) hfin (i + 1)
        (by rw [List.length_take]; omega) (by omega)
      rw [List.take_take, Nat.min_self] at hp
      exact ⟨hfin, hp.1, hp.2.1⟩
  obtain ⟨k1, k2, k3⟩ := key i hi
  refine ⟨k1, k2, ?_, ?_⟩
  · obtain ⟨v1, v2⟩ := hV i hi
    have h3 : (i : ℚ) / 2 ^ 52 * sumRat (vs.take i) ≤ 2 * (ws.length / 2 ^ 52) := by
      have hii : (i : ℚ) / 2 ^ 52 ≤ ws.length / 2 ^ 52 := by
        rw [div_le_div_iff_of_pos_right (by norm_num)]
        exact_mod_cast hi
      have h0 : (0 : ℚ) ≤ i / 2 ^ 52 := by positivity
      nlinarith
    rw [abs_le] at *
    constructor <;> linarith
  · intro hi'
    have hiv : i < vs.length := by omega
    obtain ⟨v1, v2⟩ := hvs vs[i] (List.getElem_mem hiv)
    have e : (vs.take (i + 1)).foldl add F64.zero = add ((vs.take i).foldl add F64.zero) vs[i] := by
      rw [List.take_add_one, List.getElem?_eq_getElem hiv, Option.toList_some, List.foldl_append]; rfl
    rw [e]
    exact le_add k1 v1 (finite_num k1).1 (by omega)

end CCS.IeeeLemmas
