import Verif.Spec.Roulette
import Verif.Lemmas.Num

/-! Helper lemmas about roulette selection. -/

namespace CCS

open Spec

theorem f64_lt_iff (x y : F64) : F64.lt x y = true ↔ ∃ a b, realValue x = some a ∧ realValue y = some b ∧ a < b :=
  lt_iff .float x y

theorem f64_le_iff (x y : F64) : F64.le x y = true ↔ ∃ a b, realValue x = some a ∧ realValue y = some b ∧ a ≤ b :=
  le_iff .float x y

theorem lt_not_le {x y : F64} (h : F64.lt x y = true) : F64.le y x = false := by
  rw [Bool.eq_false_iff]
  intro h'
  obtain ⟨a, b, h1, h2, h3⟩ := (f64_lt_iff _ _).mp h
  obtain ⟨b', a', h4, h5, h6⟩ := (f64_le_iff _ _).mp h'
  rw [h1] at h5; cases h5
  rw [h2] at h4; cases h4
  omega

theorem le_not_lt {x y : F64} (h : F64.le x y = true) : F64.lt y x = false := by
  rw [Bool.eq_false_iff]
  intro h'
  rw [lt_not_le h'] at h
  cases h

/-- The loop keeps the target between the bounds and ends. -/
theorem searchLoop_spec {values : List F64} {t : F64} {n : Nat} (hl : values.length = n + 1) :
    ∀ {fuel : Nat} {lower upper index : Int}, 0 ≤ lower → lower ≤ index → index ≤ upper → upper < n →
      (∀ v, values[lower.toNat]? = some v → F64.lt t v = false) →
      (∀ v, values[upper.toNat + 1]? = some v → F64.le v t = false) → (upper - lower).toNat < fuel →
      ∃ i : Nat, searchLoop values t fuel lower upper index = some (.ok i) ∧ i < n ∧
        (∀ v, values[i]? = some v → F64.lt t v = false) ∧ (∀ v, values[i + 1]? = some v → F64.le v t = false) := by
  intro fuel
  induction fuel with
  | zero => intro lower upper index _ _ _ _ _ _ h; omega
  | succ fuel ih =>
    intro lower upper index h0 h1 h2 h3 h4 h5 h6
    obtain ⟨i, rfl⟩ : ∃ i : Nat, index = i := ⟨index.toNat, by omega⟩
    have ha : i < values.length := by omega
    have hb : i + 1 < values.length := by omega
    simp only [searchLoop, Int.toNat_natCast]
    rw [if_neg (by omega), List.getElem?_eq_getElem ha, List.getElem?_eq_getElem hb]
    dsimp only
    by_cases c1 : F64.lt t values[i] = true
    · rw [if_pos c1]
      have hlow : lower ≠ i := by
        intro h
        have := h4 values[i] (by rw [h]; simp [List.getElem?_eq_getElem ha])
        rw [c1] at this; cases this
      refine ih (lower := lower) (upper := (i : Int) - 1) h0 ?_ ?_ (by omega) h4 ?_ (by omega)
      · rw [Int.tdiv_eq_ediv_of_nonneg (by omega)]; omega
      · rw [Int.tdiv_eq_ediv_of_nonneg (by omega)]; omega
      · intro v hv
        have e : ((i : Int) - 1).toNat + 1 = i := by omega
        rw [e, List.getElem?_eq_getElem ha] at hv
        cases hv
        exact lt_not_le c1
    · rw [if_neg c1]
      by_cases c2 : F64.le values[i + 1] t = true
      · rw [if_pos c2]
        have hup : upper ≠ i := by
          intro h
          have := h5 values[i + 1] (by rw [h]; simp [List.getElem?_eq_getElem hb])
          rw [c2] at this; cases this
        refine ih (lower := (i : Int) + 1) (upper := upper) (by omega) ?_ ?_ h3 ?_ h5 (by omega)
        · rw [Int.tdiv_eq_ediv_of_nonneg (by omega)]; omega
        · rw [Int.tdiv_eq_ediv_of_nonneg (by omega)]; omega
        · intro v hv
          have e : ((i : Int) + 1).toNat = i + 1 := by omega
          rw [e, List.getElem?_eq_getElem hb] at hv
          cases hv
          exact le_not_lt c2
      · rw [if_neg c2]
        refine ⟨i, rfl, by omega, ?_, ?_⟩
        · intro v hv
          rw [List.getElem?_eq_getElem ha] at hv; cases hv
          simpa using c1
        · intro v hv
          rw [List.getElem?_eq_getElem hb] at hv; cases hv
          simpa using c2

theorem searchLoop_mono {values : List F64} {t : F64} {r : Out Int} : ∀ {fuel more : Nat} {lower upper index : Int},
    searchLoop values t fuel lower upper index = some r → fuel ≤ more →
    searchLoop values t more lower upper index = some r := by
  intro fuel
  induction fuel with
  | zero => intro more lower upper index h; cases h
  | succ fuel ih =>
    intro more lower upper index h hm
    obtain ⟨k, rfl⟩ : ∃ k, more = k + 1 := ⟨more - 1, by omega⟩
    simp only [searchLoop] at h ⊢
    split at h
    · rename_i h1; rw [if_pos h1]; exact h
    · rename_i h1
      rw [if_neg h1]
      cases ha : values[index.toNat]? with
      | none => rw [ha] at h; exact h
      | some a =>
        cases hb : values[index.toNat + 1]? with
        | none =>
          rw [ha, hb] at h
          dsimp only at h ⊢
          split
          · rename_i h2; rw [if_pos h2] at h; exact ih h (by omega)
          · rename_i h2; rw [if_neg h2] at h; exact h
        | some b =>
          rw [ha, hb] at h
          dsimp only at h ⊢
          split
          · rename_i h2; rw [if_pos h2] at h; exact ih h (by omega)
          · rename_i h2; rw [if_neg h2] at h
            split
            · rename_i h3; rw [if_pos h3] at h; exact ih h (by omega)
            · rename_i h3; rw [if_neg h3] at h; exact h

theorem search_spec {guess : Int → F64 → Int} {values : List F64} {t : F64} {n : Nat} (hn : 0 < n)
    (hl : values.length = n + 1) {lo hi : F64} (hlo : values[0]? = some lo) (hhi : values[n]? = some hi)
    (h1 : F64.lt t lo = false) (h2 : F64.le hi t = false) (hg : GoodGuess guess n t) :
    ∃ i : Nat, (∀ fuel, n ≤ fuel → search guess fuel n values t = some (.ok i)) ∧ i < n ∧
      (∀ v, values[i]? = some v → F64.lt t v = false) ∧ (∀ v, values[i + 1]? = some v → F64.le v t = false) := by
  obtain ⟨g0, g1⟩ := hg
  have key := fun fuel (hf : n ≤ fuel) => searchLoop_spec (t := t) (n := n) hl (fuel := fuel) (lower := 0) (upper := (n : Int) - 1)
    (index := guess ((n : Int) - 1) t) (by omega) g0 (by omega) (by omega)
    (by intro v hv; rw [show (0 : Int).toNat = 0 from rfl, hlo] at hv; cases hv; exact h1)
    (by
      intro v hv
      have e : ((n : Int) - 1).toNat + 1 = n := by omega
      rw [e, hhi] at hv; cases hv; exact h2) (by omega)
  obtain ⟨i, hi1, hi2⟩ := key n (Nat.le_refl n)
  exact ⟨i, fun fuel hf => searchLoop_mono hi1 hf, hi2⟩

theorem not_nan_lt {t v : F64} {x a : Int} (ht : realValue t = some x) (hv : realValue v = some a) :
    F64.lt t v = false → a ≤ x := by
  intro h
  by_cases hx : x < a
  · rw [(f64_lt_iff _ _).mpr ⟨x, a, ht, hv, hx⟩] at h; cases h
  · omega

theorem not_nan_le {t v : F64} {x a : Int} (ht : realValue t = some x) (hv : realValue v = some a) :
    F64.le v t = false → x < a := by
  intro h
  by_cases hx : a ≤ x
  · rw [(f64_le_iff _ _).mpr ⟨a, x, hv, ht, hx⟩] at h; cases h
  · omega

theorem areaHolds_lt {lo hi t : F64} (h : AreaHolds lo hi t) : F64.lt t lo = false ∧ F64.le hi t = false := by
  obtain ⟨a, b, x, h1, h2, h3, h4, h5⟩ := h
  constructor
  · exact le_not_lt ((f64_le_iff _ _).mpr ⟨a, x, h1, h3, h4⟩)
  · exact lt_not_le ((f64_lt_iff _ _).mpr ⟨x, b, h3, h2, h5⟩)

theorem areaHolds_of {lo hi t : F64} (h1 : F64.le lo t = true) (h2 : F64.lt t hi = true) : AreaHolds lo hi t := by
  obtain ⟨a, x, h3, h4, h5⟩ := (f64_le_iff _ _).mp h1
  obtain ⟨y, b, h6, h7, h8⟩ := (f64_lt_iff _ _).mp h2
  rw [h4] at h6; cases h6
  exact ⟨a, b, x, h3, h7, h4, h5, h8⟩

theorem partials_get (ops : FloatOps) : ∀ {l : List F64} {acc : F64} {i : Nat}, i < l.length →
    (FloatOps.partials ops acc l)[i]? = some ((l.take (i + 1)).foldl ops.add acc) := by
  intro l
  induction l with
  | nil => intro acc i h; simp at h
  | cons a l ih =>
    intro acc i h
    cases i with
    | zero => simp [FloatOps.partials]
    | succ i =>
      simp only [FloatOps.partials, List.getElem?_cons_succ, List.take_succ_cons, List.foldl_cons]
      exact ih (by simpa using h)

theorem partials_len (ops : FloatOps) : ∀ (l : List F64) (acc : F64), (FloatOps.partials ops acc l).length = l.length := by
  intro l
  induction l with
  | nil => intro acc; rfl
  | cons a l ih => intro acc; simp [FloatOps.partials, ih]

/-- The bounds of areas: zero, then normalised partial sums, then one. -/
theorem normalizeAreas_get (ops : FloatOps) {l : List F64} {inv : F64} {i : Nat} (h : i + 1 < l.length) :
    (normalizeAreas ops l inv)[i + 1]? = some (ops.mul (l.take (i + 1) |>.foldl ops.add F64.zero) inv) := by
  unfold normalizeAreas
  rw [List.getElem?_cons_succ, List.getElem?_append_left (by simp [partials_len]; omega), List.getElem?_dropLast]
  rw [if_pos (by simp [partials_len]; omega), List.getElem?_map, partials_get ops (by omega)]
  rfl

theorem normalizeAreas_shape (ops : FloatOps) {l : List F64} {inv : F64} (h : 0 < l.length) :
    (normalizeAreas ops l inv).length = l.length + 1 ∧ (normalizeAreas ops l inv)[0]? = some F64.zero ∧
    (normalizeAreas ops l inv)[l.length]? = some F64.one := by
  have hlen : ((FloatOps.partials ops F64.zero l).map (ops.mul · inv)).dropLast.length = l.length - 1 := by
    simp [partials_len]
  refine ⟨?_, rfl, ?_⟩
  · unfold normalizeAreas
    simp only [List.length_cons, List.length_append, hlen, List.length_nil]
    omega
  · unfold normalizeAreas
    obtain ⟨k, hk⟩ : ∃ k, l.length = k + 1 := ⟨l.length - 1, by omega⟩
    rw [hk] at hlen ⊢
    rw [List.getElem?_cons_succ, List.getElem?_append_right (by omega), hlen]
    simp

theorem sumAreas_ok {ops : FloatOps} : ∀ {l : List F64} {acc s : F64}, sumAreas ops acc l = .ok s →
    s = l.foldl ops.add acc ∧ ∀ a ∈ l, F64.lt a F64.zero = false := by
  intro l
  induction l with
  | nil => intro acc s h; cases h; exact ⟨rfl, by simp⟩
  | cons a l ih =>
    intro acc s h
    simp only [sumAreas] at h
    split at h
    · cases h
    · rename_i hlt
      obtain ⟨h1, h2⟩ := ih h
      refine ⟨h1, fun x hx => ?_⟩
      rcases List.mem_cons.mp hx with rfl | hx
      · simpa using hlt
      · exact h2 x hx

/-- What an accepted creation gives. -/
theorem createRoulette_ok {ops : FloatOps} {l : List F64} {r : Roulette} (h : createRoulette ops l = .ok r) :
    0 < l.length ∧ l.length ≤ 2 ^ 63 - 1 ∧ (∀ a ∈ l, F64.lt a F64.zero = false) ∧
    F64.feq (ops.total l) F64.zero = false ∧ F64.isFinite (ops.div F64.one (ops.total l)) = true ∧
    r = ⟨l.length, normalizeAreas ops l (ops.div F64.one (ops.total l))⟩ := by
  unfold createRoulette at h
  by_cases h1 : l.length = 0 ∨ 2 ^ 63 - 1 < l.length
  · rw [refute_true h1] at h; cases h
  · rw [refute_false h1, Out.bind_ok] at h
    unfold validateAreas at h
    cases hs : sumAreas ops F64.zero l with
    | ub => rw [hs] at h; cases h
    | err e => rw [hs] at h; cases h
    | ok s =>
      obtain ⟨rfl, hn⟩ := sumAreas_ok hs
      rw [hs, Out.bind_ok] at h
      by_cases h2 : F64.feq (l.foldl ops.add F64.zero) F64.zero = true
      · rw [refute_true h2] at h; cases h
      · rw [refute_false h2, Out.bind_ok] at h
        by_cases h3 : (F64.isNaN (ops.div F64.one (l.foldl ops.add F64.zero)) ||
            !F64.isFinite (ops.div F64.one (l.foldl ops.add F64.zero))) = true
        · rw [refute_true h3] at h; cases h
        · rw [refute_false h3, Out.bind_ok, Out.bind_ok] at h
          cases h
          simp only [Bool.or_eq_true, not_or, Bool.not_eq_true, Bool.not_eq_false'] at h3
          exact ⟨by omega, by omega, hn, (Bool.not_eq_true _).mp h2, h3.2, rfl⟩

end CCS
