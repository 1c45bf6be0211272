import Verif.Lemmas.Ieee
import Verif.Props.Tree

/-!
# Roulette selection

Property C74.
-/

namespace CCS.Props

open CCS CCS.Spec

/-- Selection among `n` areas whose bounds are numbers, the first at or below the draw and the last above it, ends after
at most `n` turns, with an area that holds the draw.  The bounds need not be sorted.  Missing for the full property: bounds
that are NaN (`C74_nan_area`). -/
theorem C74_selection_partial {guess : Int → F64 → Int} {values : List F64} {t : F64} {n : Nat} (hn : 0 < n)
    (hl : values.length = n + 1) {lo hi : F64} (hlo : values[0]? = some lo) (hhi : values[n]? = some hi)
    (hnum : ∀ v ∈ values, ¬ NotANumber v) (ht : AreaHolds lo hi t) (hg : GoodGuess guess n t) :
    ∃ i : Nat, (∀ fuel, n ≤ fuel → search guess fuel n values t = some (.ok i)) ∧ i < n ∧ AreaOf values i t := by
  obtain ⟨h1, h2⟩ := areaHolds_lt ht
  obtain ⟨i, h3, h4, h5, h6⟩ := search_spec hn hl hlo hhi h1 h2 hg
  refine ⟨i, h3, h4, ?_⟩
  obtain ⟨-, -, x, -, -, hx, -⟩ := ht
  have ha : i < values.length := by omega
  have hb : i + 1 < values.length := by omega
  have na := hnum values[i] (List.getElem_mem ha)
  have nb := hnum values[i + 1] (List.getElem_mem hb)
  obtain ⟨a, hva⟩ := Option.ne_none_iff_exists'.mp na
  obtain ⟨b, hvb⟩ := Option.ne_none_iff_exists'.mp nb
  exact ⟨_, _, List.getElem?_eq_getElem ha, List.getElem?_eq_getElem hb, a, b, x, hva, hvb, hx,
    not_nan_lt hx hva (h5 _ (List.getElem?_eq_getElem ha)), not_nan_le hx hvb (h6 _ (List.getElem?_eq_getElem hb))⟩

/-- Whatever the bounds in between, NaN included, selection ends, with one of the areas: it never reads outside of the
bounds. -/
theorem C74_terminates {guess : Int → F64 → Int} {values : List F64} {t : F64} {n : Nat} (hn : 0 < n)
    (hl : values.length = n + 1) {lo hi : F64} (hlo : values[0]? = some lo) (hhi : values[n]? = some hi)
    (ht : AreaHolds lo hi t) (hg : GoodGuess guess n t) :
    ∃ i : Nat, (∀ fuel, n ≤ fuel → search guess fuel n values t = some (.ok i)) ∧ i < n := by
  obtain ⟨h1, h2⟩ := areaHolds_lt ht
  obtain ⟨i, h3, h4, -⟩ := search_spec hn hl hlo hhi h1 h2 hg
  exact ⟨i, h3, h4⟩

/-- An area of zero width is never selected. -/
theorem C74_zero_width_partial {guess : Int → F64 → Int} {values : List F64} {t : F64} {n fuel i : Nat} (hn : 0 < n)
    (hl : values.length = n + 1) {lo hi : F64} (hlo : values[0]? = some lo) (hhi : values[n]? = some hi)
    (hnum : ∀ v ∈ values, ¬ NotANumber v) (ht : AreaHolds lo hi t) (hg : GoodGuess guess n t)
    (hs : search guess fuel n values t = some (.ok i)) {a b : F64} (ha : values[i]? = some a) (hb : values[i + 1]? = some b) :
    realValue a ≠ realValue b := by
  obtain ⟨j, h1, h2, a', b', h3, h4, x, y, z, h5, h6, h7, h8, h9⟩ := C74_selection_partial hn hl hlo hhi hnum ht hg
  have hij : (i : Int) = j := by
    have e1 := searchLoop_mono hs (Nat.le_max_left fuel n)
    have e2 := h1 _ (Nat.le_max_right fuel n)
    unfold search at e2
    rw [e1] at e2
    exact Out.ok.inj (Option.some.inj e2)
  have : i = j := by omega
  subst this
  rw [ha] at h3; cases h3
  rw [hb] at h4; cases h4
  rw [h5, h6]
  intro h
  have := Option.some.inj h
  omega

/-- Four areas, the second empty: 0.5 and 0.25 are in the third. -/
def exBounds : List F64 := [F64.zero, 0x3fd0000000000000#64, 0x3fd0000000000000#64, 0x3fe8000000000000#64, F64.one]

example : AreaHolds F64.zero F64.one dHalf ∧ GoodGuess Ieee.guess 4 dHalf ∧ (∀ v ∈ exBounds, ¬ NotANumber v) ∧
    search Ieee.guess 4 4 exBounds dHalf = some (.ok 2) ∧
    search Ieee.guess 4 4 exBounds 0x3fd0000000000000#64 = some (.ok 2) := by
  refine ⟨areaHolds_of (by decide +kernel) (by decide +kernel),
    IeeeLemmas.guess_good (by omega) (by omega) (areaHolds_of (by decide +kernel) (by decide +kernel)), ?_,
    by decide +kernel, by decide +kernel⟩
  have h : exBounds.all (fun v => !F64.isNaN v) = true := by decide +kernel
  intro v hv hnan
  have := List.all_eq_true.mp h v hv
  rw [(realValue_none v).mp hnan] at this
  cases this

/-- The guess computed by the code is one of the areas, for at most `2^53` areas and any draw in `[0, 1)`. -/
theorem C74_guess {n : Nat} {t : F64} (h0 : 0 < n) (h : n ≤ 2 ^ 53) (ht : UnitDraw t) : GoodGuess Ieee.guess n t :=
  IeeeLemmas.guess_good h0 h ht

/-- Every sample of a roulette distribution is one of its areas, for any arithmetic: sampling ends, reads only the bounds, and stays
within the bounds the distribution reports, `[0, n)`. -/
theorem C74_samples_in_bounds {ops : FloatOps} {guess : Int → F64 → Int} {ws : List F64} {r : Roulette}
    (hr : createRoulette ops ws = .ok r) {draws : List F64} (hd : ∀ t ∈ draws, UnitDraw t ∧ GoodGuess guess ws.length t) :
    ∃ is, (∀ fuel, ws.length ≤ fuel → r.samples guess fuel draws = some (.ok is)) ∧ is.length = draws.length ∧
      ∀ i ∈ is, 0 ≤ i ∧ i < ws.length ∧ Mem r.bounds (BitVec.ofInt 64 i) := by
  obtain ⟨h1, hmax, -, -, -, rfl⟩ := createRoulette_ok hr
  obtain ⟨hl, hfirst, hlast⟩ := normalizeAreas_shape ops (inv := ops.div F64.one (ops.total ws)) h1
  induction draws with
  | nil => exact ⟨[], fun _ _ => rfl, rfl, by simp⟩
  | cons t ts ih =>
    obtain ⟨is, h2, h3, h4⟩ := ih (fun t ht => hd t (List.mem_cons_of_mem _ ht))
    obtain ⟨ht, hg⟩ := hd t (List.mem_cons_self ..)
    obtain ⟨i, h5, h6⟩ := C74_terminates h1 hl hfirst hlast ht hg
    refine ⟨i :: is, fun fuel hf => ?_, by simp [h3], ?_⟩
    · simp only [Roulette.samples, h5 fuel hf, h2 fuel hf]
    · intro j hj
      rcases List.mem_cons.mp hj with rfl | hj
      · refine ⟨by omega, by omega, 0, i, ws.length, by rfl, ?_, ?_, ?_, .inl (by omega)⟩
        · show some (BitVec.ofInt 64 i).toInt = some (i : Int)
          rw [BitVec.toInt_ofInt, Int.bmod_eq_of_le (by omega) (by omega)]
        · show some (BitVec.ofNat 64 ws.length).toInt = some (ws.length : Int)
          rw [BitVec.toInt_eq_toNat_of_lt (by rw [BitVec.toNat_ofNat, Nat.mod_eq_of_lt (by omega)]; omega), BitVec.toNat_ofNat, Nat.mod_eq_of_lt (by omega)]
        · rcases Nat.eq_zero_or_pos i with rfl | h
          · exact .inr ⟨by simp [Roulette.bounds], rfl⟩
          · exact .inl (by omega)
      · exact h4 j hj

/-- With IEEE arithmetic, areas that have a finite total give bounds that are all numbers: every selected area holds the
draw, and an area given as zero is never selected, except the last one (`C74_last_zero_selected`). -/
theorem C74_roulette_partial {ws : List F64} {r : Roulette} (hr : createRoulette ieee ws = .ok r)
    (hfin : F64.isFinite (ieee.total ws) = true) (hsize : ws.length ≤ 2 ^ 53) {t : F64} (ht : UnitDraw t) :
    ∃ i : Nat, (∀ fuel, ws.length ≤ fuel → r.samples Ieee.guess fuel [t] = some (.ok [(i : Int)])) ∧ i < ws.length ∧
      AreaOf r.areas i t ∧ (i + 1 < ws.length → ∀ w, ws[i]? = some w → realValue w ≠ some 0) := by
  obtain ⟨h1, hmax, -, -, hinv, rfl⟩ := createRoulette_ok hr
  obtain ⟨hl, hfirst, hlast⟩ := normalizeAreas_shape ieee (inv := ieee.div F64.one (ieee.total ws)) h1
  have hpart : ∀ i, F64.isFinite ((ws.take i).foldl Ieee.add F64.zero) = true := by
    intro i
    have : ieee.total ws = (ws.drop i).foldl Ieee.add ((ws.take i).foldl Ieee.add F64.zero) := by
      rw [← List.foldl_append, List.take_append_drop]; rfl
    rw [this] at hfin
    exact IeeeLemmas.foldl_finite hfin
  have hnum : ∀ v ∈ normalizeAreas ieee ws (ieee.div F64.one (ieee.total ws)), ¬ NotANumber v := by
    intro v hv hnan
    obtain ⟨i, hi, rfl⟩ := List.getElem_of_mem hv
    rw [hl] at hi
    have hnan' := (realValue_none _).mp hnan
    have hget : (normalizeAreas ieee ws (ieee.div F64.one (ieee.total ws)))[i]? =
      some (normalizeAreas ieee ws (ieee.div F64.one (ieee.total ws)))[i] := List.getElem?_eq_getElem (by omega)
    rcases Nat.eq_zero_or_pos i with rfl | h0
    · rw [hfirst] at hget
      rw [← Option.some.inj hget] at hnan'
      exact absurd hnan' (by decide)
    · rcases Nat.lt_or_ge i ws.length with h2 | h2
      · obtain ⟨j, rfl⟩ : ∃ j, i = j + 1 := ⟨i - 1, by omega⟩
        rw [normalizeAreas_get ieee h2] at hget
        rw [← Option.some.inj hget] at hnan'
        have := IeeeLemmas.mul_num (hpart (j + 1)) hinv
        rw [show ieee.mul = Ieee.mul from rfl, show ieee.add = Ieee.add from rfl] at hnan'
        rw [this] at hnan'; cases hnan'
      · have : i = ws.length := by omega
        subst this
        rw [hlast] at hget
        rw [← Option.some.inj hget] at hnan'
        exact absurd hnan' (by decide)
  obtain ⟨i, h2, h3, h4⟩ := C74_selection_partial h1 hl hfirst hlast hnum ht (C74_guess h1 hsize ht)
  refine ⟨i, fun fuel hf => ?_, h3, h4, ?_⟩
  · simp only [Roulette.samples, h2 fuel hf]
  · intro hi w hw hz
    obtain ⟨lo, hi', h5, h6, a, b, x, h7, h8, -, h9, h10⟩ := h4
    have e6 := normalizeAreas_get ieee (inv := ieee.div F64.one (ieee.total ws)) hi
    rw [h6] at e6
    have e6 := Option.some.inj e6
    have htake : ws.take (i + 1) = ws.take i ++ [w] := by
      rw [List.take_add_one, hw]; rfl
    have hsum : (ws.take (i + 1)).foldl ieee.add F64.zero = (ws.take i).foldl ieee.add F64.zero := by
      rw [htake, List.foldl_append]
      exact IeeeLemmas.add_zero (IeeeLemmas.finite_num (hpart i)).1 (IeeeLemmas.foldl_ne_negzero (by decide)) hz
    rw [hsum] at e6
    rcases Nat.eq_zero_or_pos i with rfl | h0
    · rw [hfirst] at h5
      cases h5
      rw [IeeeLemmas.realValue_zero] at h7; cases h7
      rw [e6] at h8
      have := IeeeLemmas.zero_mul (z := F64.zero) IeeeLemmas.realValue_zero hinv
      rw [show ieee.mul = Ieee.mul from rfl] at h8
      simp only [List.take_zero, List.foldl_nil] at h8
      rw [this] at h8; cases h8
      omega
    · obtain ⟨j, rfl⟩ : ∃ j, i = j + 1 := ⟨i - 1, by omega⟩
      rw [normalizeAreas_get ieee h3] at h5
      have h5 := Option.some.inj h5
      rw [h5] at e6
      rw [e6, h7] at h8
      cases h8
      omega

example : (match createRoulette ieee [F64.one, F64.zero, dThree] with
    | .ok r => decide (r.areas = [F64.zero, 0x3fd0000000000000#64, 0x3fd0000000000000#64, F64.one]) &&
        decide (r.samples Ieee.guess 3 [dHalf, 0x3fc0000000000000#64] = some (.ok [2, 0]))
    | _ => false) = true ∧ F64.isFinite (ieee.total [F64.one, F64.zero, dThree]) = true := by decide +kernel

/-- The property fails when an area is infinite: the creation is accepted, bounds are NaN, and an area given as zero is
selected. -/
theorem C74_nan_area : (match createRoulette ieee [0x7ff0000000000000#64, F64.zero, F64.one] with
    | .ok r => decide (r.areas = [F64.zero, Ieee.nan, Ieee.nan, F64.one]) &&
        decide (r.samples Ieee.guess 3 [dHalf] = some (.ok [1]))
    | _ => false) = true ∧ UnitDraw dHalf ∧ ¬ AreaOf [F64.zero, Ieee.nan, Ieee.nan, F64.one] 1 dHalf := by
  refine ⟨by decide +kernel, areaHolds_of (by decide +kernel) (by decide +kernel), ?_⟩
  rintro ⟨lo, hi, h1, h2, a, b, x, h3, -⟩
  cases h1
  rw [(realValue_none _).mpr (by decide +kernel)] at h3
  cases h3

/-- An area given as zero in last position is selected by the largest draw when the inverse of the total rounds down. -/
theorem C74_last_zero_selected : (match createRoulette ieee [0x4048800000000000#64, F64.zero] with
    | .ok r => decide (r.samples Ieee.guess 2 [0x3fefffffffffffff#64] = some (.ok [1]))
    | _ => false) = true ∧ UnitDraw 0x3fefffffffffffff#64 :=
  ⟨by decide +kernel, areaHolds_of (by decide +kernel) (by decide +kernel)⟩

end CCS.Props
