import Verif.Lemmas.Near

/-! The intervals of draws that lead to an outcome. -/

namespace CCS

open Spec

namespace IeeeLemmas

open Ieee

/-- The draws that select area `i`. -/
def drawSpan (values : List F64) (i : Nat) : ℚ × ℚ :=
  (min 1 (toRat (values.getD i F64.zero)), min 1 (toRat (values.getD (i + 1) F64.zero)))

theorem unit_rat {t : F64} (h : UnitDraw t) : F64.isNaN t = false ∧ 0 ≤ toRat t ∧ toRat t < 1 := by
  obtain ⟨a, b, x, h1, h2, h3, h4, h5⟩ := h
  have hn : F64.isNaN t = false := by
    cases h : F64.isNaN t with
    | false => rfl
    | true => rw [(realValue_none t).mpr h] at h3; cases h3
  rw [realValue_signed hn] at h3
  have e1 : realValue F64.zero = some (signed F64.zero) := realValue_signed (by decide)
  have e2 : realValue F64.one = some (signed F64.one) := realValue_signed (by decide)
  rw [e1] at h1
  rw [e2] at h2
  have h1 := Option.some.inj h1
  have h2 := Option.some.inj h2
  have h3 := Option.some.inj h3
  refine ⟨hn, ?_, ?_⟩
  · rw [← toRat_zero, toRat_le, h1, h3]; exact h4
  · rw [← toRat_one, toRat_lt, h2, h3]; exact h5

variable {ws : List F64}

/-- What the areas of weights with a usable total are like. -/
structure Usable (ws : List F64) : Prop where
  nonneg : ∀ w ∈ ws, 0 ≤ signed w
  len : 0 < ws.length
  size : ws.length ≤ 2 ^ 49
  fin : F64.isFinite (ieee.total ws) = true
  pos : 0 < signed (ieee.total ws)
  inv : F64.isFinite (div F64.one (ieee.total ws)) = true

abbrev areasOf (ws : List F64) : List F64 := normalizeAreas ieee ws (div F64.one (ieee.total ws))

theorem Usable.getD (h : Usable ws) {i : Nat} (hi : i ≤ ws.length) : (areasOf ws)[i]? = some ((areasOf ws).getD i F64.zero) := by
  have hl : (areasOf ws).length = ws.length + 1 := (normalizeAreas_shape ieee h.len).1
  rw [List.getD_eq_getElem?_getD, List.getElem?_eq_getElem (by omega)]
  rfl

theorem Usable.mono (h : Usable ws) {i j : Nat} (hij : i ≤ j) (hj : j < ws.length) :
    toRat ((areasOf ws).getD i F64.zero) ≤ toRat ((areasOf ws).getD j F64.zero) := by
  obtain ⟨-, -, hm⟩ := areas_near h.nonneg h.len h.size h.fin h.pos h.inv
  induction j with
  | zero => rw [Nat.le_zero.mp hij]
  | succ j ih =>
    rcases Nat.lt_or_ge i (j + 1) with h1 | h1
    · refine (ih (by omega) (by omega)).trans (toRat_le.mpr (hm j _ _ hj (h.getD (by omega)) (h.getD (by omega))))
    · rw [show i = j + 1 by omega]

theorem Usable.span_unit (h : Usable ws) {i : Nat} (hi : i < ws.length) :
    0 ≤ (drawSpan (areasOf ws) i).1 ∧ (drawSpan (areasOf ws) i).1 ≤ (drawSpan (areasOf ws) i).2 ∧ (drawSpan (areasOf ws) i).2 ≤ 1 := by
  obtain ⟨-, hn, -⟩ := areas_near h.nonneg h.len h.size h.fin h.pos h.inv
  refine ⟨le_min zero_le_one (hn i _ (h.getD (by omega))).2.1, ?_, min_le_left _ _⟩
  rcases Nat.lt_or_ge (i + 1) ws.length with h1 | h1
  · exact min_le_min_left 1 (h.mono (Nat.le_succ i) h1)
  · have e : i + 1 = ws.length := by omega
    obtain ⟨-, -, hlast⟩ := normalizeAreas_shape ieee (inv := div F64.one (ieee.total ws)) h.len
    have : (areasOf ws).getD (i + 1) F64.zero = F64.one := by
      have := h.getD (i := i + 1) (by omega)
      rw [e, hlast] at this
      rw [e]; exact (Option.some.inj this).symm
    show min 1 _ ≤ min 1 _
    rw [this, toRat_one, min_self]
    exact min_le_left _ _

theorem near_min {x y e : ℚ} (hy : y ≤ 1) (h : |x - y| ≤ e) : |min 1 x - y| ≤ e := by
  rw [abs_le] at *
  rcases le_total 1 x with h1 | h1
  · rw [min_eq_left h1]; constructor <;> linarith
  · rw [min_eq_right h1]; exact h

/-- The width of a drawSpan is near the share of its weight. -/
theorem Usable.width (h : Usable ws) {i : Nat} {w : F64} (hw : ws[i]? = some w) :
    |(drawSpan (areasOf ws) i).2 - (drawSpan (areasOf ws) i).1 - toRat w / sumRat ws| ≤ (ws.length + 1) / 2 ^ 49 := by
  obtain ⟨hS, hn, -⟩ := areas_near h.nonneg h.len h.size h.fin h.pos h.inv
  have hi : i < ws.length := (List.getElem?_eq_some_iff.mp hw).1
  have hle : ∀ j, sumRat (ws.take j) / sumRat ws ≤ 1 := by
    intro j
    rw [div_le_one hS]
    have e : sumRat ws = sumRat (ws.take j) + sumRat (ws.drop j) := by rw [← sumRat_append, List.take_append_drop]
    have : 0 ≤ sumRat (ws.drop j) := sumRat_nonneg fun v hv => h.nonneg v (List.mem_of_mem_drop hv)
    linarith
  have h1 := near_min (hle _) (hn i _ (h.getD (by omega))).2.2
  have h2 := near_min (hle _) (hn (i + 1) _ (h.getD (by omega))).2.2
  have e : sumRat (ws.take (i + 1)) / sumRat ws = sumRat (ws.take i) / sumRat ws + toRat w / sumRat ws := by
    rw [List.take_add_one, hw, sumRat_append, add_div]
    simp [sumRat]
  rw [e] at h2
  show |min 1 _ - min 1 _ - _| ≤ _
  rw [abs_le] at *
  constructor <;> linarith

/-- Area `i` is selected exactly by the draws of its drawSpan. -/
theorem Usable.select (h : Usable ws) {t : F64} (ht : UnitDraw t) {fuel : Nat} (hf : ws.length ≤ fuel) (i : Nat) :
    search guess fuel ws.length (areasOf ws) t = some (.ok (i : Int)) ↔
      i < ws.length ∧ (drawSpan (areasOf ws) i).1 ≤ toRat t ∧ toRat t < (drawSpan (areasOf ws) i).2 := by
  obtain ⟨hS, hn, -⟩ := areas_near h.nonneg h.len h.size h.fin h.pos h.inv
  obtain ⟨hl, hfirst, hlast⟩ := normalizeAreas_shape ieee (inv := div F64.one (ieee.total ws)) h.len
  obtain ⟨ht1, ht2, ht3⟩ := unit_rat ht
  obtain ⟨u1, u2⟩ := areaHolds_lt ht
  have hsize := h.size
  obtain ⟨j, s1, s2, s3, s4⟩ := search_spec h.len hl hfirst hlast u1 u2 (guess_good h.len (by omega) ht)
  have hlo : toRat ((areasOf ws).getD j F64.zero) ≤ toRat t := by
    have hg := h.getD (i := j) (by omega)
    exact toRat_le.mpr (not_nan_lt (realValue_signed ht1) (realValue_signed (hn j _ hg).1) (s3 _ hg))
  have hhi : toRat t < toRat ((areasOf ws).getD (j + 1) F64.zero) := by
    have hg := h.getD (i := j + 1) (by omega)
    exact toRat_lt.mpr (not_nan_le (realValue_signed ht1) (realValue_signed (hn (j + 1) _ hg).1) (s4 _ hg))
  rw [s1 fuel hf]
  constructor
  · intro he
    have : i = j := by have := Out.ok.inj (Option.some.inj he); omega
    subst this
    exact ⟨s2, (min_le_right _ _).trans hlo, lt_min ht3 hhi⟩
  · rintro ⟨h1, h2, h3⟩
    have h2' : toRat ((areasOf ws).getD i F64.zero) ≤ toRat t := by
      rcases min_le_iff.mp h2 with h | h
      · exact absurd ht3 (not_lt.mpr h)
      · exact h
    have h3' : toRat t < toRat ((areasOf ws).getD (i + 1) F64.zero) := (lt_min_iff.mp h3).2
    rcases Nat.lt_trichotomy i j with hij | hij | hij
    · have := h.mono (i := i + 1) (j := j) hij s2
      exact absurd (h3'.trans_le (this.trans hlo)) (lt_irrefl _)
    · rw [hij]
    · have := h.mono (i := j + 1) (j := i) hij h1
      exact absurd (hhi.trans_le (this.trans h2')) (lt_irrefl _)

theorem sumRat_range (ws : List F64) {n : Nat} (h : ws.length = n) :
    sumRat ws = ((List.range n).map fun i => toRat (ws.getD i F64.zero)).sum := by
  unfold sumRat
  congr 1
  apply List.ext_getElem
  · simp [h]
  · intro i h1 h2
    simp only [List.length_map] at h1
    simp [List.getD_eq_getElem?_getD, List.getElem?_eq_getElem h1]

theorem sum_near {α : Type} {W S : α → ℚ} {e : ℚ} {l : List α} (h : ∀ i ∈ l, |W i - S i| ≤ e * S i) :
    |(l.map W).sum - (l.map S).sum| ≤ e * (l.map S).sum := by
  induction l with
  | nil => simp
  | cons a l ih =>
    have h1 := h a (List.mem_cons_self ..)
    have h2 := ih fun i hi => h i (List.mem_cons_of_mem _ hi)
    simp only [List.map_cons, List.sum_cons]
    rw [abs_le] at *
    constructor <;> linarith

theorem mem_finite {ws : List F64} (hfin : F64.isFinite (ieee.total ws) = true) {w : F64} (hw : w ∈ ws) : F64.isFinite w = true := by
  obtain ⟨i, hi, rfl⟩ := List.getElem_of_mem hw
  have hf := prefix_finite hfin (i + 1)
  rw [List.take_add_one, List.getElem?_eq_getElem hi, Option.toList_some, List.foldl_append] at hf
  exact (add_finite hf).2

theorem nonneg_signed {x : F64} (hf : F64.isFinite x = true) (h : NonNeg x) : 0 ≤ signed x := by
  rcases nonNeg_iff.mp h with h | h
  · rw [(finite_num hf).1] at h; cases h
  · exact h

theorem same_rat {a b : F64} (h : SameNumber a b) : toRat a = toRat b ∧ (F64.isFinite a = F64.isFinite b) := by
  rcases h with rfl | ⟨x, h1, h2⟩
  · exact ⟨rfl, rfl⟩
  · have ha : F64.isNaN a = false := by
      cases h : F64.isNaN a with
      | false => rfl
      | true => rw [(realValue_none a).mpr h] at h1; cases h1
    have hb : F64.isNaN b = false := by
      cases h : F64.isNaN b with
      | false => rfl
      | true => rw [(realValue_none b).mpr h] at h2; cases h2
    rw [realValue_signed ha] at h1
    rw [realValue_signed hb] at h2
    have e : signed a = signed b := (Option.some.inj h1).trans (Option.some.inj h2).symm
    refine ⟨by rw [toRat_eq, toRat_eq, e], ?_⟩
    have : low a = low b := by
      rw [signed_low, signed_low] at e
      have e' : uval (low a) = uval (low b) := by split at e <;> split at e <;> omega
      exact Nat.le_antisymm (uval_le_iff.mp e'.le) (uval_le_iff.mp e'.ge)
    rw [isFinite_low, isFinite_low, this]

end IeeeLemmas

namespace Forest

open IeeeLemmas

theorem dues_cons (a : List Nat × ℚ) (l : List (List Nat × ℚ)) : dues (a :: l) = a.2 + dues l := rfl

theorem dues_flatMap {α : Type} (l : List α) (g : α → List (List Nat × ℚ)) : dues (l.flatMap g) = (l.map fun a => dues (g a)).sum := by
  induction l with
  | nil => rfl
  | cons a l ih =>
    rw [List.flatMap_cons, List.map_cons, List.sum_cons, ← ih]
    unfold dues
    rw [List.map_append, List.sum_append]

theorem dues_map (i : Nat) (b : ℚ) (l : List (List Nat × ℚ)) : dues (l.map fun e => (i :: e.1, b * e.2)) = b * dues l := by
  induction l with
  | nil => simp [dues]
  | cons a l ih => rw [List.map_cons, dues_cons, ih, dues_cons, mul_add]

/-- What slot `i` of a node is due. -/
def slotDue (f : Forest) (depth h i : Nat) : ℚ :=
  match f.getChild h i with
  | .ok none => 1
  | .ok (some c) => biasOf f c * dues (ends f depth c)
  | _ => 0

theorem dues_ends {f : Forest} {h : Nat} {n : TreeNode} (hn : f.node h = some n) (m : Nat) :
    dues (ends f (m + 1) h) = ((List.range n.arity).map (slotDue f m h)).sum + weightOf f h := by
  simp only [ends, hn]
  rw [dues_cons, dues_flatMap, add_comm]
  congr 3
  funext i
  unfold slotDue
  cases hc : f.getChild h i with
  | ok c =>
    cases c with
    | none => simp [dues]
    | some c => exact dues_map _ _ _
  | _ => rfl

theorem mem_ends {f : Forest} {h : Nat} {n : TreeNode} (hn : f.node h = some n) {m : Nat} {p : List Nat} {w : ℚ}
    (hm : (p, w) ∈ ends f (m + 1) h) : (p = [] ∧ w = weightOf f h) ∨
      (∃ i < n.arity, p = [i] ∧ w = 1 ∧ f.getChild h i = .ok none) ∨
      ∃ i < n.arity, ∃ c q v, p = i :: q ∧ w = biasOf f c * v ∧ f.getChild h i = .ok (some c) ∧ (q, v) ∈ ends f m c := by
  simp only [ends, hn, List.mem_cons, List.mem_flatMap, List.mem_range] at hm
  rcases hm with hm | ⟨i, hi, hm⟩
  · cases hm; exact .inl ⟨rfl, rfl⟩
  · right
    split at hm
    · rename_i hc
      rw [List.mem_singleton] at hm
      cases hm
      exact .inl ⟨i, hi, rfl, rfl, hc⟩
    · rename_i c hc
      obtain ⟨⟨q, v⟩, h1, h2⟩ := List.mem_map.mp hm
      cases h2
      exact .inr ⟨i, hi, c, q, v, rfl, rfl, hc, h1⟩
    · cases hm

theorem weightOf_eq {f : Forest} {h : Nat} {n : TreeNode} (hn : f.node h = some n) :
    weightOf f h = toRat (n.weights.getD n.arity F64.zero) := by
  simp only [weightOf, getWeight, hn]

theorem biasOf_eq {f : Forest} {h : Nat} {n : TreeNode} (hn : f.node h = some n) : biasOf f h = toRat n.bias := by
  simp only [biasOf, getBias, hn]

theorem Tame.child {f : Forest} {h i c breadth m : Nat} (ht : Tame f h breadth (m + 1)) (hc : f.getChild h i = .ok (some c)) :
    Tame f c breadth m :=
  ⟨fun hl => by have := ht.deep (.down hc hl); simp only [List.length_cons] at this; omega,
   fun hl => ht.wide (.down hc hl), fun hl => ht.total (.down hc hl), fun hl _ => ht.bias (.down hc hl) (by simp)⟩

theorem grain_normal : (1 : ℚ) / 2 ^ 1022 = 2 ^ 52 / grain := by
  unfold grain
  rw [show 1074 = 52 + 1022 by rfl, pow_add, div_mul_eq_div_div, div_self (by norm_num)]

/-- The relative error of a product that is not tiny. -/
theorem product_near {a b : F64} (ha : F64.isFinite a = true) (hb : F64.isFinite b = true) (h0 : 0 ≤ Ieee.signed a)
    (h1 : 0 ≤ Ieee.signed b) (hf : F64.isFinite (Ieee.mul a b) = true)
    (h : toRat a * toRat b = 0 ∨ 1 / 2 ^ 1022 ≤ toRat a * toRat b) :
    |toRat (Ieee.mul a b) - toRat a * toRat b| ≤ toRat a * toRat b / 2 ^ 53 := by
  rcases h with h | h
  · have hz : IeeeLemmas.low (Ieee.mul a b) = 0 := by
      rw [(mul_nonneg_mag ha hb h0 h1).2]
      have hm : Ieee.mag a * Ieee.mag b = 0 := by
        rw [toRat_mag h0, toRat_mag h1, div_mul_div_comm, div_eq_zero_iff] at h
        rcases h with h | h
        · exact_mod_cast h
        · exact absurd h (mul_pos grain_pos grain_pos).ne'
      rw [hm]
      exact Nat.le_zero.mp (roundMag_le (Nat.two_pow_pos _) (Nat.zero_le _))
    have hs : Ieee.signed (Ieee.mul a b) = 0 := by
      rw [signed_low, hz, uval_zero]; split <;> rfl
    rw [h, toRat_eq, hs]
    simp
  · rcases (mul_near ha hb h0 h1 hf).2 with h2 | ⟨-, h2⟩
    · exact h2
    · refine h2.trans ?_
      rw [grain_normal] at h
      have e : (2 : ℚ) ^ 52 / grain = 2 ^ 53 * (1 / 2 / grain) := by ring
      rw [e] at h
      rw [le_div_iff₀ (by norm_num), mul_comm]
      exact h

/-- What is known of one node of a tame tree. -/
theorem node_near {f : Forest} (hg : GrownForest ieee f) {breadth : Nat} (hB : breadth ≤ 2 ^ 40) {m h : Nat} {n : TreeNode}
    (hn : f.node h = some n) (hw : n.arity ≤ breadth) (hfin : F64.isFinite n.sum = true) {e : ℚ} (he0 : 0 ≤ e) (he : e ≤ 1 / 16)
    (hdue : ∀ i c, f.getChild h i = .ok (some c) → ∃ x, f.node c = some x ∧ F64.isFinite x.sum = true ∧ F64.isFinite x.bias = true ∧
      (toRat x.sum * toRat x.bias = 0 ∨ 1 / 2 ^ 1022 ≤ toRat x.sum * toRat x.bias) ∧
      |toRat x.sum - dues (ends f m c)| ≤ e * dues (ends f m c)) :
    (∀ i ≤ n.arity, |toRat (n.weights.getD i F64.zero) - (if i < n.arity then slotDue f m h i else weightOf f h)| ≤
      (e + 1 / 2 ^ 52) * (if i < n.arity then slotDue f m h i else weightOf f h)) ∧
    |sumRat n.weights - dues (ends f (m + 1) h)| ≤ (e + 1 / 2 ^ 52) * dues (ends f (m + 1) h) ∧
    |toRat n.sum - dues (ends f (m + 1) h)| ≤ (e + (breadth + 2) / 2 ^ 51) * dues (ends f (m + 1) h) := by
  have hh := grown_healthy hg
  have hk := hh.ok hn
  have hnn := grown_nonNeg hg hn
  have htot : n.sum = ieee.total n.weights := hk.sum
  rw [htot] at hfin ⊢
  have hwf : ∀ w ∈ n.weights, F64.isFinite w = true := fun w hw => mem_finite hfin hw
  have hws : ∀ w ∈ n.weights, 0 ≤ Ieee.signed w := fun w hw => nonneg_signed (hwf w hw) (hnn.weights w hw)
  have hmem : ∀ i, i ≤ n.arity → n.weights.getD i F64.zero ∈ n.weights ∧ n.weights[i]? = some (n.weights.getD i F64.zero) := by
    intro i hi
    have hl := hk.weights
    rw [List.getD_eq_getElem?_getD, List.getElem?_eq_getElem (by omega)]
    exact ⟨List.getElem_mem _, rfl⟩
  have hslots : ∀ i ≤ n.arity, |toRat (n.weights.getD i F64.zero) - (if i < n.arity then slotDue f m h i else weightOf f h)| ≤
      (e + 1 / 2 ^ 52) * (if i < n.arity then slotDue f m h i else weightOf f h) := by
    intro i hi
    by_cases hia : i < n.arity
    · rw [if_pos hia]
      have hic : i < n.children.length := by rw [hk.children]; exact hia
      have hgc : f.getChild h i = .ok n.children[i] := by
        simp only [getChild, hn]
        rw [if_neg (by omega), List.getD_eq_getElem?_getD, List.getElem?_eq_getElem hic]
        rfl
      have hsw := hh.weighed hn (by simp) (List.getElem?_eq_getElem hic) (hmem i hi).2
      unfold slotDue
      rw [hgc]
      cases hc : n.children[i] with
      | none =>
        rw [hc] at hsw
        simp only [SlotWeight] at hsw
        show |_ - (1 : ℚ)| ≤ _ * 1
        rw [hsw, toRat_one, sub_self, abs_zero]
        positivity
      | some c =>
        rw [hc] at hsw hgc
        obtain ⟨x, hx, hsame⟩ := hsw
        obtain ⟨x', hx', f1, f2, f3, f4⟩ := hdue i c hgc
        rw [hx] at hx'
        cases hx'
        have hxn := grown_nonNeg hg hx
        obtain ⟨q1, q2⟩ := same_rat hsame
        rw [hwf _ (hmem i hi).1] at q2
        have s0 := nonneg_signed f1 hxn.sum
        have b0 := nonneg_signed f2 hxn.bias
        have hprod := product_near f1 f2 s0 b0 q2.symm f3
        show |_ - biasOf f c * dues (ends f m c)| ≤ _ * (biasOf f c * dues (ends f m c))
        rw [biasOf_eq hx, q1]
        change |toRat (Ieee.mul x.sum x.bias) - _| ≤ _
        have t0 := toRat_nonneg s0
        have u0 := toRat_nonneg b0
        generalize toRat (Ieee.mul x.sum x.bias) = z at *
        generalize toRat x.sum = s at *
        generalize toRat x.bias = b at *
        generalize dues (ends f m c) = T at *
        have hT : 0 ≤ T := by
          rw [abs_le] at f4
          by_contra hneg
          nlinarith
        have h1 : |s * b - b * T| ≤ e * (b * T) := by
          rw [show s * b - b * T = b * (s - T) by ring, abs_mul, abs_of_nonneg u0]
          have := mul_le_mul_of_nonneg_left f4 u0
          linarith
        have hbT : 0 ≤ b * T := mul_nonneg u0 hT
        generalize b * T = y at *
        generalize s * b = v at *
        rw [abs_le] at *
        have : e * y ≤ y := by nlinarith
        constructor <;> linarith
    · rw [if_neg hia]
      have : i = n.arity := by omega
      subst this
      rw [weightOf_eq hn, sub_self, abs_zero]
      have := toRat_nonneg (hws _ (hmem _ hi).1)
      positivity
  have hsum : sumRat n.weights = ((List.range (n.arity + 1)).map fun i => toRat (n.weights.getD i F64.zero)).sum :=
    sumRat_range _ hk.weights
  have hT : dues (ends f (m + 1) h) =
      ((List.range (n.arity + 1)).map fun i => if i < n.arity then slotDue f m h i else weightOf f h).sum := by
    rw [dues_ends hn, List.range_succ, List.map_append, List.sum_append, List.map_singleton, List.sum_singleton,
      if_neg (Nat.lt_irrefl _)]
    congr 2
    apply List.map_congr_left
    intro i hi
    rw [if_pos (List.mem_range.mp hi)]
  have hall : |sumRat n.weights - dues (ends f (m + 1) h)| ≤ (e + 1 / 2 ^ 52) * dues (ends f (m + 1) h) := by
    rw [hsum, hT]
    exact sum_near fun i hi => hslots i (by have := List.mem_range.mp hi; omega)
  refine ⟨hslots, hall, ?_⟩
  have hl := hk.weights
  have hp := (prefix_near hws hfin n.weights.length (Nat.le_refl _) (by omega)).2.1
  rw [List.take_length] at hp
  change |toRat (ieee.total n.weights) - _| ≤ _ at hp
  have hS := sumRat_nonneg hws
  have hB' : (n.weights.length : ℚ) / 2 ^ 52 ≤ (breadth + 1) / 2 ^ 52 := by
    rw [div_le_div_iff_of_pos_right (by norm_num), hl]
    push_cast
    have : (n.arity : ℚ) ≤ breadth := by exact_mod_cast hw
    linarith
  have hp := hp.trans (mul_le_mul_of_nonneg_right hB' hS)
  generalize toRat (ieee.total n.weights) = z at *
  generalize sumRat n.weights = S at *
  generalize dues (ends f (m + 1) h) = T at *
  clear hsum hT hslots hdue
  have hT0 : 0 ≤ T := by
    by_contra hneg
    rw [abs_le] at hall
    nlinarith
  have hbb : (0 : ℚ) ≤ breadth := by positivity
  generalize (breadth : ℚ) = B at *
  rw [abs_le] at hp hall
  have hST : S ≤ 2 * T := by nlinarith
  have h5 : (B + 1) / 2 ^ 52 * S ≤ (B + 1) / 2 ^ 51 * T := by
    have : 0 ≤ (B + 1) / 2 ^ 52 := by positivity
    have := mul_le_mul_of_nonneg_left hST this
    refine this.trans (le_of_eq ?_)
    ring
  have h6 : (e + (B + 2) / 2 ^ 51) * T = (e + 1 / 2 ^ 52) * T + (B + 1) / 2 ^ 51 * T + 1 / 2 ^ 52 * T := by ring
  have h7 : 0 ≤ 1 / 2 ^ 52 * T := by positivity
  rw [h6, abs_le]
  constructor <;> linarith

theorem getChild_cases {f : Forest} (hg : GrownForest ieee f) {h i : Nat} {n : TreeNode} (hn : f.node h = some n) (hi : i < n.arity) :
    ∃ c, n.children[i]? = some c ∧ f.getChild h i = .ok c := by
  have hk := (grown_healthy hg).ok hn
  have hic : i < n.children.length := by rw [hk.children]; exact hi
  refine ⟨n.children[i], List.getElem?_eq_getElem hic, ?_⟩
  simp only [getChild, hn]
  rw [if_neg (by omega), List.getD_eq_getElem?_getD, List.getElem?_eq_getElem hic]
  rfl

/-- The totals of a tame tree are near what its positions are due. -/
theorem total_near {f : Forest} (hg : GrownForest ieee f) {breadth K : Nat} (hK : K ≤ 2 ^ 40) : ∀ {m h : Nat} {n : TreeNode},
    f.node h = some n → Tame f h breadth m → (m + 1) * (breadth + 2) ≤ K →
    |toRat n.sum - dues (ends f (m + 1) h)| ≤ ((m + 1 : ℕ) * (breadth + 2) / 2 ^ 51) * dues (ends f (m + 1) h) := by
  intro m
  induction m with
  | zero =>
    intro h n hn ht hm
    have key := node_near hg (m := 0) (by omega) hn (ht.wide .here hn) (ht.total .here hn).1 (e := 0) le_rfl (by norm_num) (by
      intro i c hc
      have := ht.deep (.down hc .here)
      simp at this)
    refine key.2.2.trans (le_of_eq ?_)
    push_cast
    ring
  | succ m ih =>
    intro h n hn ht hm
    have hsm : (m + 1) * (breadth + 2) + (breadth + 2) ≤ K := by
      rw [Nat.add_mul (m + 1)] at hm; omega
    have he : ((m + 1 : ℕ) : ℚ) * (breadth + 2) / 2 ^ 51 ≤ 1 / 16 := by
      rw [div_le_div_iff₀ (by norm_num) (by norm_num)]
      have : (m + 1) * (breadth + 2) * 16 ≤ 1 * 2 ^ 51 := by omega
      exact_mod_cast this
    have key := node_near hg (m := m + 1) (e := (m + 1 : ℕ) * (breadth + 2) / 2 ^ 51) (by omega) hn (ht.wide .here hn)
      (ht.total .here hn).1 (by positivity) he (by
        intro i c hc
        obtain ⟨x, hx⟩ := child_live (grown_healthy hg) hc
        have hb := ht.bias (.down hc .here) (by simp) hx
        exact ⟨x, hx, (ht.total (.down hc .here) hx).1, hb.1, hb.2, ih hx (Tame.child ht hc) (by omega)⟩)
    refine key.2.2.trans (le_of_eq ?_)
    push_cast
    ring

/-- What each slot of a node of a tame tree gets. -/
theorem slots_near {f : Forest} (hg : GrownForest ieee f) {breadth K : Nat} (hK : K ≤ 2 ^ 40) {m h : Nat} {n : TreeNode}
    (hn : f.node h = some n) (ht : Tame f h breadth m) (hm : (m + 1) * (breadth + 2) ≤ K)
    (hz : F64.feq n.sum F64.zero = false) :
    Usable n.weights ∧ n.areas = areasOf n.weights ∧ 0 < dues (ends f (m + 1) h) ∧
    ∀ i ≤ n.arity, 0 ≤ (if i < n.arity then slotDue f m h i else weightOf f h) ∧
      (if i < n.arity then slotDue f m h i else weightOf f h) ≤ dues (ends f (m + 1) h) ∧
      |(drawSpan n.areas i).2 - (drawSpan n.areas i).1 - (if i < n.arity then slotDue f m h i else weightOf f h) / dues (ends f (m + 1) h)| ≤
        K / 2 ^ 48 := by
  have hh := grown_healthy hg
  have hk := hh.ok hn
  have hnn := grown_nonNeg hg hn
  obtain ⟨hfin, hinv⟩ := ht.total .here hn
  have hinv := hinv.resolve_left (by rw [hz]; simp)
  have hnum := (finite_num hfin).1
  have hsp : 0 < Ieee.signed n.sum := by
    rcases Int.lt_or_eq_of_le (nonneg_signed hfin hnn.sum) with h | h
    · exact h
    · exfalso
      have : F64.feq n.sum F64.zero = true := (feq_iff _ _).mpr
        ⟨0, by show realValue n.sum = some 0; rw [realValue_signed hnum, ← h], realValue_zero⟩
      rw [hz] at this; cases this
  have hpos : F64.lt F64.zero n.sum = true := (f64_lt_iff _ _).mpr ⟨0, _, realValue_zero, realValue_signed hnum, hsp⟩
  have hl := hk.weights
  have htot : n.sum = ieee.total n.weights := hk.sum
  have hwide := ht.wide .here hn
  have hB2 : breadth + 2 ≤ 2 ^ 40 := by
    have : 1 * (breadth + 2) ≤ (m + 1) * (breadth + 2) := Nat.mul_le_mul_right _ (by omega)
    omega
  have hu : Usable n.weights := by
    rw [htot] at hfin hsp hinv
    exact ⟨fun w hw => nonneg_signed (mem_finite hfin hw) (hnn.weights w hw), by omega, by omega, hfin, hsp, hinv⟩
  have hareas : n.areas = areasOf n.weights := by rw [hk.areas hpos, htot]; rfl
  obtain ⟨e, he0, he, heK, key⟩ : ∃ e : ℚ, 0 ≤ e ∧ e ≤ 1 / 16 ∧ e + 1 / 2 ^ 52 ≤ K / 2 ^ 51 ∧
      ((∀ i ≤ n.arity, |toRat (n.weights.getD i F64.zero) - (if i < n.arity then slotDue f m h i else weightOf f h)| ≤
        (e + 1 / 2 ^ 52) * (if i < n.arity then slotDue f m h i else weightOf f h)) ∧
      |sumRat n.weights - dues (ends f (m + 1) h)| ≤ (e + 1 / 2 ^ 52) * dues (ends f (m + 1) h)) := by
    have hmq : ((m * (breadth + 2) + 2 : ℕ) : ℚ) ≤ K := by
      have : m * (breadth + 2) + 2 ≤ K := by rw [Nat.add_mul, Nat.one_mul] at hm; omega
      exact_mod_cast this
    have hKq : (K : ℚ) ≤ 2 ^ 40 := by exact_mod_cast hK
    push_cast at hmq
    refine ⟨m * (breadth + 2) / 2 ^ 51, by positivity, ?_, ?_, ?_⟩
    · linarith
    · linarith
    · cases m with
      | zero =>
        have key := node_near hg (m := 0) (by omega) hn hwide hfin (e := (0 : ℕ) * (breadth + 2) / 2 ^ 51)
          (by positivity) (by norm_num) (by
            intro i c hc
            have := ht.deep (.down hc .here)
            simp at this)
        exact ⟨key.1, key.2.1⟩
      | succ m =>
        have he : ((m + 1 : ℕ) : ℚ) * (breadth + 2) / 2 ^ 51 ≤ 1 / 16 := by linarith
        have key := node_near hg (m := m + 1) (e := (m + 1 : ℕ) * (breadth + 2) / 2 ^ 51) (by omega) hn hwide hfin
          (by positivity) he (by
            intro i c hc
            obtain ⟨x, hx⟩ := child_live hh hc
            have hb := ht.bias (.down hc .here) (by simp) hx
            exact ⟨x, hx, (ht.total (.down hc .here) hx).1, hb.1, hb.2, total_near hg hK hx (Tame.child ht hc)
              (by rw [Nat.add_mul (m + 1)] at hm; omega)⟩)
        exact ⟨key.1, key.2.1⟩
  obtain ⟨k1, k2⟩ := key
  have hS : 0 < sumRat n.weights := (areas_near hu.nonneg hu.len hu.size hu.fin hu.pos hu.inv).1
  have hT : 0 < dues (ends f (m + 1) h) := by
    by_contra hneg
    rw [abs_le] at k2
    nlinarith
  have hslot0 : ∀ i ≤ n.arity, 0 ≤ (if i < n.arity then slotDue f m h i else weightOf f h) := by
    intro i hi
    have := k1 i hi
    have h0 := (abs_nonneg _).trans this
    by_contra hneg
    nlinarith
  have hTs : dues (ends f (m + 1) h) =
      ((List.range (n.arity + 1)).map fun i => if i < n.arity then slotDue f m h i else weightOf f h).sum := by
    rw [dues_ends hn, List.range_succ, List.map_append, List.sum_append, List.map_singleton, List.sum_singleton,
      if_neg (Nat.lt_irrefl _)]
    congr 2
    apply List.map_congr_left
    intro i hi
    rw [if_pos (List.mem_range.mp hi)]
  have hle : ∀ i ≤ n.arity, (if i < n.arity then slotDue f m h i else weightOf f h) ≤ dues (ends f (m + 1) h) := by
    intro i hi
    rw [hTs]
    refine List.single_le_sum ?_ _ (List.mem_map.mpr ⟨i, List.mem_range.mpr (by omega), rfl⟩)
    intro x hx
    obtain ⟨j, hj, rfl⟩ := List.mem_map.mp hx
    exact hslot0 j (by have := List.mem_range.mp hj; omega)
  refine ⟨hu, hareas, hT, fun i hi => ⟨hslot0 i hi, hle i hi, ?_⟩⟩
  have hget : n.weights[i]? = some (n.weights.getD i F64.zero) := by
    rw [List.getD_eq_getElem?_getD, List.getElem?_eq_getElem (by omega)]; rfl
  have h1 := hu.width hget
  have h2 := (ratio_near (hslot0 i hi) (hle i hi) hT (k1 i hi) k2 (by positivity) (by linarith)).2
  rw [hareas]
  have h3 : ((n.weights.length : ℚ) + 1) / 2 ^ 49 ≤ K / 2 ^ 49 := by
    rw [div_le_div_iff_of_pos_right (by norm_num), hl]
    have : n.arity + 1 + 1 ≤ K := by
      rw [Nat.add_mul, Nat.one_mul] at hm; omega
    exact_mod_cast this
  rw [abs_le] at h1 h2 ⊢
  have hK0 : (0 : ℚ) ≤ K := by positivity
  constructor <;> linarith

theorem sampleIndex_iff {n : TreeNode} (hl : n.weights.length = n.arity + 1) (hu : Usable n.weights) (ha : n.areas = areasOf n.weights)
    (hz : F64.feq n.sum F64.zero = false) {t : F64} (ht : UnitDraw t) {turns : Nat} (hf : n.arity + 1 ≤ turns) (i : Nat) :
    sampleIndex Ieee.guess turns n t = some (.ok (i : Int)) ↔
      i ≤ n.arity ∧ (drawSpan n.areas i).1 ≤ toRat t ∧ toRat t < (drawSpan n.areas i).2 := by
  have := hu.select ht (fuel := turns) (by omega) i
  rw [hl] at this
  simp only [sampleIndex, hz, Bool.false_eq_true, if_false]
  rw [ha, this]
  constructor <;> rintro ⟨h1, h2⟩ <;> exact ⟨by omega, h2⟩

/-- One sample, by where it ends. -/
theorem walk_stop {f : Forest} {h : Nat} {n : TreeNode} (hn : f.node h = some n) {guess : Int → F64 → Int} {turns : Nat}
    {rnd : Nat → F64} {fuel k k' : Nat} : sampleWalk guess turns rnd (fuel + 1) f h k = some (.ok ([], k')) ↔
      sampleIndex guess turns n (rnd k) = some (.ok (n.arity : Int)) ∧ k' = k + 1 := by
  simp only [sampleWalk, hn]
  cases hs : sampleIndex guess turns n (rnd k) with
  | none => simp
  | some o =>
    cases o with
    | ub => simp
    | err e => simp
    | ok i =>
      simp only
      by_cases hi : i = n.arity
      · rw [if_pos hi, hi]
        simp only [Option.some.injEq, Out.ok.injEq, Prod.mk.injEq, true_and]
        exact eq_comm
      · rw [if_neg hi]
        simp only [Option.some.injEq, Out.ok.injEq, hi, false_and, iff_false]
        intro hc
        split at hc
        · cases hc
        · split at hc
          · cases hc
          · cases hc
          · split at hc <;> cases hc

theorem walk_leaf {f : Forest} {h i : Nat} {n : TreeNode} (hn : f.node h = some n) (hi : i < n.arity)
    (hc : n.children[i]? = some none) {guess : Int → F64 → Int} {turns : Nat}
    {rnd : Nat → F64} {fuel k k' : Nat} : sampleWalk guess turns rnd (fuel + 1) f h k = some (.ok ([i], k')) ↔
      sampleIndex guess turns n (rnd k) = some (.ok (i : Int)) ∧ k' = k + 1 := by
  simp only [sampleWalk, hn]
  cases hs : sampleIndex guess turns n (rnd k) with
  | none => simp
  | some o =>
    cases o with
    | ub => simp
    | err e => simp
    | ok j =>
      simp only
      by_cases hj : j = n.arity
      · rw [if_pos hj, hj]
        simp only [Option.some.injEq, Out.ok.injEq, Prod.mk.injEq]
        constructor
        · rintro ⟨h, -⟩; cases h
        · rintro ⟨h, -⟩; omega
      · rw [if_neg hj]
        by_cases hneg : j < 0
        · rw [if_pos hneg]
          simp only [Option.some.injEq, reduceCtorEq, false_iff, Out.ok.injEq]
          rintro ⟨h, -⟩; omega
        · rw [if_neg hneg]
          obtain ⟨j, rfl⟩ := Int.eq_ofNat_of_zero_le (by omega : 0 ≤ j)
          simp only [Int.toNat_natCast, Option.some.injEq, Out.ok.injEq, Int.natCast_inj]
          by_cases hij : j = i
          · subst hij
            rw [hc]
            simp only [Option.some.injEq, Out.ok.injEq, Prod.mk.injEq, true_and]
            exact eq_comm
          · constructor
            · intro he
              split at he
              · cases he
              · simp only [Option.some.injEq, Out.ok.injEq, Prod.mk.injEq, List.cons.injEq, and_true] at he
                exact absurd he.1 hij
              · split at he
                · cases he
                · cases he
                · cases he
                · simp only [Option.some.injEq, Out.ok.injEq, Prod.mk.injEq, List.cons.injEq] at he
                  exact absurd he.1.1 hij
            · rintro ⟨h, -⟩; exact absurd h hij

theorem walk_down {f : Forest} {h i c : Nat} {n : TreeNode} (hn : f.node h = some n) (hi : i < n.arity)
    (hc : n.children[i]? = some (some c)) {guess : Int → F64 → Int} {turns : Nat}
    {rnd : Nat → F64} {fuel k k' : Nat} {p : List Nat} :
    sampleWalk guess turns rnd (fuel + 1) f h k = some (.ok (i :: p, k')) ↔
      sampleIndex guess turns n (rnd k) = some (.ok (i : Int)) ∧ sampleWalk guess turns rnd fuel f c (k + 1) = some (.ok (p, k')) := by
  simp only [sampleWalk, hn]
  cases hs : sampleIndex guess turns n (rnd k) with
  | none => simp
  | some o =>
    cases o with
    | ub => simp
    | err e => simp
    | ok j =>
      simp only
      by_cases hj : j = n.arity
      · rw [if_pos hj, hj]
        simp only [Option.some.injEq, Out.ok.injEq, Prod.mk.injEq]
        constructor
        · rintro ⟨h, -⟩; cases h
        · rintro ⟨h, -⟩; omega
      · rw [if_neg hj]
        by_cases hneg : j < 0
        · rw [if_pos hneg]
          simp only [Option.some.injEq, reduceCtorEq, false_iff, Out.ok.injEq]
          rintro ⟨h, -⟩; omega
        · rw [if_neg hneg]
          obtain ⟨j, rfl⟩ := Int.eq_ofNat_of_zero_le (by omega : 0 ≤ j)
          simp only [Int.toNat_natCast, Option.some.injEq, Out.ok.injEq, Int.natCast_inj]
          by_cases hij : j = i
          · subst hij
            rw [hc]
            simp only [true_and]
            cases hw : sampleWalk guess turns rnd fuel f c (k + 1) with
            | none => simp
            | some o =>
              cases o with
              | ub => simp
              | err e => simp
              | ok q => obtain ⟨q, k2⟩ := q; simp
          · constructor
            · intro he
              split at he
              · cases he
              · simp only [Option.some.injEq, Out.ok.injEq, Prod.mk.injEq, List.cons.injEq] at he
                exact absurd he.1.1 hij
              · split at he
                · cases he
                · cases he
                · cases he
                · simp only [Option.some.injEq, Out.ok.injEq, Prod.mk.injEq, List.cons.injEq] at he
                  exact absurd he.1.1 hij
            · rintro ⟨h, -⟩; exact absurd h hij

theorem volume_unit {box : List (ℚ × ℚ)} (h : UnitBox box) : 0 ≤ volume box ∧ volume box ≤ 1 := by
  induction box with
  | nil => simp [volume]
  | cons b box ih =>
    obtain ⟨h1, h2, h3⟩ := h b (List.mem_cons_self ..)
    obtain ⟨i1, i2⟩ := ih fun x hx => h x (List.mem_cons_of_mem _ hx)
    have e : volume (b :: box) = (b.2 - b.1) * volume box := rfl
    rw [e]
    have h4 : 0 ≤ b.2 - b.1 := by linarith
    exact ⟨mul_nonneg h4 i1, by nlinarith⟩

theorem sampleWalk_zero {f : Forest} {h : Nat} {n : TreeNode} (hn : f.node h = some n) (hz : F64.feq n.sum F64.zero = true)
    {guess : Int → F64 → Int} {turns : Nat} {rnd : Nat → F64} {fuel k : Nat} {r : List Nat × Nat} :
    sampleWalk guess turns rnd fuel f h k ≠ some (.ok r) := by
  cases fuel with
  | zero => simp [sampleWalk]
  | succ fuel => simp [sampleWalk, hn, sampleIndex, hz]

theorem ends_nonneg {f : Forest} (hg : GrownForest ieee f) {breadth : Nat} : ∀ {m h : Nat} {n : TreeNode},
    f.node h = some n → Tame f h breadth m → ∀ {p w}, (p, w) ∈ ends f (m + 1) h → 0 ≤ w := by
  intro m
  induction m with
  | zero =>
    intro h n hn ht p w hp
    rcases mem_ends hn hp with ⟨-, rfl⟩ | ⟨i, hi, -, rfl, -⟩ | ⟨i, hi, c, q, v, -, -, hc, -⟩
    · have hk := (grown_healthy hg).ok hn
      have hl := hk.weights
      have hfin := (ht.total .here hn).1
      rw [show n.sum = ieee.total n.weights from hk.sum] at hfin
      rw [weightOf_eq hn, List.getD_eq_getElem?_getD, List.getElem?_eq_getElem (by omega)]
      have hmem : n.weights[n.arity] ∈ n.weights := List.getElem_mem _
      exact toRat_nonneg (nonneg_signed (mem_finite hfin hmem) ((grown_nonNeg hg hn).weights _ hmem))
    · exact zero_le_one
    · have := ht.deep (.down hc .here)
      simp at this
  | succ m ih =>
    intro h n hn ht p w hp
    rcases mem_ends hn hp with ⟨-, rfl⟩ | ⟨i, hi, -, rfl, -⟩ | ⟨i, hi, c, q, v, -, rfl, hc, hv⟩
    · have hk := (grown_healthy hg).ok hn
      have hl := hk.weights
      have hfin := (ht.total .here hn).1
      rw [show n.sum = ieee.total n.weights from hk.sum] at hfin
      rw [weightOf_eq hn, List.getD_eq_getElem?_getD, List.getElem?_eq_getElem (by omega)]
      have hmem : n.weights[n.arity] ∈ n.weights := List.getElem_mem _
      exact toRat_nonneg (nonneg_signed (mem_finite hfin hmem) ((grown_nonNeg hg hn).weights _ hmem))
    · exact zero_le_one
    · obtain ⟨x, hx⟩ := child_live (grown_healthy hg) hc
      have hb := ht.bias (.down hc .here) (by simp) hx
      rw [biasOf_eq hx]
      exact mul_nonneg (toRat_nonneg (nonneg_signed hb.1 (grown_nonNeg hg hx).bias)) (ih hx (Tame.child ht hc) hv)

/-- The draws that lead to a position below a node. -/
def Boxed (f : Forest) (breadth K depth h : Nat) (p : List Nat) (w : ℚ) : Prop :=
  ∃ box, UnitBox box ∧ box.length ≤ p.length + 1 ∧
    (∀ {rnd : Nat → F64} {k fuel turns k' : Nat}, (∀ j, UnitDraw (rnd j)) → depth ≤ fuel → breadth + 1 ≤ turns →
      (sampleWalk Ieee.guess turns rnd fuel f h k = some (.ok (p, k')) ↔ Falls rnd k box ∧ k' = k + box.length)) ∧
    |volume box - w / dues (ends f depth h)| ≤ (p.length + 1) * (K / 2 ^ 48)

theorem volume_one (b : ℚ × ℚ) : volume [b] = b.2 - b.1 := by simp [volume]

theorem boxed_step {f : Forest} (hg : GrownForest ieee f) {breadth K : Nat} (hK : K ≤ 2 ^ 40) {m h : Nat} {n : TreeNode}
    (hn : f.node h = some n) (ht : Tame f h breadth m) (hm : (m + 1) * (breadth + 2) ≤ K) (hz : F64.feq n.sum F64.zero = false)
    (ih : ∀ i c x p w, f.getChild h i = .ok (some c) → f.node c = some x → (p, w) ∈ ends f m c →
      (w = 0 ∧ F64.feq x.sum F64.zero = true) ∨ (0 < dues (ends f m c) ∧ Boxed f breadth K m c p w)) {p : List Nat} {w : ℚ} (hp : (p, w) ∈ ends f (m + 1) h) : Boxed f breadth K (m + 1) h p w := by
  obtain ⟨hu, ha, hT, hslots⟩ := slots_near hg hK hn ht hm hz
  have hk := (grown_healthy hg).ok hn
  have hl := hk.weights
  have hwide := ht.wide .here hn
  have hunit : ∀ i ≤ n.arity, UnitBox [drawSpan n.areas i] := by
    intro i hi b hb
    rw [List.mem_singleton] at hb
    subst hb
    rw [ha]
    exact hu.span_unit (by omega)
  have hfalls : ∀ (rnd : Nat → F64) (k i : Nat), Falls rnd k [drawSpan n.areas i] ↔
      (drawSpan n.areas i).1 ≤ toRat (rnd k) ∧ toRat (rnd k) < (drawSpan n.areas i).2 := by
    intro rnd k i
    simp [Falls]
  have hE : (0 : ℚ) ≤ K / 2 ^ 48 := by positivity
  rcases mem_ends hn hp with ⟨rfl, rfl⟩ | ⟨i, hi, rfl, rfl, hc⟩ | ⟨i, hi, c, q, v, rfl, rfl, hc, hv⟩
  · refine ⟨[drawSpan n.areas n.arity], hunit _ (Nat.le_refl _), by simp, ?_, ?_⟩
    · intro rnd k fuel turns k' hr hf htu
      obtain ⟨j, rfl⟩ : ∃ j, fuel = j + 1 := ⟨fuel - 1, by omega⟩
      rw [walk_stop hn, sampleIndex_iff hl hu ha hz (hr k) (by omega), hfalls]
      simp
    · have := (hslots n.arity (Nat.le_refl _)).2.2
      rw [if_neg (Nat.lt_irrefl _)] at this
      rw [volume_one]
      simpa using this
  · refine ⟨[drawSpan n.areas i], hunit _ (by omega), by simp, ?_, ?_⟩
    · intro rnd k fuel turns k' hr hf htu
      obtain ⟨j, rfl⟩ : ∃ j, fuel = j + 1 := ⟨fuel - 1, by omega⟩
      obtain ⟨c, h1, h2⟩ := getChild_cases hg hn hi
      rw [hc] at h2
      cases h2
      rw [walk_leaf hn hi h1, sampleIndex_iff hl hu ha hz (hr k) (by omega), hfalls]
      simp [hi.le]
    · have := (hslots i (by omega)).2.2
      rw [if_pos hi] at this
      have e : slotDue f m h i = 1 := by unfold slotDue; rw [hc]
      rw [e] at this
      rw [volume_one]
      refine this.trans ?_
      simp only [List.length_singleton, Nat.cast_one]
      linarith
  · obtain ⟨c', h1, h2⟩ := getChild_cases hg hn hi
    rw [hc] at h2
    cases h2
    obtain ⟨x, hx⟩ := child_live (grown_healthy hg) hc
    obtain ⟨hv', hxz⟩ | ⟨hd, box, b1, b2, b3, b4⟩ := ih i c x q v hc hx hv
    · refine ⟨[(0, 0)], ?_, by simp, ?_, ?_⟩
      · intro b hb
        rw [List.mem_singleton] at hb
        subst hb
        simp
      · intro rnd k fuel turns k' hr hf htu
        obtain ⟨j, rfl⟩ : ∃ j, fuel = j + 1 := ⟨fuel - 1, by omega⟩
        rw [walk_down hn hi h1]
        constructor
        · rintro ⟨-, h⟩; exact absurd h (sampleWalk_zero hx hxz)
        · rintro ⟨⟨h3, h4, -⟩, -⟩
          exact absurd (lt_of_le_of_lt h3 h4) (lt_irrefl _)
      · rw [volume_one, hv']
        simp
        positivity
    · refine ⟨drawSpan n.areas i :: box, ?_, by simp only [List.length_cons]; omega, ?_, ?_⟩
      · intro b hb
        rcases List.mem_cons.mp hb with rfl | hb
        · exact hunit i (by omega) _ (List.mem_singleton.mpr rfl)
        · exact b1 b hb
      · intro rnd k fuel turns k' hr hf htu
        obtain ⟨j, rfl⟩ : ∃ j, fuel = j + 1 := ⟨fuel - 1, by omega⟩
        rw [walk_down hn hi h1, sampleIndex_iff hl hu ha hz (hr k) (by omega), b3 hr (by omega) htu]
        simp only [Falls, List.length_cons]
        constructor
        · rintro ⟨⟨-, h3, h4⟩, h5, h6⟩; exact ⟨⟨h3, h4, h5⟩, by omega⟩
        · rintro ⟨⟨h3, h4, h5⟩, h6⟩; exact ⟨⟨by omega, h3, h4⟩, h5, by omega⟩
      · obtain ⟨s0, s1, s2⟩ := hslots i (by omega)
        rw [if_pos hi] at s0 s1 s2
        have e : slotDue f m h i = biasOf f c * dues (ends f m c) := by unfold slotDue; rw [hc]
        have ev : volume (drawSpan n.areas i :: box) = ((drawSpan n.areas i).2 - (drawSpan n.areas i).1) * volume box := rfl
        obtain ⟨v0, v1⟩ := volume_unit b1
        have er : biasOf f c * v / dues (ends f (m + 1) h) = slotDue f m h i / dues (ends f (m + 1) h) * (v / dues (ends f m c)) := by
          rw [e]; field_simp
        have r0 : 0 ≤ slotDue f m h i / dues (ends f (m + 1) h) := div_nonneg s0 hT.le
        have r1 : slotDue f m h i / dues (ends f (m + 1) h) ≤ 1 := (div_le_one hT).mpr s1
        rw [ev, er]
        generalize (drawSpan n.areas i).2 - (drawSpan n.areas i).1 = W at *
        generalize slotDue f m h i / dues (ends f (m + 1) h) = S at *
        generalize v / dues (ends f m c) = y at *
        generalize volume box = z at *
        generalize (K : ℚ) / 2 ^ 48 = E at *
        have e2 : W * z - S * y = (W - S) * z + S * (z - y) := by ring
        rw [e2]
        refine (abs_add_le _ _).trans ?_
        rw [abs_mul, abs_mul, abs_of_nonneg v0, abs_of_nonneg r0]
        have g1 : |W - S| * z ≤ E * 1 := mul_le_mul s2 v1 v0 hE
        have g2 : S * |z - y| ≤ 1 * ((q.length + 1) * E) := mul_le_mul r1 b4 (abs_nonneg _) zero_le_one
        simp only [List.length_cons]
        push_cast
        linarith

theorem dues_nonneg {f : Forest} (hg : GrownForest ieee f) {breadth m h : Nat} {n : TreeNode}
    (hn : f.node h = some n) (ht : Tame f h breadth m) : 0 ≤ dues (ends f (m + 1) h) := by
  refine List.sum_nonneg fun x hx => ?_
  obtain ⟨⟨p, w⟩, h1, rfl⟩ := List.mem_map.mp hx
  exact ends_nonneg hg hn ht h1

theorem due_le {f : Forest} (hg : GrownForest ieee f) {breadth m h : Nat} {n : TreeNode}
    (hn : f.node h = some n) (ht : Tame f h breadth m) {p : List Nat} {w : ℚ} (hp : (p, w) ∈ ends f (m + 1) h) :
    w ≤ dues (ends f (m + 1) h) := by
  refine List.single_le_sum (fun x hx => ?_) _ (List.mem_map.mpr ⟨_, hp, rfl⟩)
  obtain ⟨⟨p, w⟩, h1, rfl⟩ := List.mem_map.mp hx
  exact ends_nonneg hg hn ht h1

/-- A total is zero exactly when nothing is due. -/
theorem zero_iff {f : Forest} (hg : GrownForest ieee f) {breadth K : Nat} (hK : K ≤ 2 ^ 40) {m h : Nat} {n : TreeNode}
    (hn : f.node h = some n) (ht : Tame f h breadth m) (hm : (m + 1) * (breadth + 2) ≤ K) :
    F64.feq n.sum F64.zero = true ↔ dues (ends f (m + 1) h) = 0 := by
  constructor
  · intro hz
    have h1 := total_near hg hK hn ht hm
    have h0 := dues_nonneg hg hn ht
    have e : ((m + 1 : ℕ) : ℚ) * (breadth + 2) / 2 ^ 51 ≤ 1 / 16 := by
      rw [div_le_div_iff₀ (by norm_num) (by norm_num)]
      have : (m + 1) * (breadth + 2) * 16 ≤ 1 * 2 ^ 51 := by omega
      exact_mod_cast this
    have hs : toRat n.sum = 0 := by
      obtain ⟨x, hx, hx0⟩ := (feq_iff _ _).mp hz
      change realValue n.sum = some x at hx
      change realValue F64.zero = some x at hx0
      rw [realValue_zero] at hx0
      cases hx0
      rw [realValue_signed (finite_num (ht.total .here hn).1).1] at hx
      rw [toRat_eq, Option.some.inj hx]
      simp
    rw [hs, abs_le] at h1
    nlinarith
  · intro hd
    cases hz : F64.feq n.sum F64.zero with
    | true => rfl
    | false =>
      have := (slots_near hg hK hn ht hm hz).2.2.1
      rw [hd] at this
      exact absurd this (lt_irrefl _)

theorem box_of {f : Forest} (hg : GrownForest ieee f) {breadth K : Nat} (hK : K ≤ 2 ^ 40) : ∀ {m h : Nat} {n : TreeNode},
    f.node h = some n → Tame f h breadth m → (m + 1) * (breadth + 2) ≤ K → F64.feq n.sum F64.zero = false →
    ∀ {p w}, (p, w) ∈ ends f (m + 1) h → Boxed f breadth K (m + 1) h p w := by
  intro m
  induction m with
  | zero =>
    intro h n hn ht hm hz p w hp
    refine boxed_step hg hK hn ht hm hz ?_ hp
    intro i c x p w hc
    have := ht.deep (.down hc .here)
    simp at this
  | succ m ih =>
    intro h n hn ht hm hz p w hp
    refine boxed_step hg hK hn ht hm hz ?_ hp
    intro i c x p w hc hx hp
    have htc := Tame.child ht hc
    have hmc : (m + 1) * (breadth + 2) ≤ K := by rw [Nat.add_mul (m + 1)] at hm; omega
    cases hxz : F64.feq x.sum F64.zero with
    | true =>
      have hd := (zero_iff hg hK hx htc hmc).mp hxz
      exact .inl ⟨le_antisymm (by rw [← hd]; exact due_le hg hx htc hp) (ends_nonneg hg hx htc hp), rfl⟩
    | false => exact .inr ⟨(slots_near hg hK hx htc hmc hxz).2.2.1, ih hx htc hmc hxz hp⟩

end Forest

end CCS
