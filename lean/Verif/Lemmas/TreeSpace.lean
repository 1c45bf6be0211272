import Verif.Spec.TreeSpace
import Verif.Lemmas.TreeWalk
import Verif.Lemmas.Graph
import Verif.Lemmas.Ieee

/-! Helper lemmas about tree spaces. -/

namespace CCS

open Spec

namespace Forest

/-- The nodes above a node are distinct. -/
theorem depth_path {f : Forest} {h d : Nat} (hd : Depth f h d) :
    ∃ l : List Nat, l.length = d + 1 ∧ l.Nodup ∧ ∀ x ∈ l, x < f.length ∧ ∃ e, e ≤ d ∧ Depth f x e := by
  induction hd with
  | @root h n hn hp => exact ⟨[h], rfl, by simp, by
      intro x hx
      rw [List.mem_singleton] at hx
      subst hx
      exact ⟨node_lt hn, 0, Nat.le_refl _, .root hn hp⟩⟩
  | @step h n p d hn hp h3 ih =>
    obtain ⟨l, h1, h2, h4⟩ := ih
    refine ⟨h :: l, by simp [h1], List.nodup_cons.mpr ⟨?_, h2⟩, ?_⟩
    · intro hx
      obtain ⟨-, e, h5, h6⟩ := h4 h hx
      have := h6.unique (.step hn hp h3)
      omega
    · intro x hx
      rcases List.mem_cons.mp hx with rfl | hx
      · exact ⟨node_lt hn, d + 1, Nat.le_refl _, .step hn hp h3⟩
      · obtain ⟨h5, e, h6, h7⟩ := h4 x hx
        exact ⟨h5, e, by omega, h7⟩

theorem depth_lt {f : Forest} {h d : Nat} (hd : Depth f h d) : d < f.length := by
  obtain ⟨l, h1, h2, h3⟩ := depth_path hd
  have := nodup_bounded h2 (fun x hx => (h3 x hx).1)
  omega

theorem depth_child {ops : FloatOps} {f : Forest} (hh : Healthy ops f) {h i c d : Nat} (hd : Depth f h d)
    (hc : f.getChild h i = .ok (some c)) : Depth f c (d + 1) := by
  obtain ⟨n, hn, -, hg⟩ := getChild_ok hc
  obtain ⟨m, hm, h1, -⟩ := hh.linked.down hn (getD_some hg)
  exact .step hm h1 hd

theorem arity_bound (f : Forest) : ∃ b, ∀ h n, f.node h = some n → n.arity + 1 ≤ b := by
  induction f with
  | nil => exact ⟨0, by intro h n hn; simp [node] at hn⟩
  | cons x f ih =>
    obtain ⟨b, hb⟩ := ih
    have : ∃ a, ∀ n, x = some n → n.arity + 1 ≤ a := by
      cases x with
      | none => exact ⟨0, by intro n h; cases h⟩
      | some n => exact ⟨n.arity + 1, by intro m h; cases h; exact Nat.le_refl _⟩
    obtain ⟨a, ha⟩ := this
    refine ⟨max a b, fun h n hn => ?_⟩
    cases h with
    | zero =>
      have := node_some.mp hn
      simp only [List.getElem?_cons_zero, Option.some.injEq] at this
      exact Nat.le_trans (ha n this) (Nat.le_max_left _ _)
    | succ h =>
      have h1 := node_some.mp hn
      rw [List.getElem?_cons_succ] at h1
      exact Nat.le_trans (hb h n (node_some.mpr h1)) (Nat.le_max_right _ _)

/-- The comparisons that select area `i` of a node. -/
def Picks (n : TreeNode) (i : Nat) (t : F64) : Prop :=
  F64.feq n.sum F64.zero = false ∧ (∀ v, n.areas[i]? = some v → F64.lt t v = false) ∧ (∀ v, n.areas[i + 1]? = some v → F64.le v t = false)

/-- Selecting among the children of a node. -/
theorem sampleIndex_spec {ops : FloatOps} {n : TreeNode} (hk : NodeOk ops n) {guess : Int → F64 → Int} {t : F64}
    (ht : UnitDraw t) (hg : GoodGuess guess (n.arity + 1) t) :
    (F64.feq n.sum F64.zero = true ∧ ∀ turns, sampleIndex guess turns n t = some (.err .invalidDistribution)) ∨
    (F64.feq n.sum F64.zero = false ∧ ∃ i : Nat, i ≤ n.arity ∧ Picks n i t ∧
      ∀ turns, n.arity + 1 ≤ turns → sampleIndex guess turns n t = some (.ok i)) := by
  by_cases hz : F64.feq n.sum F64.zero = true
  · exact .inl ⟨hz, fun turns => by simp only [sampleIndex, hz, if_true]⟩
  · refine .inr ⟨by simpa using hz, ?_⟩
    obtain ⟨h1, h2⟩ := areaHolds_lt ht
    obtain ⟨i, h3, h4, h5⟩ := search_spec (n := n.arity + 1) (by omega) hk.len hk.first hk.last h1 h2 hg
    exact ⟨i, by omega, ⟨by simpa using hz, h5⟩, fun turns htu => by simp only [sampleIndex, hz]; exact h3 turns htu⟩

/-- One sample: it ends, and either meets a node with a zero total or gives a position drawn from the areas. -/
theorem sampleWalk_spec {ops : FloatOps} {f : Forest} (hh : Healthy ops f) {guess : Int → F64 → Int} {rnd : Nat → F64}
    (hr : ∀ k, UnitDraw (rnd k)) (hg : ∀ h n k, f.node h = some n → GoodGuess guess (n.arity + 1) (rnd k)) {b : Nat}
    (hb : ∀ h n, f.node h = some n → n.arity + 1 ≤ b) : ∀ {m h d k : Nat}, Depth f h d → f.length ≤ m + d →
    (∃ q n, f.node q = some n ∧ F64.feq n.sum F64.zero = true ∧
      ∀ fuel turns, m ≤ fuel → b ≤ turns → sampleWalk guess turns rnd fuel f h k = some (.err .invalidDistribution)) ∨
    (∃ p k', Drawn Picks f rnd h k p ∧
      ∀ fuel turns, m ≤ fuel → b ≤ turns → sampleWalk guess turns rnd fuel f h k = some (.ok (p, k'))) := by
  intro m
  induction m with
  | zero =>
    intro h d k hd hl
    have := depth_lt hd
    omega
  | succ m ih =>
    intro h d k hd hl
    obtain ⟨n, hn⟩ : ∃ n, f.node h = some n := by cases hd <;> exact ⟨_, ‹_›⟩
    have hk := hh.ok hn
    rcases sampleIndex_spec hk (hr k) (hg h n k hn) with ⟨hz, hs⟩ | ⟨hz, i, hi, hp, hs⟩
    · refine .inl ⟨h, n, hn, hz, fun fuel turns hf ht => ?_⟩
      obtain ⟨j, rfl⟩ : ∃ j, fuel = j + 1 := ⟨fuel - 1, by omega⟩
      simp only [sampleWalk, hn, hs]
    · have hs' : ∀ turns, b ≤ turns → sampleIndex guess turns n (rnd k) = some (.ok (i : Int)) :=
        fun turns ht => hs turns (Nat.le_trans (hb h n hn) ht)
      by_cases hia : i = n.arity
      · refine .inr ⟨[], k + 1, .stop hn (by rw [← hia]; exact hp), fun fuel turns hf ht => ?_⟩
        obtain ⟨j, rfl⟩ : ∃ j, fuel = j + 1 := ⟨fuel - 1, by omega⟩
        simp only [sampleWalk, hn, hs' turns ht]
        rw [if_pos (by omega)]
      · have hic : i < n.children.length := by rw [hk.children]; omega
        have hgc : f.getChild h i = .ok n.children[i] := by
          simp only [getChild, hn]
          rw [if_neg (by omega), List.getD_eq_getElem?_getD, List.getElem?_eq_getElem hic]
          rfl
        have hstep : ∀ j turns, b ≤ turns → sampleWalk guess turns rnd (j + 1) f h k =
            match n.children[i]? with
            | none => some .ub
            | some none => some (.ok ([i], k + 1))
            | some (some c) =>
              match sampleWalk guess turns rnd j f c (k + 1) with
              | none => none
              | some .ub => some .ub
              | some (.err e) => some (.err e)
              | some (.ok (p, k')) => some (.ok (i :: p, k')) := by
          intro j turns ht
          simp only [sampleWalk, hn, hs' turns ht]
          rw [if_neg (by omega), if_neg (by omega), Int.toNat_natCast]
          rfl
        rw [List.getElem?_eq_getElem hic] at hstep
        cases hc : n.children[i] with
        | none =>
          rw [hc] at hgc hstep
          refine .inr ⟨[i], k + 1, .leaf hn hgc hp, fun fuel turns hf ht => ?_⟩
          obtain ⟨j, rfl⟩ : ∃ j, fuel = j + 1 := ⟨fuel - 1, by omega⟩
          rw [hstep j turns ht]
        | some c =>
          rw [hc] at hgc hstep
          rcases ih (k := k + 1) (depth_child hh hd hgc) (by omega) with ⟨q, n', h1, h2, h3⟩ | ⟨p, k', h1, h2⟩
          · refine .inl ⟨q, n', h1, h2, fun fuel turns hf ht => ?_⟩
            obtain ⟨j, rfl⟩ : ∃ j, fuel = j + 1 := ⟨fuel - 1, by omega⟩
            rw [hstep j turns ht]
            simp only [h3 j turns (by omega) ht]
          · refine .inr ⟨i :: p, k', .down hn hgc hp h1, fun fuel turns hf ht => ?_⟩
            obtain ⟨j, rfl⟩ : ∃ j, fuel = j + 1 := ⟨fuel - 1, by omega⟩
            rw [hstep j turns ht]
            simp only [h2 j turns (by omega) ht]

theorem sampleIndex_mono {guess : Int → F64 → Int} {n : TreeNode} {t : F64} {a b : Nat} {r : Out Int}
    (h : sampleIndex guess a n t = some r) (hab : a ≤ b) : sampleIndex guess b n t = some r := by
  unfold sampleIndex at *
  split at h
  · rename_i hz; rw [if_pos hz]; exact h
  · rename_i hz; rw [if_neg hz]; exact searchLoop_mono h hab

theorem sampleWalk_mono {guess : Int → F64 → Int} {rnd : Nat → F64} {f : Forest} {a b : Nat} (hab : a ≤ b) :
    ∀ {x y h k : Nat} {r : Out (List Nat × Nat)}, sampleWalk guess a rnd x f h k = some r → x ≤ y →
    sampleWalk guess b rnd y f h k = some r := by
  intro x
  induction x with
  | zero => intro y h k r hr; cases hr
  | succ x ih =>
    intro y h k r hr hxy
    obtain ⟨y, rfl⟩ : ∃ z, y = z + 1 := ⟨y - 1, by omega⟩
    simp only [sampleWalk] at hr ⊢
    cases hn : f.node h with
    | none => rw [hn] at hr; exact hr
    | some n =>
      rw [hn] at hr
      simp only at hr ⊢
      cases hs : sampleIndex guess a n (rnd k) with
      | none => rw [hs] at hr; cases hr
      | some o =>
        rw [hs] at hr
        rw [sampleIndex_mono hs hab]
        cases o with
        | ub => exact hr
        | err e => exact hr
        | ok i =>
          simp only at hr ⊢
          split at hr
          · rename_i h1; rw [if_pos h1]; exact hr
          · rename_i h1
            rw [if_neg h1]
            split at hr
            · rename_i h2; rw [if_pos h2]; exact hr
            · rename_i h2
              rw [if_neg h2]
              cases hc : n.children[i.toNat]? with
              | none => rw [hc] at hr; exact hr
              | some c =>
                rw [hc] at hr
                cases c with
                | none => exact hr
                | some c =>
                  simp only at hr ⊢
                  cases hw : sampleWalk guess a rnd x f c (k + 1) with
                  | none => rw [hw] at hr; cases hr
                  | some w => rw [hw] at hr; rw [ih hw (by omega)]; exact hr

theorem samplePositions_mono {guess : Int → F64 → Int} {rnd : Nat → F64} {f : Forest} {a b x y h : Nat} (hab : a ≤ b)
    (hxy : x ≤ y) : ∀ {count k : Nat} {r : Out (List (List Nat))}, samplePositions guess a rnd x f h count k = some r →
    samplePositions guess b rnd y f h count k = some r := by
  intro count
  induction count with
  | zero => intro k r hr; exact hr
  | succ count ih =>
    intro k r hr
    simp only [samplePositions] at hr ⊢
    cases hw : sampleWalk guess a rnd x f h k with
    | none => rw [hw] at hr; cases hr
    | some w =>
      rw [hw] at hr
      rw [sampleWalk_mono hab hw hxy]
      cases w with
      | ub => exact hr
      | err e => exact hr
      | ok w =>
        obtain ⟨p, k'⟩ := w
        simp only at hr ⊢
        cases hp : samplePositions guess a rnd x f h count k' with
        | none => rw [hp] at hr; cases hr
        | some q => rw [hp] at hr; rw [ih hp]; exact hr

/-- A drawn position is valid. -/
theorem drawn_valid {P : TreeNode → Nat → F64 → Prop} {f : Forest} {rnd : Nat → F64} {h k : Nat} {p : List Nat}
    (hd : Drawn P f rnd h k p) : f.validLoop (some h) p = .ok true := by
  induction hd with
  | stop _ _ => rfl
  | leaf hn hc _ =>
    obtain ⟨m, hm, h1, h2⟩ := getChild_ok hc
    simp only [validLoop, hm]
    rw [if_neg (by omega)]
  | down hn hc _ _ ih =>
    obtain ⟨m, hm, h1, h2⟩ := getChild_ok hc
    simp only [validLoop, hm]
    rw [if_neg (by omega), h2, ih]

theorem drawn_live {P : TreeNode → Nat → F64 → Prop} {f : Forest} {rnd : Nat → F64} {h k : Nat} {p : List Nat}
    (hd : Drawn P f rnd h k p) : ∃ n, f.node h = some n := by
  cases hd <;> exact ⟨_, ‹_›⟩

/-- Every step of a drawn position was chosen at the node it starts from. -/
theorem drawn_step {P : TreeNode → Nat → F64 → Prop} {f : Forest} {rnd : Nat → F64} {pre : List Nat} {i : Nat}
    {rest : List Nat} : ∀ {h k : Nat}, Drawn P f rnd h k (pre ++ i :: rest) →
    ∃ q n, Leads f h pre q ∧ f.node q = some n ∧ i < n.arity ∧ P n i (rnd (k + pre.length)) := by
  induction pre with
  | nil =>
    intro h k hd
    cases hd with
    | leaf hn hc hp =>
      obtain ⟨m, hm, h1, -⟩ := getChild_ok hc
      rw [hn] at hm; cases hm
      exact ⟨h, _, .here, hn, h1, hp⟩
    | down hn hc hp _ =>
      obtain ⟨m, hm, h1, -⟩ := getChild_ok hc
      rw [hn] at hm; cases hm
      exact ⟨h, _, .here, hn, h1, hp⟩
  | cons j pre ih =>
    intro h k hd
    generalize hx : j :: pre ++ i :: rest = l at hd
    cases hd with
    | stop => cases hx
    | leaf => simp at hx
    | down hn hc hp hd' =>
      simp only [List.cons_append, List.cons.injEq] at hx
      obtain ⟨rfl, rfl⟩ := hx
      obtain ⟨q, n', h1, h2, h3, h4⟩ := ih hd'
      exact ⟨q, n', .down hc h1, h2, h3, by
        have e : k + (j :: pre).length = k + 1 + pre.length := by simp; omega
        rw [e]; exact h4⟩

/-- Several samples. -/
theorem samplePositions_spec {ops : FloatOps} {f : Forest} (hh : Healthy ops f) {guess : Int → F64 → Int} {rnd : Nat → F64}
    (hr : ∀ k, UnitDraw (rnd k)) (hg : ∀ h n k, f.node h = some n → GoodGuess guess (n.arity + 1) (rnd k)) {b : Nat}
    (hb : ∀ h n, f.node h = some n → n.arity + 1 ≤ b) {h d : Nat} (hd : Depth f h d) :
    ∀ {count k : Nat},
    (∃ q n, f.node q = some n ∧ F64.feq n.sum F64.zero = true ∧ ∀ fuel turns, f.length ≤ fuel → b ≤ turns →
      samplePositions guess turns rnd fuel f h count k = some (.err .invalidDistribution)) ∨
    (∃ ps, ps.length = count ∧ (∀ p ∈ ps, ∃ k, Drawn Picks f rnd h k p) ∧ ∀ fuel turns, f.length ≤ fuel → b ≤ turns →
      samplePositions guess turns rnd fuel f h count k = some (.ok ps)) := by
  intro count
  induction count with
  | zero => intro k; exact .inr ⟨[], rfl, by simp, fun _ _ _ _ => rfl⟩
  | succ count ih =>
    intro k
    rcases sampleWalk_spec hh hr hg hb (k := k) (m := f.length) hd (by omega) with ⟨q, n, h1, h2, h3⟩ | ⟨p, k', h1, h2⟩
    · exact .inl ⟨q, n, h1, h2, fun fuel turns hf ht => by simp only [samplePositions, h3 fuel turns hf ht]⟩
    · rcases ih (k := k') with ⟨q, n, h3, h4, h5⟩ | ⟨ps, h3, h4, h5⟩
      · exact .inl ⟨q, n, h3, h4, fun fuel turns hf ht => by
          simp only [samplePositions, h2 fuel turns hf ht, h5 fuel turns hf ht]⟩
      · refine .inr ⟨p :: ps, by simp [h3], ?_, fun fuel turns hf ht => by
          simp only [samplePositions, h2 fuel turns hf ht, h5 fuel turns hf ht]⟩
        intro x hx
        rcases List.mem_cons.mp hx with rfl | hx
        · exact ⟨k, h1⟩
        · exact h4 x hx

end Forest

/-! ## Bounds of areas that are numbers -/

/-- A weight that is not negative: zero, positive, or a NaN. -/
def NonNeg (x : F64) : Prop := F64.lt x F64.zero = false

namespace IeeeLemmas

open Ieee

theorem nonNeg_iff {x : F64} : NonNeg x ↔ F64.isNaN x = true ∨ 0 ≤ signed x := by
  unfold NonNeg
  cases hn : F64.isNaN x with
  | true => simp [F64.lt, hn]
  | false =>
    have h1 := realValue_signed hn
    constructor
    · intro h
      by_cases hx : 0 ≤ signed x
      · exact .inr hx
      · rw [(f64_lt_iff _ _).mpr ⟨signed x, 0, h1, realValue_zero, by omega⟩] at h; cases h
    · rintro (h | h)
      · cases h
      · rw [Bool.eq_false_iff]
        intro h2
        obtain ⟨a, b, h3, h4, h5⟩ := (f64_lt_iff _ _).mp h2
        rw [h1] at h3; cases h3
        rw [realValue_zero] at h4; cases h4
        omega

theorem add_nonNeg {a b : F64} (ha : NonNeg a) (hb : NonNeg b) : NonNeg (add a b) := by
  rw [nonNeg_iff] at *
  unfold add
  split
  · exact .inl (by decide)
  · rename_i hn
    simp only [Bool.or_eq_true, not_or, Bool.not_eq_true] at hn
    have ha' : 0 ≤ signed a := by rcases ha with h | h; · rw [hn.1] at h; cases h
                                  · exact h
    have hb' : 0 ≤ signed b := by rcases hb with h | h; · rw [hn.2] at h; cases h
                                  · exact h
    split
    · split
      · exact .inl (by decide)
      · exact .inr ha'
    · split
      · exact .inr hb'
      · split
        · refine .inr ?_
          rw [signed_pack (Nat.zero_le _), uval_small (Nat.zero_le _)]
          split <;> simp
        · refine .inr ?_
          rw [signed_pack (roundMag_le_inf _ _)]
          have : decide (signed a + signed b < 0) = false := by simp; omega
          rw [this]
          simp

theorem mul_nonNeg {a b : F64} (ha : NonNeg a) (hb : NonNeg b) : NonNeg (mul a b) := by
  rw [nonNeg_iff] at *
  have key : ∀ {x : F64}, 0 ≤ signed x → neg x = true → mag x = 0 ∧ isZero x = true := by
    intro x h1 h2
    have h3 : mag x = 0 := by unfold signed at h1; rw [h2] at h1; simp at h1; omega
    refine ⟨h3, ?_⟩
    rw [mag_low] at h3
    have h4 : uval 0 = 0 := uval_small (Nat.zero_le _)
    have := (uval_le_iff (a := low x) (b := 0)).mp (by omega)
    unfold isZero
    rw [show x.toNat % 2 ^ 63 = low x from rfl]
    simp; omega
  have hzi : ∀ {x : F64}, isZero x = true → isInf x = false := by
    intro x h
    unfold isZero at h
    unfold isInf
    simp at h ⊢
    omega
  unfold mul
  split
  · exact .inl (by decide)
  · rename_i hn
    simp only [Bool.or_eq_true, not_or, Bool.not_eq_true] at hn
    have ha' : 0 ≤ signed a := by rcases ha with h | h; · rw [hn.1] at h; cases h
                                  · exact h
    have hb' : 0 ≤ signed b := by rcases hb with h | h; · rw [hn.2] at h; cases h
                                  · exact h
    split
    · exact .inl (by decide)
    · rename_i hz
      simp only [Bool.or_eq_true, Bool.and_eq_true, not_or, not_and, Bool.not_eq_true] at hz
      split
      · rename_i hi
        refine .inr ?_
        rw [signed_pack (Nat.le_refl _)]
        have hna : neg a = false := by
          cases h : neg a with
          | false => rfl
          | true =>
            obtain ⟨-, h1⟩ := key ha' h
            rw [hzi h1, hz.2 h1] at hi
            simp at hi
        have hnb : neg b = false := by
          cases h : neg b with
          | false => rfl
          | true =>
            obtain ⟨-, h1⟩ := key hb' h
            rcases Bool.or_eq_true _ _ ▸ hi with h2 | h2
            · rw [hz.1 h2] at h1; cases h1
            · rw [hzi h1] at h2; cases h2
        rw [hna, hnb]
        simp
      · refine .inr ?_
        rw [signed_pack (roundMag_le_inf _ _)]
        have hzero : neg a = true ∨ neg b = true → roundMag (mag a * mag b) (2 ^ 1074) = 0 := by
          intro h
          have h0 : mag a * mag b = 0 := by
            rcases h with h | h
            · rw [(key ha' h).1, Nat.zero_mul]
            · rw [(key hb' h).1, Nat.mul_zero]
          rw [h0]
          exact Nat.le_zero.mp (roundMag_le (Nat.two_pow_pos _) (Nat.zero_le _))
        cases h1 : neg a with
        | true =>
          rw [hzero (.inl h1), uval_small (Nat.zero_le _)]
          split <;> simp
        | false =>
          cases h2 : neg b with
          | true =>
            rw [hzero (.inr h2), uval_small (Nat.zero_le _)]
            split <;> simp
          | false => simp

theorem foldl_nonNeg {l : List F64} : ∀ {acc : F64}, NonNeg acc → (∀ w ∈ l, NonNeg w) → NonNeg (l.foldl add acc) := by
  induction l with
  | nil => intro acc h _; exact h
  | cons a l ih =>
    intro acc h hl
    exact ih (add_nonNeg h (hl a (List.mem_cons_self ..))) (fun w hw => hl w (List.mem_cons_of_mem _ hw))

/-- Weights with a finite total and a finite inverse have areas whose bounds are numbers. -/
theorem normalize_num {ws : List F64} {inv : F64} (h0 : 0 < ws.length) (hfin : F64.isFinite (ieee.total ws) = true)
    (hinv : F64.isFinite inv = true) : ∀ v ∈ normalizeAreas ieee ws inv, ¬ NotANumber v := by
  obtain ⟨hl, hfirst, hlast⟩ := normalizeAreas_shape ieee (inv := inv) h0
  have hpart : ∀ i, F64.isFinite ((ws.take i).foldl Ieee.add F64.zero) = true := by
    intro i
    have : ieee.total ws = (ws.drop i).foldl Ieee.add ((ws.take i).foldl Ieee.add F64.zero) := by
      rw [← List.foldl_append, List.take_append_drop]; rfl
    rw [this] at hfin
    exact IeeeLemmas.foldl_finite hfin
  intro v hv hnan
  obtain ⟨i, hi, rfl⟩ := List.getElem_of_mem hv
  rw [hl] at hi
  have hnan' := (realValue_none _).mp hnan
  have hget : (normalizeAreas ieee ws inv)[i]? = some (normalizeAreas ieee ws inv)[i] :=
    List.getElem?_eq_getElem (by omega)
  rcases Nat.eq_zero_or_pos i with rfl | h0
  · rw [hfirst] at hget
    rw [← Option.some.inj hget] at hnan'
    exact absurd hnan' (by decide)
  · rcases Nat.lt_or_ge i ws.length with h2 | h2
    · obtain ⟨j, rfl⟩ : ∃ j, i = j + 1 := ⟨i - 1, by omega⟩
      rw [normalizeAreas_get ieee h2] at hget
      rw [← Option.some.inj hget] at hnan'
      have := IeeeLemmas.mul_num (hpart (j + 1)) hinv
      rw [show ieee.mul = Ieee.mul from rfl, show ieee.add = Ieee.add from rfl] at hnan'
      rw [this] at hnan'; cases hnan'
    · have : i = ws.length := by omega
      subst this
      rw [hlast] at hget
      rw [← Option.some.inj hget] at hnan'
      exact absurd hnan' (by decide)

/-- An area that holds a draw and is not the last was not given as zero. -/
theorem normalize_zero {ws : List F64} {inv : F64} (hfin : F64.isFinite (ieee.total ws) = true)
    (hinv : F64.isFinite inv = true) {i : Nat} (hi : i + 1 < ws.length) {t : F64}
    (ha : AreaOf (normalizeAreas ieee ws inv) i t) {w : F64} (hw : ws[i]? = some w) : realValue w ≠ some 0 := by
  intro hz
  have h0 : 0 < ws.length := by omega
  obtain ⟨hl, hfirst, hlast⟩ := normalizeAreas_shape ieee (inv := inv) h0
  have hpart : ∀ i, F64.isFinite ((ws.take i).foldl Ieee.add F64.zero) = true := by
    intro i
    have : ieee.total ws = (ws.drop i).foldl Ieee.add ((ws.take i).foldl Ieee.add F64.zero) := by
      rw [← List.foldl_append, List.take_append_drop]; rfl
    rw [this] at hfin
    exact IeeeLemmas.foldl_finite hfin
  obtain ⟨lo, hi', h5, h6, a, b, x, h7, h8, -, h9, h10⟩ := ha
  have e6 := normalizeAreas_get ieee (inv := inv) hi
  rw [h6] at e6
  have e6 := Option.some.inj e6
  have htake : ws.take (i + 1) = ws.take i ++ [w] := by
    rw [List.take_add_one, hw]; rfl
  have hsum : (ws.take (i + 1)).foldl ieee.add F64.zero = (ws.take i).foldl ieee.add F64.zero := by
    rw [htake, List.foldl_append]
    exact IeeeLemmas.add_zero (IeeeLemmas.finite_num (hpart i)).1 (IeeeLemmas.foldl_ne_negzero (by decide)) hz
  rw [hsum] at e6
  rcases Nat.eq_zero_or_pos i with rfl | h0
  · rw [hfirst] at h5
    cases h5
    rw [IeeeLemmas.realValue_zero] at h7; cases h7
    rw [e6] at h8
    have := IeeeLemmas.zero_mul (z := F64.zero) IeeeLemmas.realValue_zero hinv
    rw [show ieee.mul = Ieee.mul from rfl] at h8
    simp only [List.take_zero, List.foldl_nil] at h8
    rw [this] at h8; cases h8
    omega
  · obtain ⟨j, rfl⟩ : ∃ j, i = j + 1 := ⟨i - 1, by omega⟩
    rw [normalizeAreas_get ieee (by omega)] at h5
    have h5 := Option.some.inj h5
    rw [h5] at e6
    rw [e6, h7] at h8
    cases h8
    omega

end IeeeLemmas

namespace Forest

/-- No weight, bias or total is negative. -/
structure NonNegNode (n : TreeNode) : Prop where
  weights : ∀ w ∈ n.weights, NonNeg w
  bias : NonNeg n.bias
  sum : NonNeg n.sum

def AllNonNeg (f : Forest) : Prop := ∀ ⦃h n⦄, f.node h = some n → NonNegNode n

theorem NonNegNode.reweigh {n : TreeNode} (hn : NonNegNode n) {i : Nat} {w : F64} (hw : NonNeg w) :
    NonNegNode (reweigh ieee n i w) := by
  have h1 : ∀ v ∈ n.weights.set i w, NonNeg v := by
    intro v hv
    rcases List.mem_or_eq_of_mem_set hv with h | rfl
    · exact hn.weights v h
    · exact hw
  exact ⟨h1, hn.bias, IeeeLemmas.foldl_nonNeg (by unfold NonNeg; decide) h1⟩

theorem AllNonNeg.put {f : Forest} (ha : AllNonNeg f) {h : Nat} {n m : TreeNode} (hn : f.node h = some n)
    (hm : NonNegNode m) : AllNonNeg (f.put h m) := by
  intro k x hx
  rw [node_put hn] at hx
  split at hx
  · cases hx; exact hm
  · exact ha hx

theorem updateLoop_nonNeg {fuel : Nat} : ∀ {f g : Forest} {h i : Nat} {w : F64}, AllNonNeg f → NonNeg w →
    updateLoop ieee fuel f h i w = some (.ok g) → AllNonNeg g := by
  induction fuel with
  | zero => intro f g h i w _ _ hr; cases hr
  | succ fuel ih =>
    intro f g h i w ha hw hr
    simp only [updateLoop] at hr
    split at hr
    · cases hr
    · rename_i n hn
      have hx := (ha hn).reweigh (i := i) hw
      split at hr
      · cases hr
        exact ha.put hn hx
      · exact ih (ha.put hn hx) (IeeeLemmas.mul_nonNeg hx.sum (ha hn).bias) hr

theorem updateWeight_nonNeg {fuel : Nat} {f g : Forest} {h i : Nat} {w : F64} (ha : AllNonNeg f) (hw : NonNeg w)
    (hr : updateWeight ieee fuel f h i w = some (.ok g)) : AllNonNeg g := by
  unfold updateWeight at hr
  split at hr
  · cases hr
  · split at hr
    · cases hr
    · split at hr
      · cases hr; exact ha
      · exact updateLoop_nonNeg ha hw hr

theorem link_nonNeg {f : Forest} (ha : AllNonNeg f) (h i c : Nat) : AllNonNeg (f.link h i c) := by
  unfold link
  split
  · exact ha
  · rename_i m hm
    have h1 : AllNonNeg (f.put c { m with parent := some h, index := i }) :=
      ha.put hm ⟨(ha hm).weights, (ha hm).bias, (ha hm).sum⟩
    split
    · exact ha
    · rename_i n hn
      exact h1.put hn ⟨(h1 hn).weights, (h1 hn).bias, (h1 hn).sum⟩

theorem detach_nonNeg {cs : List (Option Nat)} : ∀ {f : Forest}, AllNonNeg f → AllNonNeg (f.detach cs) := by
  induction cs with
  | nil => intro f ha; exact ha
  | cons c cs ih =>
    intro f ha
    cases c with
    | none => exact ih ha
    | some c =>
      simp only [detach]
      split
      · exact ih ha
      · rename_i m hm
        exact ih (ha.put hm ⟨(ha hm).weights, (ha hm).bias, (ha hm).sum⟩)

theorem fresh_nonNeg (a : Nat) (v : Value) : NonNegNode (fresh ieee a v) := by
  have ho : NonNeg F64.one := (by decide : F64.lt F64.one F64.zero = false)
  have hz : NonNeg F64.zero := (by decide : F64.lt F64.zero F64.zero = false)
  have h1 : ∀ w ∈ unitWeights a, NonNeg w := by
    intro w hw
    rw [(List.mem_replicate.mp hw).2]
    exact ho
  have h2 : NonNeg ((unitWeights a).foldl Ieee.add F64.zero) := IeeeLemmas.foldl_nonNeg hz h1
  constructor
  · exact h1
  · exact ho
  · simp only [fresh, FloatOps.total]; exact h2

/-- Weights, biases and totals are never negative. -/
theorem grown_nonNeg {f : Forest} (hg : GrownForest ieee f) : AllNonNeg f := by
  induction hg with
  | empty => intro h n hn; simp [node] at hn
  | @step f f' op fuel _ _ hs ih =>
    cases op with
    | create a v =>
      simp only [Forest.step, Option.some.injEq] at hs
      cases hc : f.create ieee a v with
      | ub => rw [hc] at hs; cases hs
      | err e => rw [hc] at hs; cases hs
      | ok r =>
        rw [hc] at hs
        have hr : r.1 = f' := Out.ok.inj hs
        unfold create at hc
        by_cases h1 : 4 < v.tag
        · rw [refute_true h1] at hc; cases hc
        · rw [refute_false h1, Out.bind_ok] at hc
          by_cases h2 : 2 ^ 63 - 2 < a
          · rw [refute_true h2] at hc; cases hc
          · rw [refute_false h2, Out.bind_ok] at hc
            by_cases h3 : v = .str none
            · rw [refute_true h3] at hc; cases hc
            · rw [refute_false h3, Out.bind_ok] at hc
              cases hc
              subst hr
              intro k n hn
              rw [node_append] at hn
              split at hn
              · cases hn; exact fresh_nonNeg a v
              · exact ih hn
    | setChild h i c =>
      simp only [Forest.step, setChild] at hs
      split at hs
      · rename_i n m hn hm
        split at hs
        · cases hs
        · split at hs
          · cases hs
          · split at hs
            · cases hs
            · exact updateWeight_nonNeg (link_nonNeg ih _ _ _) (IeeeLemmas.mul_nonNeg (ih hm).sum (ih hm).bias) hs
      · cases hs
    | setWeight h w =>
      simp only [Forest.step, setWeight] at hs
      split at hs
      · cases hs
      · split at hs
        · cases hs
        · rename_i hw
          exact updateWeight_nonNeg ih (by simpa [NonNeg] using hw) hs
    | setBias h b =>
      simp only [Forest.step, setBias] at hs
      split at hs
      · cases hs
      · split at hs
        · cases hs
        · rename_i n hn hw
          have hb : NonNeg b := by simpa [NonNeg] using hw
          simp only [updateBias, hn] at hs
          split at hs
          · cases hs; exact ih
          · have hp : AllNonNeg (f.put h { n with bias := b }) :=
              ih.put hn ⟨(ih hn).weights, hb, (ih hn).sum⟩
            split at hs
            · cases hs; exact hp
            · exact updateWeight_nonNeg hp (IeeeLemmas.mul_nonNeg (ih hn).sum hb) hs
    | destroy h =>
      simp only [Forest.step, Option.some.injEq] at hs
      unfold destroy at hs
      split at hs
      · cases hs
      · cases hs
        intro k n hn
        rw [node_set_none] at hn
        split at hn
        · cases hn
        · exact detach_nonNeg ih hn

end Forest

end CCS
