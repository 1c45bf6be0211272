import Verif.Spec.FloatDraw
import Verif.Lemmas.FloatRange
import Verif.Props.Distribution

/-! # C83 (continued): uniform distributions of doubles -/

namespace CCS.Props

open CCS Spec IeeeLemmas CCS.Distribution

variable {σ : Type}

theorem uval_one : uval 0x3ff0000000000000 = 2 ^ 1074 := by
  rw [show 0x3ff0000000000000 = 1022 * 2 ^ 52 + 2 ^ 52 by decide, uval_scaled (Nat.le_refl _) (by decide), ← Nat.pow_add]

theorem int_bound {v : Nat} {c k j : Nat} (h : (v : Int) * k ≤ c * j) : v * k ≤ c * j := by exact_mod_cast h

theorem draw_finer {m c : Nat} (h : m * 2 ^ 48 ≤ c * (2 ^ 48 - 1)) : m * 2 ^ 52 ≤ c * (2 ^ 52 - 1) := by
  calc m * 2 ^ 52 = m * 2 ^ 48 * 16 := by rw [Nat.mul_assoc]
    _ ≤ c * (2 ^ 48 - 1) * 16 := Nat.mul_le_mul_right _ h
    _ = c * ((2 ^ 48 - 1) * 16) := Nat.mul_assoc ..
    _ ≤ c * (2 ^ 52 - 1) := Nat.mul_le_mul_left _ (by decide)

theorem spacedDraw_facts {t : F64} (h : SpacedDraw t) :
    F64.isNaN t = false ∧ F64.isFinite t = true ∧ 0 ≤ Ieee.signed t ∧ Ieee.mag t * 2 ^ 48 ≤ 2 ^ 1074 * (2 ^ 48 - 1) ∧
      Ieee.mag t * 2 ^ 52 ≤ 2 ^ 1074 * (2 ^ 52 - 1) := by
  obtain ⟨v, h1, h2, h3⟩ := h
  have hn : F64.isNaN t = false := by
    cases hc : F64.isNaN t with
    | false => rfl
    | true => rw [realValue_eq, hc] at h1; simp at h1
  rw [realValue_signed hn] at h1
  obtain rfl := Option.some.inj h1
  obtain ⟨hm, -⟩ := mag_signed h2
  have hb : Ieee.mag t * 2 ^ 48 ≤ 2 ^ 1074 * (2 ^ 48 - 1) := by
    rw [hm] at h3
    exact int_bound (k := 2 ^ 48) (c := 2 ^ 1074) (j := 2 ^ 48 - 1) h3
  have h4 : Ieee.mag t ≤ 2 ^ 1074 :=
    Nat.le_of_mul_le_mul_right (Nat.le_trans hb (Nat.mul_le_mul_left _ (Nat.sub_le _ _))) (Nat.two_pow_pos 48)
  refine ⟨hn, ?_, h2, hb, draw_finer hb⟩
  rw [mag_low, ← uval_one, uval_le_iff] at h4
  rw [isFinite_low]
  exact decide_eq_true (Nat.lt_of_le_of_lt h4 (by decide))

theorem signed_zero : Ieee.signed F64.zero = 0 := by decide +kernel

/-- `0 * (1 - t)` is a zero. -/
theorem first_term {t : F64} (h : SpacedDraw t) : F64.isFinite (Ieee.mul F64.zero (Ieee.sub F64.one t)) = true ∧
    Ieee.signed (Ieee.mul F64.zero (Ieee.sub F64.one t)) = 0 := by
  obtain ⟨t1, t2, t3, -, t4⟩ := spacedDraw_facts h
  have h1 : F64.isFinite F64.one = true := by decide +kernel
  have h0 : F64.isFinite F64.zero = true := by decide +kernel
  have hf := finite_flip t2
  have hone : Ieee.signed F64.one = 2 ^ 1074 := by
    have := realValue_signed (x := F64.one) (by decide +kernel)
    rw [realValue_one] at this
    exact (Option.some.inj this).symm
  have htl : Ieee.signed t ≤ Ieee.signed F64.one := by
    rw [hone]
    have h4 : Ieee.mag t ≤ 2 ^ 1074 :=
      Nat.le_of_mul_le_mul_right (Nat.le_trans t4 (Nat.mul_le_mul_left _ (Nat.sub_le _ _))) (Nat.two_pow_pos 52)
    have e : Ieee.signed t ≤ (Ieee.mag t : Int) := by
      unfold Ieee.signed
      split <;> omega
    exact Int.le_trans e (by exact_mod_cast h4)
  have hs : F64.isFinite (Ieee.sub F64.one t) = true := by
    refine finite_between h0 h1 (add_num h1 hf) ?_ ?_
    · refine le_add h1 hf (by decide +kernel) ?_
      rw [signed_flip, signed_zero]
      generalize Ieee.signed F64.one = a at *
      omega
    · refine add_le h1 hf (by decide +kernel) ?_
      rw [signed_flip]
      generalize Ieee.signed F64.one = a at *
      omega
  have hz := IeeeLemmas.zero_mul (z := F64.zero) realValue_zero hs
  have hn := mul_num h0 hs
  rw [realValue_signed hn] at hz
  have hz := Option.some.inj hz
  exact ⟨finite_between h0 h0 hn (by rw [hz, signed_zero]; exact Int.le_refl 0) (by rw [hz, signed_zero]; exact Int.le_refl 0), hz⟩

theorem not_le_signed {a b : F64} (ha : F64.isFinite a = true) (hb : F64.isFinite b = true) (h : F64.le b a = false) :
    Ieee.signed a < Ieee.signed b := by
  rcases Int.lt_or_le (Ieee.signed a) (Ieee.signed b) with hlt | hge
  · exact hlt
  · have := (f64_le_iff b a).mpr ⟨_, _, realValue_signed (finite_num hb).1, realValue_signed (finite_num ha).1, hge⟩
    rw [h] at this
    cases this

/-- The last step: adding the lower bound. -/
theorem closed_mem {lower upper p : F64} (hl : F64.isFinite lower = true) (hu : F64.isFinite upper = true)
    (hf : F64.isFinite p = true) (p0 : 0 ≤ Ieee.signed p) (p1 : Ieee.signed p + Ieee.signed lower ≤ Ieee.signed upper) :
    Mem ⟨.float, lower, upper, 1#32, 1#32⟩ (Ieee.add p lower) := by
  have n1 := (finite_num hl).1
  have n2 := (finite_num hu).1
  have hv := add_num hf hl
  have b1 := le_add hf hl n1 (by omega)
  have b2 := add_le hf hl n2 (by omega)
  refine ⟨_, _, _, realValue_signed n1, realValue_signed hv, realValue_signed n2, ?_, ?_⟩
  · rcases Int.lt_or_eq_of_le b1 with h | h
    · exact Or.inl h
    · exact Or.inr ⟨show 1#32 ≠ 0#32 by decide, h⟩
  · rcases Int.lt_or_eq_of_le b2 with h | h
    · exact Or.inl h
    · exact Or.inr ⟨show 1#32 ≠ 0#32 by decide, h⟩

/-- `gsl_ran_flat` from 0: the draw times the width. -/
theorem flat_zero {M : Machine σ} (hM : GslFlat M) {w : F64} (g : σ)
    (hp : F64.isFinite (Ieee.mul w (M.uniform g).1) = true) :
    F64.isFinite (M.flat g F64.zero w).1 = true ∧
      Ieee.signed (M.flat g F64.zero w).1 = Ieee.signed (Ieee.mul w (M.uniform g).1) := by
  obtain ⟨z1, z2⟩ := first_term (hM.draws g)
  rw [hM.flat]
  show F64.isFinite (Ieee.add _ _) = true ∧ Ieee.signed (Ieee.add _ _) = _
  have h1 := zero_add_signed z1 z2 hp
  have hn := add_num z1 hp
  exact ⟨finite_between hp hp hn (by rw [h1]; exact Int.le_refl _) (by rw [h1]; exact Int.le_refl _), h1⟩

/-- One draw of a linear uniform distribution of doubles. -/
theorem one_draw {M : Machine σ} (hM : GslFlat M) {lower upper : F64} (hl : F64.isFinite lower = true)
    (hu : F64.isFinite upper = true) (hlt : F64.le upper lower = false)
    (hw : F64.isFinite (Ieee.sub upper lower) = true) (g : σ) :
    Mem ⟨.float, lower, upper, 1#32, 1#32⟩ (Ieee.add (M.flat g F64.zero (Ieee.sub upper lower)).1 lower) := by
  have hs := not_le_signed hl hu hlt
  obtain ⟨t1, t2, t3, -, t4⟩ := spacedDraw_facts (hM.draws g)
  obtain ⟨-, p0, pf, p1⟩ := shifted_le hl hu hs rfl hw t3 t2 t4
  obtain ⟨f1, f2⟩ := flat_zero hM g pf
  exact closed_mem hl hu f1 (by omega) (by omega)

/-- One draw of a quantized linear uniform distribution of doubles. -/
theorem one_step {M : Machine σ} (hM : GslFlat M) {lower upper q : F64} (hl : F64.isFinite lower = true)
    (hu : F64.isFinite upper = true) (hlt : F64.le upper lower = false) (hw : F64.isFinite (Ieee.sub upper lower) = true)
    (hq : F64.isFinite q = true) (hq0 : 0 < Ieee.signed q)
    (hm : F64.isFinite (Ieee.div (Ieee.sub upper lower) q) = true) (g : σ) :
    Mem ⟨.float, lower, upper, 1#32, 1#32⟩
      (Ieee.add (Ieee.mul (M.floor (M.flat g F64.zero (Ieee.div (Ieee.sub upper lower) q)).1) q) lower) := by
  have hs := not_le_signed hl hu hlt
  obtain ⟨t1, t2, t3, t4, t5⟩ := spacedDraw_facts (hM.draws g)
  have hqn : Ieee.neg q = false := by
    cases h : Ieee.neg q with
    | false => rfl
    | true => have := signed_nonpos h; omega
  have hdn : Ieee.neg (Ieee.sub upper lower) = false := by
    obtain ⟨_, r, -, hr, -, hd, -⟩ := width_facts hl hu hs hw
    rw [hd, neg_pack (Nat.le_of_lt hr)]
  have hm0 := div_sign hdn hqn hm
  generalize hmm : Ieee.div (Ieee.sub upper lower) q = m at *
  have ht1 : Ieee.mag (M.uniform g).1 ≤ 2 ^ 1074 :=
    Nat.le_of_mul_le_mul_right (Nat.le_trans t4 (Nat.mul_le_mul_left _ (Nat.sub_le _ _))) (Nat.two_pow_pos 48)
  have pf := mul_unit hm t2 hm0 t3 ht1
  obtain ⟨f1, f2⟩ := flat_zero hM g pf
  have hv0 : 0 ≤ Ieee.signed (Ieee.mul m (M.uniform g).1) := by
    rw [(mul_nonneg_mag hm t2 hm0 t3).1]
    omega
  obtain ⟨k1, k, k2, k3, -⟩ := hM.floor _ _ f1 (realValue_signed (finite_num f1).1) (by omega)
  generalize M.floor (M.flat g F64.zero m).1 = kd at *
  rw [realValue_signed (finite_num k1).1] at k2
  have k2 := Option.some.inj k2
  have hk0 : 0 ≤ Ieee.signed kd := by
    rw [k2]
    exact Int.mul_nonneg (Int.natCast_nonneg _) (Int.le_of_lt (Int.pow_pos (by decide)))
  have hki : Ieee.signed kd = 0 ∨ 0x3ff0000000000000 ≤ low kd := by
    cases k with
    | zero => exact Or.inl (by rw [k2, Int.natCast_zero, Int.zero_mul])
    | succ k =>
      right
      apply uval_le_iff.mp
      rw [uval_one, ← mag_low]
      have h1 : ((Ieee.mag kd : Nat) : Int) = (((k + 1) * 2 ^ 1074 : Nat) : Int) := by
        rw [← (mag_signed hk0).1, k2, Int.natCast_mul, Int.natCast_pow]
        rfl
      rw [Int.natCast_inj.mp h1]
      exact Nat.le_mul_of_pos_left _ (Nat.succ_pos k)
  obtain ⟨p0, pf', p1⟩ := stepped_le (k := kd) hl hu hs hw hq hq0 (by rw [hmm]; exact hm) t3 t2 t4 k1
    hk0 (by rw [hmm, k2, ← f2]; exact k3) hki
  exact closed_mem hl hu pf' p0 p1

/-- What is made by `ccs_create_uniform_distribution` for a linear distribution of doubles without quantization. -/
theorem linear_float_ok {M : Machine σ} {lower upper q : F64} {d : Sampler σ} (hq : F64.feq q F64.zero = true)
    (h : createUniform M .float lower upper false q = .ok d) : F64.le upper lower = false ∧ ∃ u : Uniform,
      u = ⟨.float, lower, upper, false, q, F64.zero, M.ops.sub upper lower, false⟩ ∧
      d = ⟨1, [.float], [u.bounds], u.samples M, u.strided M, soaOne (u.samples M)⟩ := by
  unfold createUniform at h
  obtain ⟨_, h1, h⟩ := bind_ok_split h
  obtain ⟨u, h2, h⟩ := bind_ok_split h
  have hle : F64.le upper lower = false := by
    cases hc : F64.le upper lower with
    | false => rfl
    | true =>
      unfold Uniform.check refute at h1
      simp only [hc, true_or, if_true] at h1
      cases h1
  simp only [Uniform.fill, hq, Bool.not_true, Bool.false_eq_true, if_false, Out.ok.injEq] at h2
  exact ⟨hle, u, h2.symm, (Out.ok.inj h).symm⟩

/-- The tables of such a distribution. -/
theorem linear_float_table {M : Machine σ} {lower upper q : F64} {d : Sampler σ} (hq : F64.feq q F64.zero = true)
    (h : createUniform M .float lower upper false q = .ok d) (n : Nat) (g : σ) : ∃ (vs : List (BitVec 64)) (g' : σ),
      Layouts d n g (some (.ok (vs.map fun v => [v], g'))) ∧
      ∀ v ∈ vs, ∃ g, v = M.ops.add (M.flat g F64.zero (M.ops.sub upper lower)).1 lower := by
  obtain ⟨-, u, hu, rfl⟩ := linear_float_ok hq h
  have hbody : ∀ n addr, uniformBody M u n addr =
      .seq (.loop (fun i => .put (addr i) (u.rawFloat M)) n 0) (.loop (fun i => .update (addr i) (u.shiftFloat M)) n 0) := by
    intro n addr
    subst hu
    simp [uniformBody]
  have hgood := good_column (V := fun n g => thenMap (drawN (u.rawFloat M) n g) (u.shiftFloat M))
    (fun n addr hi g => by rw [hbody]; exact fills1_update hi (fills1_put addr _ n g hi) _) (fun g => rfl)
    [.float] [u.bounds] (uniform_samples M u) (uniform_strided M u)
  have hlay := layouts_of_good hgood n g
  let P : BitVec 64 → Prop := fun v => ∃ g, v = (M.flat g F64.zero (M.ops.sub upper lower)).1
  let Q : BitVec 64 → Prop := fun v => ∃ g, v = M.ops.add (M.flat g F64.zero (M.ops.sub upper lower)).1 lower
  have hraw : ∀ g, ∃ v g', u.rawFloat M g = some (.ok (v, g')) ∧ P v := fun g => by
    subst hu
    exact ⟨_, _, rfl, g, rfl⟩
  obtain ⟨vs, g1, h1, hvs⟩ := drawN_all hraw n g
  obtain ⟨ws, h2, hws⟩ := mapOut_all (f := u.shiftFloat M) (Q := Q) (fun v hv => by
    obtain ⟨g, rfl⟩ := hv
    subst hu
    exact ⟨_, rfl, g, rfl⟩) vs hvs
  simp only [h1, thenMap, rbind, h2, single] at hlay
  exact ⟨ws, g1, hlay, hws⟩

/-- The tables of such a distribution with a quantization. -/
theorem stepped_float_table {M : Machine σ} {lower upper q : F64} {d : Sampler σ} (hq : F64.feq q F64.zero = false)
    (h : createUniform M .float lower upper false q = .ok d) (n : Nat) (g : σ) :
    F64.le upper lower = false ∧ F64.lt q F64.zero = false ∧ ∃ (vs : List (BitVec 64)) (g' : σ),
      Layouts d n g (some (.ok (vs.map fun v => [v], g'))) ∧ ∀ v ∈ vs, ∃ g, v =
        M.ops.add (M.ops.mul (M.floor (M.flat g F64.zero (M.ops.div (M.ops.sub upper lower) q)).1) q) lower := by
  unfold createUniform at h
  obtain ⟨_, h1, h⟩ := bind_ok_split h
  obtain ⟨u, h2, h⟩ := bind_ok_split h
  have hle : F64.le upper lower = false := by
    cases hc : F64.le upper lower with
    | false => rfl
    | true =>
      unfold Uniform.check refute at h1
      simp only [hc, true_or, if_true] at h1
      cases h1
  have hlt : F64.lt q F64.zero = false := by
    cases hc : F64.lt q F64.zero with
    | false => rfl
    | true =>
      unfold Uniform.check refute at h1
      simp only [hc, true_or, or_true, if_true] at h1
      cases h1
  refine ⟨hle, hlt, ?_⟩
  simp only [Uniform.fill, hq, Bool.not_false, Bool.false_eq_true, if_false, if_true, Out.ok.injEq] at h2
  obtain rfl := Out.ok.inj h
  have hbody : ∀ n addr, uniformBody M u n addr =
      .seq (.loop (fun i => .put (addr i) (u.rawFloat M)) n 0) (.loop (fun i => .update (addr i) (u.stepFloat M)) n 0) := by
    intro n addr
    subst h2
    simp [uniformBody]
  have hgood := good_column (V := fun n g => thenMap (drawN (u.rawFloat M) n g) (u.stepFloat M))
    (fun n addr hi g => by rw [hbody]; exact fills1_update hi (fills1_put addr _ n g hi) _) (fun g => rfl)
    [.float] [u.bounds] (uniform_samples M u) (uniform_strided M u)
  have hlay := layouts_of_good hgood n g
  let P : BitVec 64 → Prop := fun v => ∃ g, v = (M.flat g F64.zero (M.ops.div (M.ops.sub upper lower) q)).1
  let Q : BitVec 64 → Prop := fun v => ∃ g, v =
    M.ops.add (M.ops.mul (M.floor (M.flat g F64.zero (M.ops.div (M.ops.sub upper lower) q)).1) q) lower
  have hraw : ∀ g, ∃ v g', u.rawFloat M g = some (.ok (v, g')) ∧ P v := fun g => by
    subst h2
    exact ⟨_, _, rfl, g, rfl⟩
  obtain ⟨vs, g1, h3, hvs⟩ := drawN_all hraw n g
  obtain ⟨ws, h4, hws⟩ := mapOut_all (f := u.stepFloat M) (Q := Q) (fun v hv => by
    obtain ⟨g, rfl⟩ := hv
    subst h2
    exact ⟨_, rfl, g, rfl⟩) vs hvs
  simp only [h3, thenMap, rbind, h4, single] at hlay
  exact ⟨ws, g1, hlay, hws⟩

/-- **C83** (linear distributions of doubles, quantized or not) The samples are numbers of the closed interval; only the
excluded upper bound itself can be given in excess (`C83_float_upper`).  The bounds, their difference and the number of
steps are finite (`C83_float_wide` for the others). -/
theorem C83_float_closed_partial {M : Machine σ} (hM : GslFlat M) {lower upper q : F64} {d : Sampler σ}
    (hd : createUniform M .float lower upper false q = .ok d)
    (hl : F64.isFinite lower = true) (hu : F64.isFinite upper = true) (hw : F64.isFinite (ieee.sub upper lower) = true)
    (hq : F64.feq q F64.zero = true ∨
      (F64.isFinite q = true ∧ F64.isFinite (ieee.div (ieee.sub upper lower) q) = true)) (n : Nat) (g : σ) :
    ∃ rows g', Layouts d n g (some (.ok (rows, g'))) ∧ rows.length = n ∧
      Within [⟨.float, lower, upper, 1#32, 1#32⟩] rows := by
  have done : ∀ {vs : List (BitVec 64)} {g'}, Layouts d n g (some (.ok (vs.map fun v => [v], g'))) →
      (∀ v ∈ vs, Mem ⟨.float, lower, upper, 1#32, 1#32⟩ v) → ∃ rows g', Layouts d n g (some (.ok (rows, g'))) ∧
        rows.length = n ∧ Within [⟨.float, lower, upper, 1#32, 1#32⟩] rows := by
    intro vs g' h1 h2
    refine ⟨_, _, h1, (h1.contiguous 0).1, ?_⟩
    intro row hrow c v b hv hb
    obtain ⟨w, hw', rfl⟩ := List.mem_map.mp hrow
    cases c with
    | succ c => simp at hb
    | zero =>
      simp only [List.getElem?_cons_zero, Option.some.injEq] at hv hb
      subst hv hb
      exact h2 w hw'
  cases hz : F64.feq q F64.zero with
  | true =>
    obtain ⟨vs, g', h1, h2⟩ := linear_float_table hz hd n g
    refine done h1 fun v hv => ?_
    obtain ⟨g, rfl⟩ := h2 v hv
    rw [hM.ops]
    exact one_draw hM hl hu (linear_float_ok hz hd).1 hw g
  | false =>
    rcases hq with hq | ⟨hq, hm⟩
    · rw [hz] at hq; cases hq
    · obtain ⟨h3, h4, vs, g', h1, h2⟩ := stepped_float_table hz hd n g
      refine done h1 fun v hv => ?_
      obtain ⟨g, rfl⟩ := h2 v hv
      rw [hM.ops]
      refine one_step hM hl hu h3 hw hq ?_ hm g
      have hqv := realValue_signed (finite_num hq).1
      rcases Int.lt_trichotomy (Ieee.signed q) 0 with h | h | h
      · rw [(f64_lt_iff q F64.zero).mpr ⟨_, _, hqv, realValue_zero, h⟩] at h4
        cases h4
      · have := (feq_iff q F64.zero).mpr ⟨0, by rw [← h]; exact hqv, realValue_zero⟩
        rw [hz] at this
        cases this
      · exact h

/-- **C83** fails when the bounds are so far apart that their difference is no double: no sample is a finite number. -/
theorem C83_float_wide {M : Machine σ} (hM : GslFlat M) {lower upper q : F64} {d : Sampler σ}
    (hd : createUniform M .float lower upper false q = .ok d) (hq : F64.feq q F64.zero = true)
    (hw : F64.isFinite (ieee.sub upper lower) = false) (n : Nat) (g : σ) :
    ∃ rows g', Layouts d n g (some (.ok (rows, g'))) ∧ rows.length = n ∧
      ∀ row ∈ rows, ∀ v ∈ row, F64.isFinite v = false := by
  obtain ⟨vs, g', h1, h2⟩ := linear_float_table hq hd n g
  refine ⟨_, _, h1, (h1.contiguous 0).1, ?_⟩
  intro row hrow v hv
  obtain ⟨w, hw', rfl⟩ := List.mem_map.mp hrow
  simp only [List.mem_cons, List.not_mem_nil, or_false] at hv
  subst hv
  obtain ⟨g, rfl⟩ := h2 v hw'
  cases hc : F64.isFinite (M.ops.add (M.flat g F64.zero (M.ops.sub upper lower)).1 lower) with
  | false => rfl
  | true =>
    rw [hM.ops, hM.flat] at hc
    have h3 := (mul_finite (add_finite (add_finite hc).1).2).1
    rw [hw] at h3
    cases h3

/-- A machine of that kind: its generator gives 0.75 and `1 - 2^-48` in turn. -/
def exGsl : Machine Nat :=
  { exMachine with
    floor := Ieee.floorOf
    uniform := fun g => (if g % 2 = 0 then 0x3fe8000000000000#64 else 0x3fefffffffffffe0#64, g + 1)
    flat := fun g a b =>
      let t : F64 := if g % 2 = 0 then 0x3fe8000000000000#64 else 0x3fefffffffffffe0#64
      (Ieee.add (Ieee.mul a (Ieee.sub F64.one t)) (Ieee.mul b t), g + 1) }

theorem exGsl_flat : GslFlat exGsl where
  ops := rfl
  draws := by
    intro g
    show SpacedDraw (if g % 2 = 0 then 0x3fe8000000000000#64 else 0x3fefffffffffffe0#64)
    split
    · exact ⟨Ieee.signed 0x3fe8000000000000#64, by decide +kernel, by decide +kernel, by decide +kernel⟩
    · exact ⟨Ieee.signed 0x3fefffffffffffe0#64, by decide +kernel, by decide +kernel, by decide +kernel⟩
  flat := fun _ _ _ => rfl
  floor := fun _ _ h1 h2 h3 => floorOf_spec h1 h2 h3

/-- Doubles from -1.5 to 0.1, without quantization, and from 0 to 10 by steps of 0.1: all hypotheses are met. -/
example : isOk (createUniform exGsl .float 0xbff8000000000000#64 0x3fb999999999999a#64 false 0#64) = true ∧
    F64.isFinite (ieee.sub 0x3fb999999999999a#64 0xbff8000000000000#64) = true ∧
    isOk (createUniform exGsl .float 0#64 0x4024000000000000#64 false 0x3fb999999999999a#64) = true ∧
    F64.isFinite (ieee.div (ieee.sub 0x4024000000000000#64 0#64) 0x3fb999999999999a#64) = true := by decide +kernel

/-- Doubles from the lowest finite one to the highest: accepted, the bounds are reported, the samples are infinite. -/
example : isOk (createUniform exGsl .float 0xffefffffffffffff#64 0x7fefffffffffffff#64 false 0#64) = true ∧
    F64.isFinite (ieee.sub 0x7fefffffffffffff#64 0xffefffffffffffff#64) = false ∧
    peek (createUniform exGsl .float 0xffefffffffffffff#64 0x7fefffffffffffff#64 false 0#64) (·.callSamples 1 (some 0)) [0] =
      some (.ok [F64.inf]) := by decide +kernel

end CCS.Props
