import Verif.Props.LogUniform

/-! # C83 (continued): bounds and samples of normal distributions -/

namespace CCS.Props

open CCS Spec IeeeLemmas CCS.Distribution

variable {σ : Type}

/-- `(x / q) * q` for the largest and the smallest integers. -/
theorem multiple_max {q : BitVec 64} (hq : 0 < q.toInt) : q.toInt ∣ (Normal.multiple intMax q).toInt ∧
    (Normal.multiple intMax q).toInt ≤ 2 ^ 63 - 1 ∧ 2 ^ 63 - 1 < (Normal.multiple intMax q).toInt + q.toInt := by
  have hx : intMax.toInt = 2 ^ 63 - 1 := by decide
  have h1 := Int.mul_ediv_add_emod (2 ^ 63 - 1) q.toInt
  have h2 := Int.emod_lt_of_pos (2 ^ 63 - 1) hq
  have h3 := Int.emod_nonneg (2 ^ 63 - 1) (by omega : q.toInt ≠ 0)
  have h4 : 0 ≤ q.toInt * ((2 ^ 63 - 1) / q.toInt) :=
    Int.mul_nonneg (by omega) (Int.ediv_nonneg (by omega) (by omega))
  unfold Normal.multiple
  rw [hx, Int.tdiv_eq_ediv_of_nonneg (by omega), Int.mul_comm, toInt_ofInt64 (by omega) (by omega)]
  exact ⟨Int.dvd_mul_right _ _, by omega, by omega⟩

theorem multiple_min {q : BitVec 64} (hq : 0 < q.toInt) : q.toInt ∣ (Normal.multiple intMin q).toInt ∧
    -2 ^ 63 ≤ (Normal.multiple intMin q).toInt ∧ (Normal.multiple intMin q).toInt - q.toInt < -2 ^ 63 := by
  have hx : intMin.toInt = -(2 ^ 63) := by decide
  have h1 := Int.mul_ediv_add_emod (2 ^ 63) q.toInt
  have h2 := Int.emod_lt_of_pos (2 ^ 63) hq
  have h3 := Int.emod_nonneg (2 ^ 63) (by omega : q.toInt ≠ 0)
  have h4 : 0 ≤ q.toInt * ((2 ^ 63) / q.toInt) :=
    Int.mul_nonneg (by omega) (Int.ediv_nonneg (by omega) (by omega))
  unfold Normal.multiple
  rw [hx, Int.neg_tdiv, Int.tdiv_eq_ediv_of_nonneg (by omega), Int.neg_mul, Int.mul_comm, toInt_ofInt64 (by omega) (by omega)]
  exact ⟨Int.dvd_neg.mpr (Int.dvd_mul_right _ _), by omega, by omega⟩

/-- Two multiples at less than a step of a limit are in order. -/
theorem multiple_le {q a b t : Int} (hq : 0 < q) (ha : q ∣ a) (hb : q ∣ b) (h1 : b ≤ t) (h2 : t < a + q) : b ≤ a := by
  obtain ⟨i, rfl⟩ := ha
  obtain ⟨j, rfl⟩ := hb
  rcases Int.lt_or_le i j with h | h
  · have := Int.mul_le_mul_of_nonneg_left (show i + 1 ≤ j by omega) (Int.le_of_lt hq)
    rw [Int.mul_add] at this
    omega
  · exact Int.mul_le_mul_of_nonneg_left h (Int.le_of_lt hq)

/-- What a normal distribution of integers is. -/
theorem normal_int_ok {M : Machine σ} {mu sigma : F64} {log : Bool} {q : BitVec 64} {d : Sampler σ}
    (hd : createNormal M .int mu sigma log q = .ok d) : 0 ≤ q.toInt ∧ ∃ u : Normal,
      u = ⟨.int, mu, sigma, log, q, decide (q ≠ 0#64)⟩ ∧ d = ⟨1, [.int], [u.bounds], u.samples M, u.strided M, soaOne (u.samples M)⟩ := by
  unfold createNormal at hd
  obtain ⟨_, h1, hd⟩ := bind_ok_split hd
  obtain ⟨_, h2, hd⟩ := bind_ok_split hd
  refine ⟨?_, _, rfl, (Out.ok.inj hd).symm⟩
  unfold refute at h1
  split at h1
  · cases h1
  · next h => simpa using h

/-- **C83** The bounds that a normal distribution of integers with a quantization reports are the last multiples of the quantization
among the integers: they are multiples of it and no multiple is beyond them (below, for a linear scale; from the quantization on for a
logarithmic one). -/
theorem C83_normal_int_bounds {M : Machine σ} {mu sigma : F64} {log : Bool} {q : BitVec 64} {d : Sampler σ}
    (hd : createNormal M .int mu sigma log q = .ok d) (hq : q ≠ 0#64) :
    ∃ lo hi, d.bounds = [⟨.int, lo, hi, 1#32, 1#32⟩] ∧ q.toInt ∣ lo.toInt ∧ q.toInt ∣ hi.toInt ∧
      (∀ v : BitVec 64, q.toInt ∣ v.toInt → v.toInt ≤ hi.toInt) ∧
      (log = false → ∀ v : BitVec 64, q.toInt ∣ v.toInt → lo.toInt ≤ v.toInt) ∧
      (log = true → lo = q) := by
  obtain ⟨h0, u, hu, rfl⟩ := normal_int_ok hd
  have hpos : 0 < q.toInt := by
    rcases Int.lt_or_eq_of_le h0 with h | h
    · exact h
    · exact absurd (BitVec.eq_of_toInt_eq (by rw [← h]; rfl)) hq
  obtain ⟨a1, a2, a3⟩ := multiple_max hpos
  obtain ⟨b1, b2, b3⟩ := multiple_min hpos
  have hrange : ∀ v : BitVec 64, -2 ^ 63 ≤ v.toInt ∧ v.toInt < 2 ^ 63 := fun v => by
    have := BitVec.toInt_lt (x := v)
    have := BitVec.le_toInt (x := v)
    omega
  have hup : ∀ v : BitVec 64, q.toInt ∣ v.toInt → v.toInt ≤ (Normal.multiple intMax q).toInt := fun v hv =>
    multiple_le hpos a1 hv (by have := hrange v; omega) a3
  cases log with
  | true => exact ⟨q, Normal.multiple intMax q, by subst hu; simp [Normal.bounds, hq], Int.dvd_refl _, a1, hup, nofun, fun _ => rfl⟩
  | false =>
    refine ⟨Normal.multiple intMin q, Normal.multiple intMax q, by subst hu; simp [Normal.bounds, hq], b1, a1, hup, ?_, nofun⟩
    intro _ v hv
    have := multiple_le hpos (a := -(Normal.multiple intMin q).toInt) (b := -v.toInt) (t := 2 ^ 63) (Int.dvd_neg.mpr b1)
      (Int.dvd_neg.mpr hv) (by have := hrange v; omega) (by omega)
    omega

/-- What a normal distribution of integers samples are the conversions of its draws. -/
theorem normal_int_samples {M : Machine σ} {mu sigma : F64} {log : Bool} {q : BitVec 64} {d : Sampler σ}
    (hd : createNormal M .int mu sigma log q = .ok d) {n : Nat} {g g' : σ} {rows : Rows}
    (hlay : Layouts d n g (some (.ok (rows, g')))) {row : List (BitVec 64)} (hrow : row ∈ rows) {c : Nat} {v : BitVec 64}
    (hv : row[c]? = some v) : c = 0 ∧ (q = 0#64 ∨ q.toInt ∣ v.toInt) := by
  obtain ⟨h0, u, hu, rfl⟩ := normal_int_ok hd
  have hbody : ∀ n addr, normalBody M u n addr = .seq (.loop (fun i => .put (addr i) (u.rawInt M)) n 0)
      (.loop (fun i => .update (addr i) (if q = 0#64 then fun v => M.cast (M.round v) else u.snapInt M)) n 0) := by
    intro n addr
    unfold normalBody
    rw [hu]
    by_cases hq : q = 0#64 <;> simp [hq]
  have hgood := good_column
    (V := fun n g => thenMap (drawN (u.rawInt M) n g) (if q = 0#64 then fun v => M.cast (M.round v) else u.snapInt M))
    (fun n addr hi g => by rw [hbody]; exact fills1_update hi (fills1_put addr _ n g hi) _) (fun g => rfl)
    [.int] [u.bounds] (normal_samples M u) (normal_strided M u)
  have hun := C77_outcome_unique hlay (layouts_of_good hgood n g)
  obtain ⟨⟨vs, g1⟩, h2, h3⟩ := rbind_ok hun.symm
  simp only [Option.some.injEq, Out.ok.injEq, Prod.mk.injEq] at h3
  obtain ⟨rfl, rfl⟩ := h3
  obtain ⟨w, hw, rfl⟩ := List.mem_map.mp hrow
  cases c with
  | succ c => simp at hv
  | zero =>
    simp only [List.getElem?_cons_zero, Option.some.injEq] at hv
    subst hv
    refine ⟨rfl, ?_⟩
    by_cases hq : q = 0#64
    · exact .inl hq
    · right
      obtain ⟨⟨ws, g2⟩, h4, h5⟩ := rbind_ok h2
      simp only [if_neg hq] at h5
      have key : ∀ (l xs : List (BitVec 64)), mapOut (u.snapInt M) l = .ok xs → ∀ x ∈ xs, q.toInt ∣ x.toInt := by
        intro l
        induction l with
        | nil => intro xs h x hx; obtain rfl := Out.ok.inj h; simp at hx
        | cons a l ih =>
          intro xs h x hx
          obtain ⟨b, h6, h⟩ := bind_ok_split h
          obtain ⟨bs, h7, h⟩ := bind_ok_split h
          obtain rfl := Out.ok.inj h
          rcases List.mem_cons.mp hx with rfl | hx
          · obtain ⟨k, _, h8⟩ := bind_ok_split h6
            rw [intRange_ok h8, hu]
            exact Int.dvd_mul_left _ _
          · exact ih bs h7 x hx
      cases hm : mapOut (u.snapInt M) ws with
      | ok xs =>
        simp only [hm, Option.some.injEq, Out.ok.injEq, Prod.mk.injEq] at h5
        exact key ws xs hm w (h5.1 ▸ hw)
      | err e => simp [hm] at h5
      | ub => simp [hm] at h5

/-- **C83** The samples of a linear normal distribution of integers are within the bounds it reports, and multiples of its
quantization, whatever the arithmetic and the draws.  Missing for the full claim: that sampling succeeds, see
`C83_normal_int_overflow`, and the logarithmic ones, see `C83_lognormal_int_lower`. -/
theorem C83_normal_int_partial {M : Machine σ} {mu sigma : F64} {q : BitVec 64} {d : Sampler σ}
    (hd : createNormal M .int mu sigma false q = .ok d) : KeepsBounds d ∧
      ∀ n g rows g', Layouts d n g (some (.ok (rows, g'))) → ∀ row ∈ rows, ∀ v ∈ row, q = 0#64 ∨ q.toInt ∣ v.toInt := by
  refine ⟨fun n g rows g' hlay row hrow c v b hv hb => ?_, fun n g rows g' hlay row hrow v hv => ?_⟩
  · obtain ⟨rfl, hm⟩ := normal_int_samples hd hlay hrow hv
    have hrange : -2 ^ 63 ≤ v.toInt ∧ v.toInt < 2 ^ 63 := by
      have := BitVec.toInt_lt (x := v)
      have := BitVec.le_toInt (x := v)
      omega
    have hmem : ∀ lo hi : BitVec 64, lo.toInt ≤ v.toInt → v.toInt ≤ hi.toInt → Mem ⟨.int, lo, hi, 1#32, 1#32⟩ v := by
      intro lo hi h1 h2
      refine ⟨_, _, _, rfl, rfl, rfl, ?_, ?_⟩
      · rcases Int.lt_or_eq_of_le h1 with h | h
        · exact .inl h
        · exact .inr ⟨by simp, h⟩
      · rcases Int.lt_or_eq_of_le h2 with h | h
        · exact .inl h
        · exact .inr ⟨by simp, h⟩
    by_cases hq : q = 0#64
    · obtain ⟨_, u, hu, rfl⟩ := normal_int_ok hd
      have : u.bounds = ⟨.int, intMin, intMax, 1#32, 1#32⟩ := by subst hu; simp [Normal.bounds, hq]
      simp only [this, List.getElem?_cons_zero, Option.some.injEq] at hb
      subst hb
      have e1 : intMin.toInt = -2 ^ 63 := by decide
      have e2 : intMax.toInt = 2 ^ 63 - 1 := by decide
      exact hmem _ _ (by omega) (by omega)
    · obtain ⟨lo, hi, hbd, -, -, h1, h2, -⟩ := C83_normal_int_bounds hd hq
      rw [hbd] at hb
      simp only [List.getElem?_cons_zero, Option.some.injEq] at hb
      subst hb
      have hdv := hm.resolve_left hq
      exact hmem _ _ (h2 rfl v hdv) (h1 v hdv)
  · obtain ⟨c, hc⟩ := List.getElem?_of_mem hv
    exact (normal_int_samples hd hlay hrow hc).2

/-- **C83** fails for logarithmic normal distributions of integers: with the nearest doubles for `log` and `exp`, a quantization of 32
and a draw at the limit (the mean is the logarithm of 16 and the deviation drawn is 0), the sample is 0, below the bound 32. -/
theorem C83_lognormal_int_lower {M : Machine σ} (hops : M.ops = ieee) (hB : BestLibm M) (ht : 0 < M.turns) {sigma : F64} {g : σ}
    (h0 : (M.gaussian g sigma).1 = F64.zero)
    (hr : ∀ (x : F64) (v : Int), realValue x = some v → 0 ≤ v → 2 * v < 2 ^ 1074 → realValue (M.round x) = some 0) {d : Sampler σ}
    (hd : createNormal M .int logSixteen sigma true 32#64 = .ok d) :
    d.bounds = [⟨.int, 32#64, 0x7fffffffffffffe0#64, 1#32, 1#32⟩] ∧
    Layouts d 1 g (some (.ok ([[0#64]], (M.gaussian g sigma).2))) ∧
    ¬ Mem ⟨.int, 32#64, 0x7fffffffffffffe0#64, 1#32, 1#32⟩ 0#64 := by
  obtain ⟨-, u, hu, rfl⟩ := normal_int_ok hd
  refine ⟨by subst hu; show [Normal.bounds ⟨.int, logSixteen, _, true, 32#64, _⟩] = _; simp only [Normal.bounds]; decide +kernel, ?_, ?_⟩
  · have hbody : ∀ n addr, normalBody M u n addr = .seq (.loop (fun i => .put (addr i) (u.rawInt M)) n 0)
        (.loop (fun i => .update (addr i) (u.snapInt M)) n 0) := by
      intro n addr
      unfold normalBody
      rw [hu]
      rfl
    have hgood := good_column (V := fun n g => thenMap (drawN (u.rawInt M) n g) (u.snapInt M))
      (fun n addr hi g => by rw [hbody]; exact fills1_update hi (fills1_put addr _ n g hi) _) (fun g => rfl)
      [.int] [u.bounds] (normal_samples M u) (normal_strided M u)
    have hlay := layouts_of_good hgood 1 g
    have hq : u.halfStep M = sixteen := by
      subst hu
      simp only [Normal.halfStep, hops]
      decide +kernel
    have hl := nearest_log (hB.log sixteen (by decide +kernel) (by decide +kernel))
    have hraw : u.rawInt M g = some (.ok (belowSixteen, (M.gaussian g sigma).2)) := by
      obtain ⟨t, ht⟩ : ∃ t, M.turns = t + 1 := ⟨M.turns - 1, by omega⟩
      have hgs : u.gauss M g = some (.ok (logSixteen, (M.gaussian g sigma).2)) := by
        have : M.ops.add F64.zero logSixteen = logSixteen := by rw [hops]; decide +kernel
        subst hu
        simp [Normal.gauss, Machine.sure, h0, this]
      have hexp : M.exp logSixteen = belowSixteen := by
        refine nearest_exp (hB.exp logSixteen (by decide +kernel) ?_)
        rw [toReal_log]
        norm_num
      have hc1 : F64.le F64.zero (M.ops.sub u.mu logSixteen) = true := by
        rw [hops, hu]; show F64.le F64.zero (ieee.sub logSixteen logSixteen) = true; decide +kernel
      have hc2 : F64.lt logSixteen logSixteen = false := by decide +kernel
      have hc3 : F64.lt (F64.ofInt intMax) (M.ops.sub belowSixteen sixteen) = false := by
        rw [hops]; decide +kernel
      have hlog : u.log = true := by rw [hu]
      unfold Normal.rawInt
      simp only [hlog, if_true, hq, hl, hc1, ht, Normal.retry, Normal.expOf, hgs, hc2, Bool.false_eq_true, if_false, hexp, hc3]
    have hsnap : u.snapInt M belowSixteen = .ok 0#64 := by
      have hx : M.ops.mul belowSixteen (M.ops.div F64.one (F64.ofInt 32#64)) = 0x3fdfffffffffffff#64 := by
        rw [hops]; decide +kernel
      have hv : realValue 0x3fdfffffffffffff#64 = some (Ieee.signed 0x3fdfffffffffffff#64) := realValue_signed (by decide +kernel)
      have hz := hr 0x3fdfffffffffffff#64 _ hv (by decide +kernel) (by decide +kernel)
      have hz' := hB.toInt _ 0 (by rw [hz]; simp) (by omega)
      subst hu
      simp only [Normal.snapInt, hx, Machine.cast, hz']
      decide
    simp only [drawN, hraw, rbind, thenMap, mapOut, hsnap, single] at hlay
    exact hlay
  · rintro ⟨l, x, u', h1, h2, h3, h4, h5⟩
    have b1 : l = 32 := (Option.some.inj h1).symm
    have b2 : x = 0 := (Option.some.inj h2).symm
    rcases h4 with h4 | h4 <;> omega

/-! ### Draws that are converted -/

/-- `round` and the conversion of its result: defined for the doubles from `-2^63` to `2^63`, excluded (C standard, 7.12.9.6 and
6.3.1.4; doubles above `2^52` are integers). -/
def RoundsToInt (M : Machine σ) : Prop :=
  ∀ x v, realValue x = some v → -(2 ^ 63 * 2 ^ 1074) ≤ v → v < 2 ^ 63 * 2 ^ 1074 → ∃ i, M.toInt (M.round x) = some i

/-- `2^63`. -/
def twoTo63 : F64 := 0x43e0000000000000#64

theorem low_signed {x : F64} (hn : Ieee.neg x = false) : Ieee.signed x = uval (low x) := by
  rw [signed_low, hn]; rfl

theorem low_signed_neg {x : F64} (hn : Ieee.neg x = true) : Ieee.signed x = -(uval (low x) : Int) := by
  rw [signed_low, hn]; rfl

theorem bits_eq {x y : F64} (h1 : Ieee.neg x = Ieee.neg y) (h2 : low x = low y) : x = y := by
  apply BitVec.eq_of_toNat_eq
  unfold Ieee.neg at h1
  unfold low at h2
  have h1 : (2 ^ 63 ≤ x.toNat) ↔ (2 ^ 63 ≤ y.toNat) := by simpa using h1
  have := x.isLt
  have := y.isLt
  by_cases h : 2 ^ 63 ≤ x.toNat <;> omega

theorem retry_ok {draw : σ → Option (Out (BitVec 64 × σ))} {again : F64 → Bool} : ∀ {n : Nat} {g : σ} {v : F64} {g' : σ},
    Normal.retry draw again n g = some (.ok (v, g')) → again v = false ∧ ∃ g0, draw g0 = some (.ok (v, g')) := by
  intro n
  induction n with
  | zero => intro g v g' h; cases h
  | succ n ih =>
    intro g v g' h
    unfold Normal.retry at h
    split at h
    · next w g1 hd =>
      split at h
      · exact ih h
      · next ha =>
        simp only [Option.some.injEq, Out.ok.injEq, Prod.mk.injEq] at h
        obtain ⟨rfl, rfl⟩ := h
        exact ⟨by simpa using ha, g, hd⟩
    · next hd => exact absurd h (hd _ _)

theorem retry_defined {draw : σ → Option (Out (BitVec 64 × σ))} {again : F64 → Bool} (hd : ∀ g, draw g ≠ some .ub) :
    ∀ (n : Nat) (g : σ), Normal.retry draw again n g ≠ some .ub := by
  intro n
  induction n with
  | zero => intro g h; cases h
  | succ n ih =>
    intro g h
    unfold Normal.retry at h
    split at h
    · split at h
      · exact ih _ h
      · cases h
    · exact hd g h

/-- A double above `2^63` is rejected. -/
theorem above_rejected {v : F64} (hv : F64.isNaN v = false) (h : Ieee.signed twoTo63 < Ieee.signed v) :
    F64.lt twoTo63 (ieee.sub v F64.half) = true := by
  have e63 : Ieee.signed twoTo63 = uval 0x43e0000000000000 := by decide +kernel
  have e64 : Ieee.signed 0x43e0000000000001#64 = uval 0x43e0000000000001 := by decide +kernel
  have e65 : Ieee.signed 0x43e0000000000002#64 = uval 0x43e0000000000002 := by decide +kernel
  have hstep : uval 0x43e0000000000000 < uval 0x43e0000000000001 := uval_lt (by decide)
  have hneg : Ieee.neg v = false := by
    cases hn : Ieee.neg v with
    | false => rfl
    | true => rw [low_signed_neg hn, e63] at h; omega
  rw [low_signed hneg, e63] at h
  have hl : 0x43e0000000000001 ≤ low v := by
    apply Nat.lt_of_not_le
    intro hle
    have := uval_le_iff.mpr hle
    omega
  rw [isNaN_low] at hv
  have hv : low v ≤ Ieee.infBits := by simpa using hv
  rcases Nat.lt_or_eq_of_le hv with hf | hi
  · by_cases h1 : low v = 0x43e0000000000001
    · rw [bits_eq (x := v) (y := 0x43e0000000000001#64) (by rw [hneg]; decide +kernel) (by rw [h1]; decide +kernel)]
      decide +kernel
    · have hfin : F64.isFinite v = true := by rw [isFinite_low]; simpa using hf
      have h2 : Ieee.signed 0x43e0000000000002#64 ≤ Ieee.signed v := by
        rw [e65, low_signed hneg]
        have := uval_le_iff.mpr (show 0x43e0000000000002 ≤ low v by omega)
        omega
      have h3 : Ieee.signed 0x43e0000000000001#64 ≤ Ieee.signed 0x43e0000000000002#64 + Ieee.signed (F64.half ^^^ 0x8000000000000000#64) := by
        decide +kernel
      have hh : F64.isFinite (F64.half ^^^ 0x8000000000000000#64) = true := by decide +kernel
      have h4 := le_add (c := 0x43e0000000000001#64) hfin hh (by decide +kernel) (by omega)
      refine (f64_lt_iff _ _).mpr ⟨_, _, realValue_signed (by decide +kernel), realValue_signed (add_num hfin hh), ?_⟩
      show Ieee.signed twoTo63 < Ieee.signed (Ieee.add v (F64.half ^^^ 0x8000000000000000#64))
      omega
  · rw [bits_eq (x := v) (y := F64.inf) (by rw [hneg]; decide +kernel) (by rw [hi]; decide +kernel)]
    decide +kernel

theorem below_rejected {v : F64} (hv : F64.isNaN v = false) (h : Ieee.signed v < -Ieee.signed twoTo63) :
    F64.lt (ieee.add v F64.half) (F64.ofInt intMin) = true := by
  have e63 : Ieee.signed twoTo63 = uval 0x43e0000000000000 := by decide +kernel
  have e64 : Ieee.signed 0xc3e0000000000001#64 = -(uval 0x43e0000000000001 : Int) := by decide +kernel
  have e65 : Ieee.signed 0xc3e0000000000002#64 = -(uval 0x43e0000000000002 : Int) := by decide +kernel
  have hstep : uval 0x43e0000000000000 < uval 0x43e0000000000001 := uval_lt (by decide)
  have hneg : Ieee.neg v = true := by
    cases hn : Ieee.neg v with
    | true => rfl
    | false => rw [low_signed hn, e63] at h; omega
  rw [low_signed_neg hneg, e63] at h
  have hl : 0x43e0000000000001 ≤ low v := by
    apply Nat.lt_of_not_le
    intro hle
    have := uval_le_iff.mpr hle
    omega
  rw [isNaN_low] at hv
  have hv : low v ≤ Ieee.infBits := by simpa using hv
  rcases Nat.lt_or_eq_of_le hv with hf | hi
  · by_cases h1 : low v = 0x43e0000000000001
    · rw [bits_eq (x := v) (y := 0xc3e0000000000001#64) (by rw [hneg]; decide +kernel) (by rw [h1]; decide +kernel)]
      decide +kernel
    · have hfin : F64.isFinite v = true := by rw [isFinite_low]; simpa using hf
      have h2 : Ieee.signed v ≤ Ieee.signed 0xc3e0000000000002#64 := by
        rw [e65, low_signed_neg hneg]
        have := uval_le_iff.mpr (show 0x43e0000000000002 ≤ low v by omega)
        omega
      have h3 : Ieee.signed 0xc3e0000000000002#64 + Ieee.signed F64.half ≤ Ieee.signed 0xc3e0000000000001#64 := by decide +kernel
      have hh : F64.isFinite F64.half = true := by decide +kernel
      have h4 := IeeeLemmas.add_le (c := 0xc3e0000000000001#64) hfin hh (by decide +kernel) (by omega)
      have h5 : Ieee.signed (F64.ofInt intMin) = -Ieee.signed twoTo63 := by decide +kernel
      refine (f64_lt_iff _ _).mpr ⟨_, _, realValue_signed (add_num hfin hh), realValue_signed (by decide +kernel), ?_⟩
      show Ieee.signed (Ieee.add v F64.half) < _
      omega
  · rw [bits_eq (x := v) (y := F64.negInf) (by rw [hneg]; decide +kernel) (by rw [hi]; decide +kernel)]
    decide +kernel

/-- **C83** Sampling a linear normal distribution of integers without quantization is undefined only for draws that are NaN or exactly
`2^63`: all the other draws beyond the integers are drawn again.  (`C83_normal_int_overflow`: exactly `2^63` is.) -/
theorem C83_normal_int_defined_partial {M : Machine σ} (hops : M.ops = ieee) (hr : RoundsToInt M) {mu sigma : F64} {d : Sampler σ}
    (hd : createNormal M .int mu sigma false 0#64 = .ok d)
    (hdraws : ∀ g, F64.isNaN (ieee.add (M.gaussian g sigma).1 mu) = false ∧ ieee.add (M.gaussian g sigma).1 mu ≠ twoTo63)
    (n : Nat) (g : σ) : ¬ Layouts d n g (some .ub) := by
  intro hlay
  obtain ⟨-, u, hu, rfl⟩ := normal_int_ok hd
  have hbody : ∀ n addr, normalBody M u n addr = .seq (.loop (fun i => .put (addr i) (u.rawInt M)) n 0)
      (.loop (fun i => .update (addr i) (fun v => M.cast (M.round v))) n 0) := by
    intro n addr
    unfold normalBody
    rw [hu]
    rfl
  have hgood := good_column (V := fun n g => thenMap (drawN (u.rawInt M) n g) (fun v => M.cast (M.round v)))
    (fun n addr hi g => by rw [hbody]; exact fills1_update hi (fills1_put addr _ n g hi) _) (fun g => rfl)
    [.int] [u.bounds] (normal_samples M u) (normal_strided M u)
  have hun := C77_outcome_unique hlay (layouts_of_good hgood n g)
  have hraw : u.rawInt M = Normal.retry (u.gauss M)
      (fun v => F64.lt twoTo63 (ieee.sub v F64.half) || F64.lt (ieee.add v F64.half) (F64.ofInt intMin)) M.turns := by
    have e : F64.ofInt intMax = twoTo63 := by decide +kernel
    subst hu
    simp only [Normal.rawInt, Normal.halfStep, hops, e]
    rfl
  have hgauss : ∀ g, u.gauss M g = some (.ok (ieee.add (M.gaussian g sigma).1 mu, (M.gaussian g sigma).2)) := by
    intro g
    subst hu
    rw [← hops]
    rfl
  have hfine : ∀ g v g', u.rawInt M g = some (.ok (v, g')) → ∃ w, M.cast (M.round v) = .ok w := by
    intro g v g' h
    rw [hraw] at h
    obtain ⟨h1, g0, h2⟩ := retry_ok h
    rw [hgauss g0] at h2
    simp only [Option.some.injEq, Out.ok.injEq, Prod.mk.injEq] at h2
    obtain ⟨h3, h4⟩ := hdraws g0
    rw [h2.1] at h3 h4
    rw [Bool.or_eq_false_iff] at h1
    have h5 : Ieee.signed v ≤ Ieee.signed twoTo63 := by
      apply Int.not_lt.mp
      intro hlt
      rw [above_rejected h3 hlt] at h1
      exact absurd h1.1 (by simp)
    have h6 : -Ieee.signed twoTo63 ≤ Ieee.signed v := by
      apply Int.not_lt.mp
      intro hlt
      rw [below_rejected h3 hlt] at h1
      exact absurd h1.2 (by simp)
    have h7 : Ieee.signed v ≠ Ieee.signed twoTo63 := by
      intro he
      apply h4
      have e63 : Ieee.signed twoTo63 = uval 0x43e0000000000000 := by decide +kernel
      have hpos : 0 < uval 0x43e0000000000000 := uval_zero ▸ uval_lt (by decide)
      have hneg : Ieee.neg v = false := by
        cases hn : Ieee.neg v with
        | false => rfl
        | true => rw [low_signed_neg hn, e63] at he; omega
      rw [low_signed hneg, e63] at he
      refine bits_eq (by rw [hneg]; decide +kernel) ?_
      have a1 := uval_le_iff.mp (Nat.le_of_eq (Int.ofNat_inj.mp he))
      have a2 := uval_le_iff.mp (Nat.le_of_eq (Int.ofNat_inj.mp he).symm)
      have : low twoTo63 = 0x43e0000000000000 := by decide +kernel
      omega
    have h8 : Ieee.signed twoTo63 = 2 ^ 63 * 2 ^ 1074 := by decide +kernel
    obtain ⟨i, hi⟩ := hr v _ (realValue_signed h3) (by rw [← h8]; exact h6) (by rw [← h8]; omega)
    exact ⟨i, by unfold Machine.cast; rw [hi]⟩
  have hnub : ∀ g, u.rawInt M g ≠ some .ub := by
    rw [hraw]
    exact retry_defined (fun g => by rw [hgauss g]; nofun) _
  have hN : ∀ n g, drawN (u.rawInt M) n g ≠ some .ub := by
    intro n
    induction n with
    | zero => intro g; nofun
    | succ n ih =>
      intro g h
      unfold drawN rbind at h
      split at h
      · cases h
      · next h' => exact hnub g h'
      · cases h
      · dsimp only at h
        split at h
        · cases h
        · next h' => exact ih _ h'
        · cases h
        · cases h
  have hM : ∀ vs : List (BitVec 64), (∀ v ∈ vs, ∃ w, M.cast (M.round v) = .ok w) →
      ∃ ws, mapOut (fun v => M.cast (M.round v)) vs = .ok ws := by
    intro vs
    induction vs with
    | nil => intro _; exact ⟨[], rfl⟩
    | cons v vs ih =>
      intro h
      obtain ⟨w, hw⟩ := h v (by simp)
      obtain ⟨ws, hws⟩ := ih fun x hx => h x (by simp [hx])
      exact ⟨w :: ws, by unfold mapOut; rw [hw, hws]; rfl⟩
  have hV : thenMap (drawN (u.rawInt M) n g) (fun v => M.cast (M.round v)) ≠ some .ub := by
    unfold thenMap rbind
    split
    · nofun
    · next h => exact absurd h (hN n g)
    · nofun
    · next x h =>
      obtain ⟨vs, g'⟩ := x
      obtain ⟨ws, hws⟩ := hM vs (drawN_inv (P := fun v => ∃ w, M.cast (M.round v) = .ok w) hfine n g vs g' h)
      simp only [hws]
      nofun
  unfold single rbind at hun
  split at hun
  · cases hun
  · next h => exact hV h
  · cases hun
  · cases hun

/-- A machine whose generator first draws a value above `2^63`, then one below `-2^63`, and then 100. -/
def exBeyond : Machine Nat :=
  { exFlat with
    toInt := fun x => match realValue x with
      | some v => if -(2 ^ 63 * 2 ^ 1074) ≤ v ∧ v < 2 ^ 63 * 2 ^ 1074 then some (BitVec.ofInt 64 (v / 2 ^ 1074)) else none
      | none => none
    gaussian := fun g _ => (if g = 0 then 0x43e0000000000001#64 else if g = 1 then F64.negInf else 0x4059000000000000#64, g + 1)
    turns := 5 }

/-- Its draws meet the hypotheses of `C83_normal_int_defined_partial`; the first two are drawn again. -/
example : exBeyond.ops = ieee ∧ RoundsToInt exBeyond ∧
    (∀ g, F64.isNaN (ieee.add (exBeyond.gaussian g F64.one).1 F64.zero) = false ∧
      ieee.add (exBeyond.gaussian g F64.one).1 F64.zero ≠ twoTo63) ∧
    isOk (createNormal exBeyond .int F64.zero F64.one false 0#64) = true ∧
    peek (createNormal exBeyond .int F64.zero F64.one false 0#64) (·.callSamples 1 (some 0)) [0] = some (.ok [100#64]) := by
  refine ⟨rfl, ?_, ?_, by decide +kernel, by decide +kernel⟩
  · intro x v hv h1 h2
    refine ⟨BitVec.ofInt 64 (v / 2 ^ 1074), ?_⟩
    show (match realValue x with
      | some v => if -(2 ^ 63 * 2 ^ 1074) ≤ v ∧ v < 2 ^ 63 * 2 ^ 1074 then some (BitVec.ofInt 64 (v / 2 ^ 1074)) else none
      | none => none) = _
    rw [hv]
    exact if_pos ⟨h1, h2⟩
  · intro g
    show F64.isNaN (ieee.add (if g = 0 then _ else if g = 1 then _ else _) F64.zero) = false ∧
      ieee.add (if g = 0 then _ else if g = 1 then _ else _) F64.zero ≠ twoTo63
    by_cases h0 : g = 0
    · rw [if_pos h0]; decide +kernel
    · rw [if_neg h0]
      by_cases h1 : g = 1
      · rw [if_pos h1]; decide +kernel
      · rw [if_neg h1]; decide +kernel

/-- A normal distribution with a quantization of 10, its bounds, and what it samples when the deviation drawn is 100. -/
example : isOk (createNormal exFlat .int F64.zero 0x4059000000000000#64 false 10#64) = true ∧
    peek (createNormal exFlat .int F64.zero 0x4059000000000000#64 false 10#64) (·.callSamples 1 (some 0)) [0] = some (.ok [100#64]) ∧
    exLimits (createNormal exFlat .int F64.zero 0x4059000000000000#64 false 10#64) =
      some [⟨.int, BitVec.ofInt 64 (-9223372036854775800), 9223372036854775800#64, 1#32, 1#32⟩] := by decide +kernel

/-- There are machines with this arithmetic whose generator draws a deviation of 0, and the distribution is made on all of them. -/
example : ∃ M : Machine Nat, M.ops = ieee ∧ BestLibm M ∧ 0 < M.turns ∧ (M.gaussian 0 F64.one).1 = F64.zero ∧
    (∀ (x : F64) (v : Int), realValue x = some v → 0 ≤ v → 2 * v < 2 ^ 1074 → realValue (M.round x) = some 0) ∧
    ∃ d, createNormal M .int logSixteen F64.one true 32#64 = .ok d := by
  classical
  let M : Machine Nat :=
    { exMachine with
      log := fun x => Classical.choose (nearest_exists (Real.log (toReal x)))
      exp := fun x => Classical.choose (nearest_exists (Real.exp (toReal x)))
      toInt := fun x =>
        if h : ∃ k : Nat, realValue x = some (k * 2 ^ 1074 : Int) then some (BitVec.ofNat 64 (Classical.choose h)) else none
      round := fun _ => F64.zero
      gaussian := fun g _ => (F64.zero, g + 1) }
  refine ⟨M, rfl, ⟨fun x _ _ => Classical.choose_spec (nearest_exists _), fun x _ _ => Classical.choose_spec (nearest_exists _), ?_⟩,
    by decide, rfl, fun _ _ _ _ _ => realValue_zero, ⟨_, rfl⟩⟩
  intro x k hk _
  have h : ∃ k : Nat, realValue x = some (k * 2 ^ 1074 : Int) := ⟨k, hk⟩
  show (if h : ∃ k : Nat, realValue x = some (k * 2 ^ 1074 : Int) then some (BitVec.ofNat 64 (Classical.choose h)) else none) = _
  rw [dif_pos h]
  have hc := Option.some.inj ((Classical.choose_spec h).symm.trans hk)
  have : Classical.choose h = k := by
    have key : ∀ (a b : Nat) (c : Int), c ≠ 0 → (a : Int) * c = b * c → a = b := fun a b c hc h => by
      have := Int.eq_of_mul_eq_mul_right hc h
      omega
    exact key _ _ _ (Int.ne_of_gt (Int.pow_pos (by decide))) hc
  rw [this]

end CCS.Props
