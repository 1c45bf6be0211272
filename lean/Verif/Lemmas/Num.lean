import Verif.Spec.Num

/-! Helper lemmas relating the model's comparisons of numbers to the numbers denoted. -/

namespace CCS

open Spec

theorem magnitude_lt {m n : Nat} (h : m < n) :
    magnitude (m / 2 ^ 52) (m % 2 ^ 52) < magnitude (n / 2 ^ 52) (n % 2 ^ 52) := by
  unfold magnitude
  have hm : m % 2 ^ 52 < 2 ^ 52 := Nat.mod_lt _ (by decide)
  have hn : n % 2 ^ 52 < 2 ^ 52 := Nat.mod_lt _ (by decide)
  rcases Nat.lt_or_ge (m / 2 ^ 52) (n / 2 ^ 52) with he | he
  · rw [if_neg (show n / 2 ^ 52 ≠ 0 by omega)]
    by_cases h0 : m / 2 ^ 52 = 0
    · rw [if_pos h0]
      calc m % 2 ^ 52 < 2 ^ 52 + n % 2 ^ 52 := by omega
        _ ≤ _ := Nat.le_mul_of_pos_right _ (Nat.two_pow_pos _)
    · rw [if_neg h0]
      calc (2 ^ 52 + m % 2 ^ 52) * 2 ^ (m / 2 ^ 52 - 1) < (2 ^ 53) * 2 ^ (m / 2 ^ 52 - 1) :=
            Nat.mul_lt_mul_of_pos_right (by omega) (Nat.two_pow_pos _)
        _ = 2 ^ 52 * 2 ^ (m / 2 ^ 52) := by
            rw [← Nat.pow_add, ← Nat.pow_add]; congr 1; omega
        _ ≤ 2 ^ 52 * 2 ^ (n / 2 ^ 52 - 1) :=
            Nat.mul_le_mul_left _ (Nat.pow_le_pow_right (by decide) (by omega))
        _ ≤ _ := Nat.mul_le_mul_right _ (by omega)
  · have heq : m / 2 ^ 52 = n / 2 ^ 52 := Nat.le_antisymm (Nat.div_le_div_right (by omega)) he
    have hf : m % 2 ^ 52 < n % 2 ^ 52 := by omega
    rw [heq]
    split
    · exact hf
    · exact Nat.mul_lt_mul_of_pos_right (by omega) (Nat.two_pow_pos _)

theorem magnitude_zero : magnitude (0 / 2 ^ 52) (0 % 2 ^ 52) = 0 := by decide

theorem magnitude_lt_iff {m n : Nat} :
    magnitude (m / 2 ^ 52) (m % 2 ^ 52) < magnitude (n / 2 ^ 52) (n % 2 ^ 52) ↔ m < n := by
  constructor
  · intro h
    rcases Nat.lt_trichotomy m n with h' | h' | h'
    · exact h'
    · subst h'; omega
    · have := magnitude_lt h'; omega
  · exact magnitude_lt

theorem realValue_eq (x : BitVec 64) :
    realValue x = if F64.isNaN x then none else
      some (if 2 ^ 63 ≤ x.toNat then
        -(magnitude (x.toNat % 2 ^ 63 / 2 ^ 52) (x.toNat % 2 ^ 63 % 2 ^ 52) : Int)
      else (magnitude (x.toNat % 2 ^ 63 / 2 ^ 52) (x.toNat % 2 ^ 63 % 2 ^ 52) : Int)) := by
  have hx := x.isLt
  unfold realValue F64.isNaN
  have e1 : x.toNat / 2 ^ 52 % 2 ^ 11 = x.toNat % 2 ^ 63 / 2 ^ 52 := by omega
  have e2 : x.toNat % 2 ^ 52 = x.toNat % 2 ^ 63 % 2 ^ 52 := by omega
  simp only [e1]
  rw [e2]
  have c1 : (x.toNat % 2 ^ 63 / 2 ^ 52 = 2047 ∧ x.toNat % 2 ^ 63 % 2 ^ 52 ≠ 0) ↔
      decide (0x7ff0000000000000 < x.toNat % 2 ^ 63) = true := by
    rw [decide_eq_true_iff]; omega
  have c2 : x.toNat / 2 ^ 63 = 1 ↔ 2 ^ 63 ≤ x.toNat := by omega
  simp only [c1, c2]

theorem realValue_none (x : BitVec 64) : realValue x = none ↔ F64.isNaN x = true := by
  rw [realValue_eq]; cases F64.isNaN x <;> simp

theorem num_float_some {x : BitVec 64} {a : Int} (h : num .float x = some a) :
    F64.isNaN x = false ∧ a = (if 2 ^ 63 ≤ x.toNat then
        -(magnitude (x.toNat % 2 ^ 63 / 2 ^ 52) (x.toNat % 2 ^ 63 % 2 ^ 52) : Int)
      else (magnitude (x.toNat % 2 ^ 63 / 2 ^ 52) (x.toNat % 2 ^ 63 % 2 ^ 52) : Int)) := by
  have h' : realValue x = some a := h
  rw [realValue_eq] at h'
  cases hn : F64.isNaN x
  · rw [hn] at h'
    exact ⟨rfl, (Option.some.inj h').symm⟩
  · rw [hn] at h'; cases h'

theorem key_lt_iff {x y : BitVec 64} {a b : Int} (hx : num .float x = some a)
    (hy : num .float y = some b) : F64.key x < F64.key y ↔ a < b := by
  obtain ⟨-, rfl⟩ := num_float_some hx
  obtain ⟨-, rfl⟩ := num_float_some hy
  unfold F64.key
  have m0 : ∀ n : Nat, 0 < magnitude (n / 2 ^ 52) (n % 2 ^ 52) ↔ 0 < n := by
    intro n
    have := @magnitude_lt_iff 0 n
    rw [magnitude_zero] at this
    exact this
  generalize x.toNat % 2 ^ 63 = m
  generalize y.toNat % 2 ^ 63 = n
  have h1 := @magnitude_lt_iff m n
  have h2 := @magnitude_lt_iff n m
  have h3 := m0 m
  have h4 := m0 n
  generalize magnitude (m / 2 ^ 52) (m % 2 ^ 52) = p at *
  generalize magnitude (n / 2 ^ 52) (n % 2 ^ 52) = q at *
  split <;> split <;> omega

theorem key_eq_iff {x y : BitVec 64} {a b : Int} (hx : num .float x = some a)
    (hy : num .float y = some b) : F64.key x = F64.key y ↔ a = b := by
  have h1 := key_lt_iff hx hy
  have h2 := key_lt_iff hy hx
  omega

theorem isNaN_iff {x : BitVec 64} : F64.isNaN x = true ↔ num .float x = none :=
  (realValue_none x).symm

theorem lt_iff (t : NumType) (x y : BitVec 64) :
    t.lt x y = true ↔ ∃ a b, num t x = some a ∧ num t y = some b ∧ a < b := by
  cases t with
  | int => simp [NumType.lt, num]
  | float =>
    simp only [NumType.lt, F64.lt, Bool.and_eq_true, Bool.not_eq_true', decide_eq_true_eq]
    constructor
    · rintro ⟨⟨h1, h2⟩, h3⟩
      cases hx : num .float x with
      | none => rw [isNaN_iff.2 hx] at h1; cases h1
      | some a =>
        cases hy : num .float y with
        | none => rw [isNaN_iff.2 hy] at h2; cases h2
        | some b => exact ⟨a, b, rfl, rfl, (key_lt_iff hx hy).1 h3⟩
    · rintro ⟨a, b, hx, hy, hab⟩
      exact ⟨⟨(num_float_some hx).1, (num_float_some hy).1⟩, (key_lt_iff hx hy).2 hab⟩

theorem le_iff (t : NumType) (x y : BitVec 64) :
    t.le x y = true ↔ ∃ a b, num t x = some a ∧ num t y = some b ∧ a ≤ b := by
  cases t with
  | int => simp [NumType.le, num]
  | float =>
    simp only [NumType.le, F64.le, Bool.and_eq_true, Bool.not_eq_true', decide_eq_true_eq]
    constructor
    · rintro ⟨⟨h1, h2⟩, h3⟩
      cases hx : num .float x with
      | none => rw [isNaN_iff.2 hx] at h1; cases h1
      | some a =>
        cases hy : num .float y with
        | none => rw [isNaN_iff.2 hy] at h2; cases h2
        | some b =>
          have := key_lt_iff hy hx
          exact ⟨a, b, rfl, rfl, by omega⟩
    · rintro ⟨a, b, hx, hy, hab⟩
      have := key_lt_iff hy hx
      exact ⟨⟨(num_float_some hx).1, (num_float_some hy).1⟩, by omega⟩

theorem feq_iff (x y : BitVec 64) :
    F64.feq x y = true ↔ ∃ a, num .float x = some a ∧ num .float y = some a := by
  simp only [F64.feq, Bool.and_eq_true, Bool.not_eq_true', decide_eq_true_eq]
  constructor
  · rintro ⟨⟨h1, h2⟩, h3⟩
    cases hx : num .float x with
    | none => rw [isNaN_iff.2 hx] at h1; cases h1
    | some a =>
      cases hy : num .float y with
      | none => rw [isNaN_iff.2 hy] at h2; cases h2
      | some b => exact ⟨a, rfl, by rw [(key_eq_iff hx hy).1 h3]⟩
  · rintro ⟨a, hx, hy⟩
    exact ⟨⟨(num_float_some hx).1, (num_float_some hy).1⟩, (key_eq_iff hx hy).2 rfl⟩

theorem truthy_iff (b : BitVec 32) : truthy b = true ↔ b ≠ 0#32 := by simp [truthy]

theorem truthy_false_iff (b : BitVec 32) : truthy b = false ↔ b = 0#32 := by simp [truthy]

theorem include_iff (iv : Interval) (v : BitVec 64) : iv.include v = true ↔ Mem iv v := by
  unfold Interval.include Mem
  rw [Bool.and_eq_true]
  by_cases h1 : iv.lowerIncl = 0#32 <;> by_cases h2 : iv.upperIncl = 0#32
  · simp only [h1, h2, truthy, ne_eq, not_true, decide_false, Bool.false_eq_true, if_false, lt_iff]
    constructor
    · rintro ⟨⟨l, x, hl, hx, h⟩, ⟨x', u, hx', hu, h'⟩⟩
      rw [hx] at hx'; cases hx'
      exact ⟨l, x, u, hl, hx, hu, Or.inl h, Or.inl h'⟩
    · rintro ⟨l, x, u, hl, hx, hu, h, h'⟩
      simp only [false_and, or_false] at h h'
      exact ⟨⟨l, x, hl, hx, h⟩, ⟨x, u, hx, hu, h'⟩⟩
  · simp only [h1, h2, truthy, ne_eq, not_true, not_false_iff, decide_false, decide_true,
      Bool.false_eq_true, if_false, if_true, lt_iff, le_iff]
    constructor
    · rintro ⟨⟨l, x, hl, hx, h⟩, ⟨x', u, hx', hu, h'⟩⟩
      rw [hx] at hx'; cases hx'
      exact ⟨l, x, u, hl, hx, hu, Or.inl h, by simp only [true_and]; omega⟩
    · rintro ⟨l, x, u, hl, hx, hu, h, h'⟩
      simp only [false_and, or_false, true_and] at h h'
      exact ⟨⟨l, x, hl, hx, h⟩, ⟨x, u, hx, hu, by omega⟩⟩
  · simp only [h1, h2, truthy, ne_eq, not_true, not_false_iff, decide_false, decide_true,
      Bool.false_eq_true, if_false, if_true, lt_iff, le_iff]
    constructor
    · rintro ⟨⟨l, x, hl, hx, h⟩, ⟨x', u, hx', hu, h'⟩⟩
      rw [hx] at hx'; cases hx'
      exact ⟨l, x, u, hl, hx, hu, by simp only [true_and]; omega, Or.inl h'⟩
    · rintro ⟨l, x, u, hl, hx, hu, h, h'⟩
      simp only [false_and, or_false, true_and] at h h'
      exact ⟨⟨l, x, hl, hx, by omega⟩, ⟨x, u, hx, hu, h'⟩⟩
  · simp only [h1, h2, truthy, ne_eq, not_false_iff, decide_true, if_true, le_iff]
    constructor
    · rintro ⟨⟨l, x, hl, hx, h⟩, ⟨x', u, hx', hu, h'⟩⟩
      rw [hx] at hx'; cases hx'
      exact ⟨l, x, u, hl, hx, hu, by simp only [true_and]; omega, by simp only [true_and]; omega⟩
    · rintro ⟨l, x, u, hl, hx, hu, h, h'⟩
      simp only [true_and] at h h'
      exact ⟨⟨l, x, hl, hx, by omega⟩, ⟨x, u, hx, hu, by omega⟩⟩

theorem isNum_iff {t : NumType} {x : BitVec 64} : IsNum t x ↔ ∃ a, num t x = some a := by
  unfold IsNum
  cases num t x <;> simp

/-! ### Neighbouring doubles -/

/-- The double of a given key. -/
def ofKey (k : Int) : BitVec 64 :=
  if 0 ≤ k then BitVec.ofNat 64 k.toNat else BitVec.ofNat 64 (2 ^ 63 + (-k).toNat)

theorem key_ofKey {k : Int} (h : k.natAbs ≤ 0x7ff0000000000000) :
    F64.key (ofKey k) = k ∧ F64.isNaN (ofKey k) = false := by
  unfold ofKey F64.key F64.isNaN
  by_cases hk : 0 ≤ k
  · rw [if_pos hk]
    simp only [BitVec.toNat_ofNat]
    constructor
    · rw [if_neg (by omega)]; omega
    · rw [decide_eq_false_iff_not]; omega
  · rw [if_neg hk]
    simp only [BitVec.toNat_ofNat]
    constructor
    · rw [if_pos (by omega)]; omega
    · rw [decide_eq_false_iff_not]; omega

theorem key_bound {x : BitVec 64} (h : F64.isNaN x = false) :
    (F64.key x).natAbs ≤ 0x7ff0000000000000 := by
  unfold F64.isNaN at h
  rw [decide_eq_false_iff_not] at h
  unfold F64.key
  split <;> omega

/-- A discrete position of a number: itself for integers, its rank among doubles for floats. -/
def pos : NumType → BitVec 64 → Int
  | .int, x => x.toInt
  | .float, x => F64.key x

theorem pos_lt_iff {t : NumType} {x y : BitVec 64} {a b : Int} (hx : num t x = some a)
    (hy : num t y = some b) : pos t x < pos t y ↔ a < b := by
  cases t with
  | int => simp only [num, Option.some.injEq] at hx hy; subst hx hy; rfl
  | float => exact key_lt_iff hx hy

theorem pos_eq_iff {t : NumType} {x y : BitVec 64} {a b : Int} (hx : num t x = some a)
    (hy : num t y = some b) : pos t x = pos t y ↔ a = b := by
  have h1 := pos_lt_iff hx hy
  have h2 := pos_lt_iff hy hx
  omega

/-- Between two numbers every position is that of a number. -/
theorem exists_pos {t : NumType} {x y : BitVec 64} (hx : IsNum t x) (hy : IsNum t y) {k : Int}
    (h1 : pos t x ≤ k) (h2 : k ≤ pos t y) : ∃ z, IsNum t z ∧ pos t z = k := by
  cases t with
  | int =>
    simp only [pos] at h1 h2
    have b1 := BitVec.le_toInt x
    have b2 := BitVec.toInt_lt (x := y)
    refine ⟨BitVec.ofInt 64 k, by simp [IsNum, num], ?_⟩
    simp only [pos, BitVec.toInt_ofInt]
    apply Int.bmod_eq_of_le <;> simp at * <;> omega
  | float =>
    simp only [pos] at h1 h2
    have b1 := key_bound (x := x) (by
      cases h : F64.isNaN x
      · rfl
      · exact absurd (isNaN_iff.1 h) hx)
    have b2 := key_bound (x := y) (by
      cases h : F64.isNaN y
      · rfl
      · exact absurd (isNaN_iff.1 h) hy)
    have := key_ofKey (k := k) (by omega)
    refine ⟨ofKey k, ?_, this.1⟩
    intro h
    rw [isNaN_iff.2 h] at this
    exact absurd this.2 (by simp)

/-- Membership in terms of positions. -/
theorem mem_pos (iv : Interval) (hp : Proper iv) (v : BitVec 64) :
    Mem iv v ↔ IsNum iv.type v ∧
      (pos iv.type iv.lower + (if iv.lowerIncl = 0#32 then 1 else 0) ≤ pos iv.type v) ∧
      (pos iv.type v ≤ pos iv.type iv.upper - (if iv.upperIncl = 0#32 then 1 else 0)) := by
  obtain ⟨l, hl⟩ := isNum_iff.1 hp.1
  obtain ⟨u, hu⟩ := isNum_iff.1 hp.2
  constructor
  · rintro ⟨l', x, u', hl', hx, hu', h1, h2⟩
    rw [hl] at hl'; cases hl'
    rw [hu] at hu'; cases hu'
    refine ⟨isNum_iff.2 ⟨x, hx⟩, ?_, ?_⟩
    · have a := pos_lt_iff hl hx
      have b := pos_eq_iff hl hx
      split
      · rename_i h0
        simp only [h0, ne_eq, not_true, false_and, or_false] at h1
        omega
      · rcases h1 with h1 | h1
        · omega
        · have := b.2 h1.2; omega
    · have a := pos_lt_iff hx hu
      have b := pos_eq_iff hx hu
      split
      · rename_i h0
        simp only [h0, ne_eq, not_true, false_and, or_false] at h2
        omega
      · rcases h2 with h2 | h2
        · omega
        · have := b.2 h2.2; omega
  · rintro ⟨hv, h1, h2⟩
    obtain ⟨x, hx⟩ := isNum_iff.1 hv
    refine ⟨l, x, u, hl, hx, hu, ?_, ?_⟩
    · have a := pos_lt_iff hl hx
      have b := pos_eq_iff hl hx
      by_cases h0 : iv.lowerIncl = 0#32
      · rw [if_pos h0] at h1
        left; omega
      · rw [if_neg h0] at h1
        rcases Int.lt_or_eq_of_le (show pos iv.type iv.lower ≤ pos iv.type v by omega) with h | h
        · left; omega
        · right; exact ⟨h0, b.1 h⟩
    · have a := pos_lt_iff hx hu
      have b := pos_eq_iff hx hu
      by_cases h0 : iv.upperIncl = 0#32
      · rw [if_pos h0] at h2
        left; omega
      · rw [if_neg h0] at h2
        rcases Int.lt_or_eq_of_le (show pos iv.type v ≤ pos iv.type iv.upper by omega) with h | h
        · left; omega
        · right; exact ⟨h0, b.1 h⟩

theorem mem_proper {iv : Interval} {v : BitVec 64} (h : Mem iv v) : Proper iv := by
  obtain ⟨l, x, u, hl, hx, hu, -, -⟩ := h
  exact ⟨isNum_iff.2 ⟨l, hl⟩, isNum_iff.2 ⟨u, hu⟩⟩

theorem lt_pos {t : NumType} {x y : BitVec 64} (hx : IsNum t x) (hy : IsNum t y) :
    t.lt x y = decide (pos t x < pos t y) := by
  obtain ⟨a, ha⟩ := isNum_iff.1 hx
  obtain ⟨b, hb⟩ := isNum_iff.1 hy
  rw [Bool.eq_iff_iff, lt_iff, decide_eq_true_iff, pos_lt_iff ha hb]
  constructor
  · rintro ⟨a', b', ha', hb', h⟩
    rw [ha] at ha'; rw [hb] at hb'; cases ha'; cases hb'; exact h
  · intro h; exact ⟨a, b, ha, hb, h⟩

theorem le_pos {t : NumType} {x y : BitVec 64} (hx : IsNum t x) (hy : IsNum t y) :
    t.le x y = decide (pos t x ≤ pos t y) := by
  obtain ⟨a, ha⟩ := isNum_iff.1 hx
  obtain ⟨b, hb⟩ := isNum_iff.1 hy
  have := pos_lt_iff hb ha
  rw [Bool.eq_iff_iff, le_iff, decide_eq_true_iff]
  constructor
  · rintro ⟨a', b', ha', hb', h⟩
    rw [ha] at ha'; rw [hb] at hb'; cases ha'; cases hb'; omega
  · intro h; exact ⟨a, b, ha, hb, by omega⟩

end CCS
