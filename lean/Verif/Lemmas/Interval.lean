import Verif.Lemmas.Num

/-! Helper lemmas about interval bounds. -/

namespace CCS

open Spec

/-- One when the bound is excluded. -/
def excl (b : BitVec 32) : Int := if b = 0#32 then 1 else 0

theorem excl_bounds (b : BitVec 32) : 0 ≤ excl b ∧ excl b ≤ 1 := by
  unfold excl; split <;> omega

theorem excl_of_truthy {b : BitVec 32} (h : truthy b = true) : excl b = 0 := by
  rw [truthy_iff] at h; simp [excl, h]

theorem excl_of_not_truthy {b : BitVec 32} (h : ¬ truthy b = true) : excl b = 1 := by
  have : b = 0#32 := by
    rw [truthy_iff] at h
    exact Classical.not_not.1 h
  simp [excl, this]

theorem mem_excl (iv : Interval) (hp : Proper iv) (v : BitVec 64) :
    Mem iv v ↔ IsNum iv.type v ∧ pos iv.type iv.lower + excl iv.lowerIncl ≤ pos iv.type v ∧
      pos iv.type v ≤ pos iv.type iv.upper - excl iv.upperIncl := mem_pos iv hp v

theorem mergeMax_lower {t : NumType} {l1 l2 : BitVec 64} {i1 i2 : BitVec 32} (h1 : IsNum t l1)
    (h2 : IsNum t l2) :
    IsNum t (mergeMax t l1 i1 l2 i2).1 ∧
    pos t (mergeMax t l1 i1 l2 i2).1 + excl (mergeMax t l1 i1 l2 i2).2 =
      max (pos t l1 + excl i1) (pos t l2 + excl i2) := by
  have e1 := excl_bounds i1
  have e2 := excl_bounds i2
  unfold mergeMax
  rw [lt_pos h2 h1, lt_pos h1 h2]
  by_cases ha : pos t l2 < pos t l1
  · simp only [ha, decide_true, if_true]
    exact ⟨h1, by omega⟩
  · by_cases hb : pos t l1 < pos t l2
    · simp only [ha, hb, decide_true, decide_false, Bool.false_eq_true, if_true, if_false]
      exact ⟨h2, by omega⟩
    · simp only [ha, hb, decide_false, Bool.false_eq_true, if_false]
      by_cases ht : truthy i1 = true
      · have := excl_of_truthy ht
        rw [if_pos ht]
        exact ⟨h2, by simp only; omega⟩
      · have := excl_of_not_truthy ht
        rw [if_neg ht]
        exact ⟨h1, by simp only; omega⟩

theorem mergeMin_upper {t : NumType} {l1 l2 : BitVec 64} {i1 i2 : BitVec 32} (h1 : IsNum t l1)
    (h2 : IsNum t l2) :
    IsNum t (mergeMin t l1 i1 l2 i2).1 ∧
    pos t (mergeMin t l1 i1 l2 i2).1 - excl (mergeMin t l1 i1 l2 i2).2 =
      min (pos t l1 - excl i1) (pos t l2 - excl i2) := by
  have e1 := excl_bounds i1
  have e2 := excl_bounds i2
  unfold mergeMin
  rw [lt_pos h2 h1, lt_pos h1 h2]
  by_cases ha : pos t l1 < pos t l2
  · simp only [ha, decide_true, if_true]
    exact ⟨h1, by omega⟩
  · by_cases hb : pos t l2 < pos t l1
    · simp only [ha, hb, decide_true, decide_false, Bool.false_eq_true, if_true, if_false]
      exact ⟨h2, by omega⟩
    · simp only [ha, hb, decide_false, Bool.false_eq_true, if_false]
      by_cases ht : truthy i1 = true
      · have := excl_of_truthy ht
        rw [if_pos ht]
        exact ⟨h2, by simp only; omega⟩
      · have := excl_of_not_truthy ht
        rw [if_neg ht]
        exact ⟨h1, by simp only; omega⟩

/-- What the lower bound of a union is: the smaller one, and on a tie the *more exclusive* one. -/
theorem mergeMin_lower {t : NumType} {l1 l2 : BitVec 64} {i1 i2 : BitVec 32} (h1 : IsNum t l1)
    (h2 : IsNum t l2) :
    IsNum t (mergeMin t l1 i1 l2 i2).1 ∧
    (pos t l1 < pos t l2 → pos t (mergeMin t l1 i1 l2 i2).1 = pos t l1 ∧
      excl (mergeMin t l1 i1 l2 i2).2 = excl i1) ∧
    (pos t l2 < pos t l1 → pos t (mergeMin t l1 i1 l2 i2).1 = pos t l2 ∧
      excl (mergeMin t l1 i1 l2 i2).2 = excl i2) ∧
    (pos t l1 = pos t l2 → pos t (mergeMin t l1 i1 l2 i2).1 = pos t l1 ∧
      excl (mergeMin t l1 i1 l2 i2).2 = max (excl i1) (excl i2)) := by
  have e1 := excl_bounds i1
  have e2 := excl_bounds i2
  by_cases ha : pos t l1 < pos t l2
  · have hb : ¬ (pos t l2 < pos t l1) := by omega
    have : mergeMin t l1 i1 l2 i2 = (l1, i1) := by
      unfold mergeMin; rw [lt_pos h2 h1, lt_pos h1 h2]; simp [ha]
    rw [this]
    exact ⟨h1, fun _ => ⟨rfl, rfl⟩, fun h => absurd h hb, fun h => by omega⟩
  · by_cases hb : pos t l2 < pos t l1
    · have : mergeMin t l1 i1 l2 i2 = (l2, i2) := by
        unfold mergeMin; rw [lt_pos h2 h1, lt_pos h1 h2]; simp [ha, hb]
      rw [this]
      exact ⟨h2, fun h => absurd h ha, fun _ => ⟨rfl, rfl⟩, fun h => by omega⟩
    · by_cases ht : truthy i1 = true
      · have e := excl_of_truthy ht
        have : mergeMin t l1 i1 l2 i2 = (l2, i2) := by
          unfold mergeMin; rw [lt_pos h2 h1, lt_pos h1 h2]; simp [ha, hb, ht]
        rw [this]
        exact ⟨h2, fun h => absurd h ha, fun h => absurd h hb, fun h => ⟨h.symm, by simp only; omega⟩⟩
      · have e := excl_of_not_truthy ht
        have : mergeMin t l1 i1 l2 i2 = (l1, i1) := by
          unfold mergeMin; rw [lt_pos h2 h1, lt_pos h1 h2]; simp [ha, hb, ht]
        rw [this]
        exact ⟨h1, fun h => absurd h ha, fun h => absurd h hb, fun h => ⟨rfl, by simp only; omega⟩⟩

theorem mergeMax_upper {t : NumType} {l1 l2 : BitVec 64} {i1 i2 : BitVec 32} (h1 : IsNum t l1)
    (h2 : IsNum t l2) :
    IsNum t (mergeMax t l1 i1 l2 i2).1 ∧
    (pos t l2 < pos t l1 → pos t (mergeMax t l1 i1 l2 i2).1 = pos t l1 ∧
      excl (mergeMax t l1 i1 l2 i2).2 = excl i1) ∧
    (pos t l1 < pos t l2 → pos t (mergeMax t l1 i1 l2 i2).1 = pos t l2 ∧
      excl (mergeMax t l1 i1 l2 i2).2 = excl i2) ∧
    (pos t l1 = pos t l2 → pos t (mergeMax t l1 i1 l2 i2).1 = pos t l1 ∧
      excl (mergeMax t l1 i1 l2 i2).2 = max (excl i1) (excl i2)) := by
  have e1 := excl_bounds i1
  have e2 := excl_bounds i2
  by_cases ha : pos t l2 < pos t l1
  · have hb : ¬ (pos t l1 < pos t l2) := by omega
    have : mergeMax t l1 i1 l2 i2 = (l1, i1) := by
      unfold mergeMax; rw [lt_pos h2 h1, lt_pos h1 h2]; simp [ha]
    rw [this]
    exact ⟨h1, fun _ => ⟨rfl, rfl⟩, fun h => absurd h hb, fun h => by omega⟩
  · by_cases hb : pos t l1 < pos t l2
    · have : mergeMax t l1 i1 l2 i2 = (l2, i2) := by
        unfold mergeMax; rw [lt_pos h2 h1, lt_pos h1 h2]; simp [ha, hb]
      rw [this]
      exact ⟨h2, fun h => absurd h ha, fun _ => ⟨rfl, rfl⟩, fun h => by omega⟩
    · by_cases ht : truthy i1 = true
      · have e := excl_of_truthy ht
        have : mergeMax t l1 i1 l2 i2 = (l2, i2) := by
          unfold mergeMax; rw [lt_pos h2 h1, lt_pos h1 h2]; simp [ha, hb, ht]
        rw [this]
        exact ⟨h2, fun h => absurd h ha, fun h => absurd h hb, fun h => ⟨h.symm, by simp only; omega⟩⟩
      · have e := excl_of_not_truthy ht
        have : mergeMax t l1 i1 l2 i2 = (l1, i1) := by
          unfold mergeMax; rw [lt_pos h2 h1, lt_pos h1 h2]; simp [ha, hb, ht]
        rw [this]
        exact ⟨h1, fun h => absurd h ha, fun h => absurd h hb, fun h => ⟨rfl, by simp only; omega⟩⟩

theorem intersect_ok {a b : Interval} (ht : a.type = b.type) :
    a.intersect b = .ok ⟨a.type, (mergeMax a.type a.lower a.lowerIncl b.lower b.lowerIncl).1,
      (mergeMin a.type a.upper a.upperIncl b.upper b.upperIncl).1,
      (mergeMax a.type a.lower a.lowerIncl b.lower b.lowerIncl).2,
      (mergeMin a.type a.upper a.upperIncl b.upper b.upperIncl).2⟩ := by
  simp [Interval.intersect, ht]

theorem union_ok {a b : Interval} (ht : a.type = b.type) :
    a.union b = .ok ⟨a.type, (mergeMin a.type a.lower a.lowerIncl b.lower b.lowerIncl).1,
      (mergeMax a.type a.upper a.upperIncl b.upper b.upperIncl).1,
      (mergeMin a.type a.lower a.lowerIncl b.lower b.lowerIncl).2,
      (mergeMax a.type a.upper a.upperIncl b.upper b.upperIncl).2⟩ := by
  simp [Interval.union, ht]

theorem mem_intersect {a b c : Interval} (ha : Proper a) (hb : Proper b)
    (h : a.intersect b = .ok c) : c.type = a.type ∧ Proper c ∧ ∀ v, Mem c v ↔ Mem a v ∧ Mem b v := by
  by_cases ht : a.type = b.type
  · rw [intersect_ok ht] at h
    have h := (Out.ok.inj h).symm
    have hb' : IsNum a.type b.lower ∧ IsNum a.type b.upper := by rw [ht]; exact hb
    have hl := mergeMax_lower (i1 := a.lowerIncl) (i2 := b.lowerIncl) ha.1 hb'.1
    have hu := mergeMin_upper (i1 := a.upperIncl) (i2 := b.upperIncl) ha.2 hb'.2
    subst h
    refine ⟨rfl, ⟨hl.1, hu.1⟩, fun v => ?_⟩
    rw [mem_excl _ ⟨hl.1, hu.1⟩, mem_excl a ha, mem_excl b hb, ← ht]
    simp only
    rw [hl.2, hu.2]
    constructor
    · rintro ⟨h0, h1, h2⟩
      exact ⟨⟨h0, by omega, by omega⟩, h0, by omega, by omega⟩
    · rintro ⟨⟨h0, h1, h2⟩, -, h3, h4⟩
      exact ⟨h0, by omega, by omega⟩
  · simp [Interval.intersect, ht] at h

theorem incr64_ok {x y : BitVec 64} (h : incr64 x = .ok y) : y.toInt = x.toInt + 1 := by
  unfold incr64 at h
  split at h
  · cases h
  · rename_i hx
    have := Out.ok.inj h
    subst this
    have b1 := BitVec.le_toInt x
    have b2 := BitVec.toInt_lt (x := x)
    rw [BitVec.toInt_add]
    apply Int.bmod_eq_of_le <;> simp at * <;> omega

theorem decr64_ok {x y : BitVec 64} (h : decr64 x = .ok y) : y.toInt = x.toInt - 1 := by
  unfold decr64 at h
  split at h
  · cases h
  · rename_i hx
    have := Out.ok.inj h
    subst this
    have b1 := BitVec.le_toInt x
    have b2 := BitVec.toInt_lt (x := x)
    rw [BitVec.toInt_sub]
    apply Int.bmod_eq_of_le <;> simp at * <;> omega

/-- The tightened lower bound computed by `ccs_interval_equal`. -/
theorem norm_lower {x y : BitVec 64} {i : BitVec 32}
    (h : (if truthy i then Out.ok x else incr64 x : Out (BitVec 64)) = .ok y) : y.toInt = x.toInt + excl i := by
  by_cases ht : truthy i = true
  · rw [if_pos ht] at h
    rw [excl_of_truthy ht, ← Out.ok.inj h]; omega
  · rw [if_neg ht] at h
    rw [excl_of_not_truthy ht, incr64_ok h]

theorem norm_upper {x y : BitVec 64} {i : BitVec 32}
    (h : (if truthy i then Out.ok x else decr64 x : Out (BitVec 64)) = .ok y) : y.toInt = x.toInt - excl i := by
  by_cases ht : truthy i = true
  · rw [if_pos ht] at h
    rw [excl_of_truthy ht, ← Out.ok.inj h]; omega
  · rw [if_neg ht] at h
    rw [excl_of_not_truthy ht, decr64_ok h]

theorem bind_eq_ok {x : Out α} {f : α → Out β} {b : β} (h : (x >>= f) = .ok b) :
    ∃ a, x = .ok a ∧ f a = .ok b := by
  cases x with
  | ok a => exact ⟨a, rfl, h⟩
  | err e => cases h
  | ub => cases h

/-- What `ccs_interval_equal` computes on integers, when it is defined. -/
theorem equal_int {a b : Interval} (ha : a.type = .int) (hb : b.type = .int) {r : Bool}
    (h : a.equal b = .ok r) :
    r = (decide (a.lower.toInt + excl a.lowerIncl = b.lower.toInt + excl b.lowerIncl) &&
      decide (a.upper.toInt - excl a.upperIncl = b.upper.toInt - excl b.upperIncl)) := by
  unfold Interval.equal at h
  rw [if_neg (by rw [ha, hb]; simp), ha] at h
  simp only at h
  obtain ⟨l1, h1, h⟩ := bind_eq_ok h
  obtain ⟨u1, h2, h⟩ := bind_eq_ok h
  obtain ⟨l2, h3, h⟩ := bind_eq_ok h
  obtain ⟨u2, h4, h⟩ := bind_eq_ok h
  rw [← norm_lower h1, ← norm_upper h2, ← norm_lower h3, ← norm_upper h4]
  rw [← Out.ok.inj h]
  have e1 : (l1 = l2) = (l1.toInt = l2.toInt) := by rw [BitVec.toInt_inj]
  have e2 : (u1 = u2) = (u1.toInt = u2.toInt) := by rw [BitVec.toInt_inj]
  simp only [e1, e2]

theorem proper_int {a : Interval} (h : a.type = .int) : Proper a := by
  constructor <;> · rw [h]; simp [IsNum, num]

theorem isNum_float {x : BitVec 64} (h : F64.isNaN x = false) : IsNum .float x := by
  unfold IsNum
  intro hn
  rw [isNaN_iff.2 hn] at h
  cases h

/-- Intervals reported equal have the same values. -/
theorem mem_of_equal {a b : Interval} (h : a.equal b = .ok true) (v : BitVec 64) :
    Mem a v ↔ Mem b v := by
  by_cases ht : a.type = b.type
  · cases hta : a.type with
    | int =>
      have htb : b.type = .int := by rw [← ht, hta]
      have h' := (equal_int hta htb h).symm
      rw [Bool.and_eq_true, decide_eq_true_iff, decide_eq_true_iff] at h'
      rw [mem_excl a (proper_int hta), mem_excl b (proper_int htb), hta, htb]
      simp only [pos]
      rw [h'.1, h'.2]
    | float =>
      have htb : b.type = .float := by rw [← ht, hta]
      unfold Interval.equal at h
      rw [if_neg (by rw [ht]; simp), hta] at h
      simp only [Out.ok.injEq, Bool.and_eq_true, decide_eq_true_iff] at h
      obtain ⟨⟨⟨h1, h2⟩, h3⟩, h4⟩ := h
      obtain ⟨l, hl, hl'⟩ := (feq_iff _ _).1 h1
      obtain ⟨u, hu, hu'⟩ := (feq_iff _ _).1 h2
      unfold Mem
      rw [hta, htb, hl, hl', hu, hu', h3, h4]
  · simp [Interval.equal, ht] at h

end CCS
