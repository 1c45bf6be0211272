import Verif.Lemmas.Interval

/-!
# C27–C31: intervals

`Spec.num` is the number denoted by a bit pattern and `Spec.Mem` membership between the bounds
(`Verif/Spec/Num.lean`).
-/

namespace CCS.Props

open CCS Spec

/-- A bit pattern for the double 1.0, 2.0, the double following 1.0, and a NaN. -/
def one : BitVec 64 := 0x3ff0000000000000#64
def two : BitVec 64 := 0x4000000000000000#64
def oneUp : BitVec 64 := 0x3ff0000000000001#64
def nan : BitVec 64 := 0x7ff8000000000000#64

example : num .float one = some (2 ^ 1074) := by decide +kernel
example : num .float two = some (2 ^ 1075) := by decide +kernel
example : num .float 0x8000000000000000#64 = some 0 := by decide
example : num .float nan = none := by decide

/-! ## C27 -/

/-- **C27** Membership test: exactly the values between the bounds, with the stated inclusions
(a NaN belongs to no interval, an interval with a NaN bound has no member). -/
theorem C27_membership_exact (iv : Interval) (v : BitVec 64) : iv.include v = true ↔ Mem iv v :=
  include_iff iv v

/-- **C27** An interval reported empty has no member. -/
theorem C27_empty_has_no_member (iv : Interval) (h : iv.empty = true) (v : BitVec 64) :
    ¬ Mem iv v := by
  intro hm
  have hp := mem_proper hm
  rw [mem_excl iv hp] at hm
  obtain ⟨-, h1, h2⟩ := hm
  have e1 := excl_bounds iv.lowerIncl
  have e2 := excl_bounds iv.upperIncl
  unfold Interval.empty at h
  rw [lt_pos hp.2 hp.1, le_pos hp.2 hp.1] at h
  by_cases hu : truthy iv.upperIncl = true <;> by_cases hl : truthy iv.lowerIncl = true
  · simp only [hu, hl, Bool.and_self, if_true, decide_eq_true_iff] at h; omega
  · have := excl_of_not_truthy hl
    simp only [hu, hl, Bool.true_and, Bool.false_eq_true, if_false, decide_eq_true_iff] at h; omega
  · have := excl_of_not_truthy hu
    simp only [hu, Bool.false_and, Bool.false_eq_true, if_false, decide_eq_true_iff] at h; omega
  · have := excl_of_not_truthy hu
    simp only [hu, Bool.false_and, Bool.false_eq_true, if_false, decide_eq_true_iff] at h; omega

/-- **C27** An interval with number bounds, one of them included, reported non-empty: it has a
member, namely that bound. -/
theorem C27_nonempty_has_member (iv : Interval) (hp : Proper iv)
    (hi : iv.lowerIncl ≠ 0#32 ∨ iv.upperIncl ≠ 0#32) (h : iv.empty = false) : ∃ v, Mem iv v := by
  have e1 := excl_bounds iv.lowerIncl
  have e2 := excl_bounds iv.upperIncl
  unfold Interval.empty at h
  rw [lt_pos hp.2 hp.1, le_pos hp.2 hp.1] at h
  by_cases hl : iv.lowerIncl = 0#32
  · have hu := hi.resolve_left (fun h => h hl)
    have hl' : truthy iv.lowerIncl = false := (truthy_false_iff _).2 hl
    simp only [hl', Bool.and_false, Bool.false_eq_true, if_false, decide_eq_false_iff_not] at h
    refine ⟨iv.upper, (mem_excl iv hp _).2 ⟨hp.2, by omega, ?_⟩⟩
    simp [excl, hu]
  · have hl' : truthy iv.lowerIncl = true := (truthy_iff _).2 hl
    have hel : excl iv.lowerIncl = 0 := excl_of_truthy hl'
    refine ⟨iv.lower, (mem_excl iv hp _).2 ⟨hp.1, by omega, ?_⟩⟩
    by_cases hu : truthy iv.upperIncl = true
    · have := excl_of_truthy hu
      simp only [hu, hl', Bool.and_self, if_true, decide_eq_false_iff_not] at h; omega
    · simp only [hu, Bool.false_and, Bool.false_eq_true, if_false, decide_eq_false_iff_not] at h
      omega

example : Mem ⟨.float, one, two, 1#32, 0#32⟩ oneUp := by
  rw [← C27_membership_exact]; decide
example : (Interval.mk .int 3#64 3#64 1#32 0#32).empty = true := by decide
example : (Interval.mk .int 3#64 4#64 1#32 0#32).empty = false ∧
    Proper (Interval.mk .int 3#64 4#64 1#32 0#32) := ⟨by decide, proper_int rfl⟩

/-! ## C79 -/

/-- **C79** fails: an interval can be reported non-empty without having any member: `]1, 1+ε[`
(neighbouring doubles), the integer interval `]0, 1[`, and an interval with a NaN bound. -/
theorem C79_nonempty_without_member :
    ((Interval.mk .float one oneUp 0#32 0#32).empty = false ∧
      ∀ v, ¬ Mem (Interval.mk .float one oneUp 0#32 0#32) v) ∧
    ((Interval.mk .int 0#64 1#64 0#32 0#32).empty = false ∧
      ∀ v, ¬ Mem (Interval.mk .int 0#64 1#64 0#32 0#32) v) ∧
    ((Interval.mk .float nan two 1#32 1#32).empty = false ∧
      ∀ v, ¬ Mem (Interval.mk .float nan two 1#32 1#32) v) := by
  refine ⟨⟨by decide, fun v h => ?_⟩, ⟨by decide, fun v h => ?_⟩, ⟨by decide, fun v h => ?_⟩⟩
  · rw [mem_excl _ (mem_proper h)] at h
    obtain ⟨-, h1, h2⟩ := h
    have a1 : pos .float one = 0x3ff0000000000000 := by decide
    have a2 : pos .float oneUp = 0x3ff0000000000001 := by decide
    have a3 : excl 0#32 = 1 := by decide
    simp only [a1, a2, a3] at h1 h2
    omega
  · rw [mem_excl _ (mem_proper h)] at h
    obtain ⟨-, h1, h2⟩ := h
    have a1 : pos .int 0#64 = 0 := by decide
    have a2 : pos .int 1#64 = 1 := by decide
    have a3 : excl 0#32 = 1 := by decide
    simp only [a1, a2, a3] at h1 h2
    omega
  · obtain ⟨l, x, u, hl, -⟩ := h
    have : num .float nan = none := by decide
    simp only [this] at hl
    cases hl

/-- **C79** (partial) These are the only cases: with number bounds, a non-empty report is wrong only
when both bounds are excluded and no representable number lies strictly between them.
Missing for the full claim: that case, where it is false (above). -/
theorem C79_nonempty_exact_partial (iv : Interval) (hp : Proper iv) (h : iv.empty = false) :
    (∃ v, Mem iv v) ∨
    (iv.lowerIncl = 0#32 ∧ iv.upperIncl = 0#32 ∧
      (∃ l u, num iv.type iv.lower = some l ∧ num iv.type iv.upper = some u ∧ l < u ∧
        ∀ v x, num iv.type v = some x → ¬ (l < x ∧ x < u))) := by
  by_cases hm : ∃ v, Mem iv v
  · exact Or.inl hm
  · right
    by_cases hi : iv.lowerIncl ≠ 0#32 ∨ iv.upperIncl ≠ 0#32
    · exact absurd (C27_nonempty_has_member iv hp hi h) hm
    · rw [not_or] at hi
      have hl : iv.lowerIncl = 0#32 := Classical.not_not.1 hi.1
      have hu : iv.upperIncl = 0#32 := Classical.not_not.1 hi.2
      obtain ⟨l, hl'⟩ := isNum_iff.1 hp.1
      obtain ⟨u, hu'⟩ := isNum_iff.1 hp.2
      refine ⟨hl, hu, l, u, hl', hu', ?_, ?_⟩
      · unfold Interval.empty at h
        rw [le_pos hp.2 hp.1, (truthy_false_iff _).2 hu] at h
        simp only [Bool.false_and, Bool.false_eq_true, if_false, decide_eq_false_iff_not] at h
        have := pos_lt_iff hl' hu'
        omega
      · rintro v x hx ⟨h1, h2⟩
        exact hm ⟨v, l, x, u, hl', hx, hu', Or.inl h1, Or.inl h2⟩

/-! ## C28 -/

/-- **C28** Intersection of two intervals of the same type whose bounds are numbers. -/
theorem C28_intersection_exact (a b : Interval) (ht : a.type = b.type) (ha : Proper a)
    (hb : Proper b) :
    ∃ c, a.intersect b = .ok c ∧ c.type = a.type ∧ Proper c ∧
      ∀ v, Mem c v ↔ Mem a v ∧ Mem b v :=
  ⟨_, intersect_ok ht, mem_intersect ha hb (intersect_ok ht)⟩

/-- **C28** Different types are refused. -/
theorem C28_type_mismatch_refused (a b : Interval) (ht : a.type ≠ b.type) :
    a.intersect b = .err .invalidType ∧ a.union b = .err .invalidType ∧
    a.equal b = .err .invalidType := by
  simp [Interval.intersect, Interval.union, Interval.equal, ht]

/-- **C28** The hypothesis on the bounds is needed: with a NaN bound (so no member at all) the
intersection can contain values. -/
theorem C28_nan_bound_lost :
    ∃ c, (Interval.mk .float nan two 1#32 1#32).intersect ⟨.float, one, two, 1#32, 1#32⟩ = .ok c ∧
      Mem c one ∧ ¬ Mem (Interval.mk .float nan two 1#32 1#32) one := by
  refine ⟨⟨.float, one, two, 1#32, 1#32⟩, by decide, ?_, ?_⟩
  · rw [← C27_membership_exact]; decide
  · rw [← C27_membership_exact]; decide

example : (Interval.mk .float one two 1#32 1#32).intersect ⟨.float, one, two, 0#32, 1#32⟩ =
    .ok ⟨.float, one, two, 0#32, 1#32⟩ := by decide
example : Proper (Interval.mk .float one two 1#32 1#32) :=
  ⟨isNum_float (by decide), isNum_float (by decide)⟩

/-! ## C29 -/

/-- **C29** fails: at equal bounds with different inclusions the union keeps the exclusive one:
`[0, 5] ∪ ]0, 5]` does not contain 0. -/
theorem C29_union_loses_tied_bound :
    ∃ c, (Interval.mk .int 0#64 5#64 1#32 1#32).union ⟨.int, 0#64, 5#64, 0#32, 1#32⟩ = .ok c ∧
      Mem (Interval.mk .int 0#64 5#64 1#32 1#32) 0#64 ∧ ¬ Mem c 0#64 := by
  refine ⟨⟨.int, 0#64, 5#64, 0#32, 1#32⟩, by decide, ?_, ?_⟩
  · rw [← C27_membership_exact]; decide
  · rw [← C27_membership_exact]; decide

/-- **C29** (partial) When tied bounds have the same inclusion, the union contains both operands and
is their convex hull: each of its values lies between two values of the operands.
Missing for the full claim: tied bounds with different inclusions, where it is false (above). -/
theorem C29_union_partial (a b : Interval) (ht : a.type = b.type) (ha : Proper a) (hb : Proper b)
    (hlo : num a.type a.lower = num a.type b.lower → (a.lowerIncl = 0#32 ↔ b.lowerIncl = 0#32))
    (hup : num a.type a.upper = num a.type b.upper → (a.upperIncl = 0#32 ↔ b.upperIncl = 0#32)) :
    ∃ c, a.union b = .ok c ∧ c.type = a.type ∧
      (∀ v, Mem a v ∨ Mem b v → Mem c v) ∧
      ((∃ v, Mem a v) → (∃ v, Mem b v) → ∀ v, Mem c v →
        ∃ x y n p q, (Mem a x ∨ Mem b x) ∧ (Mem a y ∨ Mem b y) ∧ num a.type v = some n ∧
          num a.type x = some p ∧ num a.type y = some q ∧ p ≤ n ∧ n ≤ q) := by
  refine ⟨_, union_ok ht, rfl, ?_⟩
  have hb' : IsNum a.type b.lower ∧ IsNum a.type b.upper := by rw [ht]; exact hb
  obtain ⟨l1, hl1⟩ := isNum_iff.1 ha.1
  obtain ⟨l2, hl2⟩ := isNum_iff.1 hb'.1
  obtain ⟨u1, hu1⟩ := isNum_iff.1 ha.2
  obtain ⟨u2, hu2⟩ := isNum_iff.1 hb'.2
  have hl := mergeMin_lower (i1 := a.lowerIncl) (i2 := b.lowerIncl) ha.1 hb'.1
  have hu := mergeMax_upper (i1 := a.upperIncl) (i2 := b.upperIncl) ha.2 hb'.2
  have tl : pos a.type a.lower = pos a.type b.lower → excl a.lowerIncl = excl b.lowerIncl := by
    intro h
    have := hlo (by rw [hl1, hl2, (pos_eq_iff hl1 hl2).1 h])
    unfold excl; simp only [this]
  have tu : pos a.type a.upper = pos a.type b.upper → excl a.upperIncl = excl b.upperIncl := by
    intro h
    have := hup (by rw [hu1, hu2, (pos_eq_iff hu1 hu2).1 h])
    unfold excl; simp only [this]
  generalize (mergeMin a.type a.lower a.lowerIncl b.lower b.lowerIncl) = L at *
  generalize (mergeMax a.type a.upper a.upperIncl b.upper b.upperIncl) = U at *
  have hp : Proper ⟨a.type, L.1, U.1, L.2, U.2⟩ := ⟨hl.1, hu.1⟩
  have e1 := excl_bounds a.lowerIncl
  have e2 := excl_bounds b.lowerIncl
  have e3 := excl_bounds a.upperIncl
  have e4 := excl_bounds b.upperIncl
  have hL : pos a.type L.1 + excl L.2 =
      min (pos a.type a.lower + excl a.lowerIncl) (pos a.type b.lower + excl b.lowerIncl) := by
    rcases Int.lt_trichotomy (pos a.type a.lower) (pos a.type b.lower) with h | h | h
    · have := hl.2.1 h; omega
    · have := hl.2.2.2 h; have := tl h; omega
    · have := hl.2.2.1 h; omega
  have hU : pos a.type U.1 - excl U.2 =
      max (pos a.type a.upper - excl a.upperIncl) (pos a.type b.upper - excl b.upperIncl) := by
    rcases Int.lt_trichotomy (pos a.type a.upper) (pos a.type b.upper) with h | h | h
    · have := hu.2.2.1 h; omega
    · have := hu.2.2.2 h; have := tu h; omega
    · have := hu.2.1 h; omega
  have memA := fun v => mem_excl a ha v
  have memB : ∀ v, Mem b v ↔ IsNum a.type v ∧ pos a.type b.lower + excl b.lowerIncl ≤ pos a.type v ∧
      pos a.type v ≤ pos a.type b.upper - excl b.upperIncl := by
    intro v; rw [mem_excl b hb, ht]
  have memC := fun v => mem_excl ⟨a.type, L.1, U.1, L.2, U.2⟩ hp v
  simp only at memC
  constructor
  · rintro v (h | h)
    · rw [memA] at h; rw [memC, hL, hU]; exact ⟨h.1, by omega, by omega⟩
    · rw [memB] at h; rw [memC, hL, hU]; exact ⟨h.1, by omega, by omega⟩
  · rintro ⟨va, hva⟩ ⟨vb, hvb⟩ v hv
    rw [memA] at hva
    rw [memB] at hvb
    rw [memC, hL, hU] at hv
    obtain ⟨n, hn⟩ := isNum_iff.1 hv.1
    have low : ∃ x p, (Mem a x ∨ Mem b x) ∧ num a.type x = some p ∧ p ≤ n := by
      rcases Int.le_total (pos a.type a.lower + excl a.lowerIncl)
        (pos a.type b.lower + excl b.lowerIncl) with h | h
      · obtain ⟨z, hz, hzp⟩ := exists_pos ha.1 hva.1
          (k := pos a.type a.lower + excl a.lowerIncl) (by omega) (by omega)
        obtain ⟨p, hp'⟩ := isNum_iff.1 hz
        refine ⟨z, p, Or.inl ((memA z).2 ⟨hz, by omega, by omega⟩), hp', ?_⟩
        have := pos_lt_iff hn hp'
        omega
      · obtain ⟨z, hz, hzp⟩ := exists_pos hb'.1 hvb.1
          (k := pos a.type b.lower + excl b.lowerIncl) (by omega) (by omega)
        obtain ⟨p, hp'⟩ := isNum_iff.1 hz
        refine ⟨z, p, Or.inr ((memB z).2 ⟨hz, by omega, by omega⟩), hp', ?_⟩
        have := pos_lt_iff hn hp'
        omega
    have high : ∃ y q, (Mem a y ∨ Mem b y) ∧ num a.type y = some q ∧ n ≤ q := by
      rcases Int.le_total (pos a.type a.upper - excl a.upperIncl)
        (pos a.type b.upper - excl b.upperIncl) with h | h
      · obtain ⟨z, hz, hzp⟩ := exists_pos hvb.1 hb'.2
          (k := pos a.type b.upper - excl b.upperIncl) (by omega) (by omega)
        obtain ⟨p, hp'⟩ := isNum_iff.1 hz
        refine ⟨z, p, Or.inr ((memB z).2 ⟨hz, by omega, by omega⟩), hp', ?_⟩
        have := pos_lt_iff hp' hn
        omega
      · obtain ⟨z, hz, hzp⟩ := exists_pos hva.1 ha.2
          (k := pos a.type a.upper - excl a.upperIncl) (by omega) (by omega)
        obtain ⟨p, hp'⟩ := isNum_iff.1 hz
        refine ⟨z, p, Or.inl ((memA z).2 ⟨hz, by omega, by omega⟩), hp', ?_⟩
        have := pos_lt_iff hp' hn
        omega
    obtain ⟨x, p, hx, hxp, hpn⟩ := low
    obtain ⟨y, q, hy, hyq, hnq⟩ := high
    exact ⟨x, y, n, p, q, hx, hy, hn, hxp, hyq, hpn, hnq⟩

/-- **C29** (partial) In every case the only values that can be missing are the tied bounds of
different inclusions themselves. -/
theorem C29_union_misses_only_tied_bounds_partial (a b c : Interval) (hc : a.union b = .ok c)
    (ha : Proper a) (hb : Proper b) (v : BitVec 64) (hv : Mem a v ∨ Mem b v) :
    Mem c v ∨ (num a.type v = num a.type a.lower ∧ num a.type a.lower = num b.type b.lower ∧
        ¬ (a.lowerIncl = 0#32 ↔ b.lowerIncl = 0#32)) ∨
      (num a.type v = num a.type a.upper ∧ num a.type a.upper = num b.type b.upper ∧
        ¬ (a.upperIncl = 0#32 ↔ b.upperIncl = 0#32)) := by
  by_cases ht : a.type = b.type
  · rw [union_ok ht] at hc
    have hb' : IsNum a.type b.lower ∧ IsNum a.type b.upper := by rw [ht]; exact hb
    obtain ⟨l1, hl1⟩ := isNum_iff.1 ha.1
    obtain ⟨l2, hl2⟩ := isNum_iff.1 hb'.1
    obtain ⟨u1, hu1⟩ := isNum_iff.1 ha.2
    obtain ⟨u2, hu2⟩ := isNum_iff.1 hb'.2
    have hl := mergeMin_lower (i1 := a.lowerIncl) (i2 := b.lowerIncl) ha.1 hb'.1
    have hu := mergeMax_upper (i1 := a.upperIncl) (i2 := b.upperIncl) ha.2 hb'.2
    generalize (mergeMin a.type a.lower a.lowerIncl b.lower b.lowerIncl) = L at *
    generalize (mergeMax a.type a.upper a.upperIncl b.upper b.upperIncl) = U at *
    have e1 := excl_bounds a.lowerIncl
    have e2 := excl_bounds b.lowerIncl
    have e3 := excl_bounds a.upperIncl
    have e4 := excl_bounds b.upperIncl
    have hcc := (Out.ok.inj hc).symm
    subst hcc
    have hp : Proper ⟨a.type, L.1, U.1, L.2, U.2⟩ := ⟨hl.1, hu.1⟩
    rw [mem_excl _ hp]
    simp only
    have hnum : IsNum a.type v := by
      rcases hv with h | h
      · exact ((mem_excl a ha v).1 h).1
      · rw [ht]; exact ((mem_excl b hb v).1 h).1
    obtain ⟨x, hx⟩ := isNum_iff.1 hnum
    have bounds : min (pos a.type a.lower + excl a.lowerIncl)
        (pos a.type b.lower + excl b.lowerIncl) ≤ pos a.type v ∧ pos a.type v ≤
        max (pos a.type a.upper - excl a.upperIncl) (pos a.type b.upper - excl b.upperIncl) := by
      rcases hv with h | h
      · have := (mem_excl a ha v).1 h; omega
      · have := (mem_excl b hb v).1 h; rw [← ht] at this; omega
    rw [← ht, hx, hl1, hl2, hu1, hu2]
    have q1 := pos_eq_iff hx hl1
    have q2 := pos_eq_iff hl1 hl2
    have q3 := pos_eq_iff hx hu1
    have q4 := pos_eq_iff hu1 hu2
    simp only [Option.some.injEq]
    rw [← q1, ← q2, ← q3, ← q4]
    clear q1 q2 q3 q4
    have sameExcl : ∀ i j : BitVec 32, (i = 0#32 ↔ j = 0#32) → excl i = excl j := by
      intro i j h; unfold excl; simp only [h]
    by_cases hbl : pos a.type L.1 + excl L.2 ≤ pos a.type v
    · by_cases hbu : pos a.type v ≤ pos a.type U.1 - excl U.2
      · exact Or.inl ⟨hnum, hbl, hbu⟩
      · right; right
        rcases Int.lt_trichotomy (pos a.type a.upper) (pos a.type b.upper) with h | h | h
        · have := hu.2.2.1 h; omega
        · have := hu.2.2.2 h
          refine ⟨by omega, h, fun hi => ?_⟩
          have := sameExcl _ _ hi; omega
        · have := hu.2.1 h; omega
    · right; left
      rcases Int.lt_trichotomy (pos a.type a.lower) (pos a.type b.lower) with h | h | h
      · have := hl.2.1 h; omega
      · have := hl.2.2.2 h
        refine ⟨by omega, h, fun hi => ?_⟩
        have := sameExcl _ _ hi; omega
      · have := hl.2.2.1 h; omega
  · simp [Interval.union, ht] at hc

example : (Interval.mk .float one two 1#32 0#32).union ⟨.float, oneUp, two, 0#32, 0#32⟩ =
    .ok ⟨.float, one, two, 1#32, 0#32⟩ := by decide
example : Proper (Interval.mk .float one two 1#32 0#32) ∧
    Proper (Interval.mk .float oneUp two 0#32 0#32) ∧
    num .float one ≠ num .float oneUp := ⟨⟨isNum_float (by decide), isNum_float (by decide)⟩,
    ⟨isNum_float (by decide), isNum_float (by decide)⟩, by decide +kernel⟩

/-! ## C30 -/

/-- **C30** (one direction, all intervals) Intervals reported equal have the same values. -/
theorem C30_equal_same_values (a b : Interval) (h : a.equal b = .ok true) (v : BitVec 64) :
    Mem a v ↔ Mem b v := mem_of_equal h v

/-- **C30** (partial) Integer intervals whose open bounds do not sit at the extreme integers: the
comparison is defined, and if one of them has a member it answers true exactly when they have
the same values.
Missing for the full claim: intervals without members, extreme open bounds and floats; the
converse is false there (below). -/
theorem C30_integer_equality_partial (a b : Interval) (ha : a.type = .int) (hb : b.type = .int)
    (hdef : ∀ iv, iv = a ∨ iv = b →
      (iv.lowerIncl = 0#32 → iv.lower.toInt ≠ 2 ^ 63 - 1) ∧
      (iv.upperIncl = 0#32 → iv.upper.toInt ≠ -2 ^ 63))
    (hne : (∃ v, Mem a v) ∨ ∃ v, Mem b v) :
    ∃ r, a.equal b = .ok r ∧ (r = true ↔ ∀ v, Mem a v ↔ Mem b v) := by
  have low : ∀ iv, iv = a ∨ iv = b → ∃ l, iv.closedLower = .ok l := by
    intro iv hiv
    unfold Interval.closedLower
    by_cases ht : truthy iv.lowerIncl = true
    · exact ⟨_, if_pos ht⟩
    · rw [if_neg ht, incr64, if_neg ((hdef iv hiv).1 (by simpa [truthy] using ht))]
      exact ⟨_, rfl⟩
  have up : ∀ iv, iv = a ∨ iv = b → ∃ l, iv.closedUpper = .ok l := by
    intro iv hiv
    unfold Interval.closedUpper
    by_cases ht : truthy iv.upperIncl = true
    · exact ⟨_, if_pos ht⟩
    · rw [if_neg ht, decr64, if_neg ((hdef iv hiv).2 (by simpa [truthy] using ht))]
      exact ⟨_, rfl⟩
  have hok : ∃ r, a.equal b = .ok r := by
    obtain ⟨l1, h1⟩ := low a (Or.inl rfl)
    obtain ⟨l2, h2⟩ := low b (Or.inr rfl)
    obtain ⟨u1, h3⟩ := up a (Or.inl rfl)
    obtain ⟨u2, h4⟩ := up b (Or.inr rfl)
    unfold Interval.equal
    rw [if_neg (by rw [ha, hb]; simp), ha]
    simp only
    rw [h1, h3, h2, h4]
    exact ⟨_, rfl⟩
  obtain ⟨r, hr⟩ := hok
  refine ⟨r, hr, fun h v => ?_, fun h => ?_⟩
  · exact mem_of_equal (by rw [hr, h]) v
  · rw [equal_int ha hb hr]
    have pa := proper_int ha
    have pb := proper_int hb
    -- a member of both
    obtain ⟨w, hwa⟩ : ∃ w, Mem a w := by
      rcases hne with h' | ⟨w, hw⟩
      · exact h'
      · exact ⟨w, (h w).2 hw⟩
    have hwb := (h w).1 hwa
    rw [mem_excl a pa, ha] at hwa
    rw [mem_excl b pb, hb] at hwb
    simp only [pos] at hwa hwb
    have e1 := excl_bounds a.lowerIncl
    have e2 := excl_bounds b.lowerIncl
    have e3 := excl_bounds a.upperIncl
    have e4 := excl_bounds b.upperIncl
    have key : ∀ k, a.lower.toInt ≤ k → k ≤ w.toInt ∨ (w.toInt ≤ k ∧ k ≤ a.upper.toInt) →
        ∃ z : BitVec 64, z.toInt = k := by
      intro k h1 h2
      rcases h2 with h2 | ⟨h2, h3⟩
      · obtain ⟨z, -, hz⟩ := exists_pos (t := .int) (x := a.lower) (y := w) (by simp [IsNum, num])
          (by simp [IsNum, num]) (k := k) h1 h2
        exact ⟨z, hz⟩
      · obtain ⟨z, -, hz⟩ := exists_pos (t := .int) (x := w) (y := a.upper) (by simp [IsNum, num])
          (by simp [IsNum, num]) (k := k) h2 h3
        exact ⟨z, hz⟩
    have keyb : ∀ k, b.lower.toInt ≤ k → k ≤ w.toInt ∨ (w.toInt ≤ k ∧ k ≤ b.upper.toInt) →
        ∃ z : BitVec 64, z.toInt = k := by
      intro k h1 h2
      rcases h2 with h2 | ⟨h2, h3⟩
      · obtain ⟨z, -, hz⟩ := exists_pos (t := .int) (x := b.lower) (y := w) (by simp [IsNum, num])
          (by simp [IsNum, num]) (k := k) h1 h2
        exact ⟨z, hz⟩
      · obtain ⟨z, -, hz⟩ := exists_pos (t := .int) (x := w) (y := b.upper) (by simp [IsNum, num])
          (by simp [IsNum, num]) (k := k) h2 h3
        exact ⟨z, hz⟩
    have ma : ∀ z : BitVec 64, Mem a z ↔ a.lower.toInt + excl a.lowerIncl ≤ z.toInt ∧
        z.toInt ≤ a.upper.toInt - excl a.upperIncl := by
      intro z; rw [mem_excl a pa, ha]; simp [pos, IsNum, num]
    have mb : ∀ z : BitVec 64, Mem b z ↔ b.lower.toInt + excl b.lowerIncl ≤ z.toInt ∧
        z.toInt ≤ b.upper.toInt - excl b.upperIncl := by
      intro z; rw [mem_excl b pb, hb]; simp [pos, IsNum, num]
    rw [Bool.and_eq_true, decide_eq_true_iff, decide_eq_true_iff]
    constructor
    · obtain ⟨z1, hz1⟩ := key (a.lower.toInt + excl a.lowerIncl) (by omega) (Or.inl (by omega))
      obtain ⟨z2, hz2⟩ := keyb (b.lower.toInt + excl b.lowerIncl) (by omega) (Or.inl (by omega))
      have h1 := (mb z1).1 ((h z1).1 ((ma z1).2 (by omega)))
      have h2 := (ma z2).1 ((h z2).2 ((mb z2).2 (by omega)))
      omega
    · obtain ⟨z1, hz1⟩ := key (a.upper.toInt - excl a.upperIncl) (by omega) (Or.inr (by omega))
      obtain ⟨z2, hz2⟩ := keyb (b.upper.toInt - excl b.upperIncl) (by omega) (Or.inr (by omega))
      have h1 := (mb z1).1 ((h z1).1 ((ma z1).2 (by omega)))
      have h2 := (ma z2).1 ((h z2).2 ((mb z2).2 (by omega)))
      omega

/-- **C30** fails in general: `[1, 2[` and `[1, pred 2]` contain the same doubles but compare
different; two empty intervals compare different; an open bound at the largest integer is a
signed overflow. -/
theorem C30_equality_not_set_equality :
    ((Interval.mk .float one two 1#32 0#32).equal ⟨.float, one, two - 1, 1#32, 1#32⟩ = .ok false ∧
      ∀ v, Mem (Interval.mk .float one two 1#32 0#32) v ↔
        Mem (Interval.mk .float one (two - 1) 1#32 1#32) v) ∧
    ((Interval.mk .int 2#64 1#64 1#32 1#32).equal ⟨.int, 3#64, 1#64, 1#32, 1#32⟩ = .ok false ∧
      ∀ v, Mem (Interval.mk .int 2#64 1#64 1#32 1#32) v ↔
        Mem (Interval.mk .int 3#64 1#64 1#32 1#32) v) ∧
    (Interval.mk .int 0x7fffffffffffffff#64 0#64 0#32 1#32).equal ⟨.int, 0#64, 0#64, 1#32, 1#32⟩ = .ub := by
  refine ⟨⟨by decide, fun v => ?_⟩, ⟨by decide, fun v => ?_⟩, by decide⟩
  · rw [mem_excl _ ⟨isNum_float (by decide), isNum_float (by decide)⟩,
      mem_excl _ ⟨isNum_float (by decide), isNum_float (by decide)⟩]
    have a1 : pos .float two = 0x4000000000000000 := by decide
    have a2 : pos .float (two - 1) = 0x3fffffffffffffff := by decide
    have a3 : excl 0#32 = 1 := by decide
    have a4 : excl 1#32 = 0 := by decide
    simp only [a1, a2, a3, a4]
    constructor <;> rintro ⟨h0, h1, h2⟩ <;> exact ⟨h0, h1, by omega⟩
  · rw [mem_excl _ (proper_int rfl), mem_excl _ (proper_int rfl)]
    have a1 : pos .int 1#64 = 1 := by decide
    have a2 : pos .int 2#64 = 2 := by decide
    have a3 : pos .int 3#64 = 3 := by decide
    have a4 : excl 1#32 = 0 := by decide
    simp only [a1, a2, a3, a4]
    constructor <;> rintro ⟨h0, h1, h2⟩ <;> omega

example : (Interval.mk .int 0#64 5#64 1#32 0#32).equal ⟨.int, 0#64, 4#64, 1#32, 1#32⟩ = .ok true := by
  decide
example : Mem (Interval.mk .int 0#64 5#64 1#32 0#32) 3#64 := by
  rw [← C27_membership_exact]; decide

/-! ## C31 -/

/-- **C31** If the check answers "no oversampling" for a dimension, every value within the
distribution's bounds is in the domain (whose bounds are numbers). -/
theorem C31_no_oversampling_contained (d iv : Interval) (hiv : Proper iv)
    (h : checkOversampling d iv = .ok false) (v : BitVec 64) (hv : Mem d v) : Mem iv v := by
  unfold checkOversampling at h
  obtain ⟨c, hc, h⟩ := bind_eq_ok h
  obtain ⟨e, he, h⟩ := bind_eq_ok h
  have : e = true := by cases e <;> simp_all
  subst this
  have hp := mem_proper hv
  exact ((mem_intersect hp hiv hc).2.2 v).1 ((mem_of_equal he v).1 hv) |>.2

/-- **C31** All dimensions at once. -/
theorem C31_all_dimensions (ds ivs : List Interval) (os : List Bool)
    (h : checkOversamplings ds ivs = .ok os) (i : Nat) (d iv : Interval)
    (hd : ds[i]? = some d) (hiv : ivs[i]? = some iv) (hp : Proper iv) (ho : os[i]? = some false)
    (v : BitVec 64) (hv : Mem d v) : Mem iv v := by
  induction ds generalizing ivs os i with
  | nil => simp at hd
  | cons d0 ds ih =>
    cases ivs with
    | nil => simp at hiv
    | cons iv0 ivs =>
      obtain ⟨o, ho', h⟩ := bind_eq_ok h
      obtain ⟨os', hos', h⟩ := bind_eq_ok h
      have := Out.ok.inj h
      subst this
      cases i with
      | zero =>
        simp only [List.getElem?_cons_zero, Option.some.injEq] at hd hiv ho
        subst hd hiv ho
        exact C31_no_oversampling_contained _ _ hp ho' v hv
      | succ i =>
        simp only [List.getElem?_cons_succ] at hd hiv ho
        exact ih ivs os' hos' i hd hiv ho

/-- **C31** The hypothesis on the domain is needed: a domain with a NaN bound contains nothing, yet
no oversampling is reported. -/
theorem C31_nan_domain_not_detected :
    checkOversampling ⟨.float, one, two, 0#32, 1#32⟩ ⟨.float, nan, two, 1#32, 1#32⟩ = .ok false ∧
    Mem ⟨.float, one, two, 0#32, 1#32⟩ oneUp ∧ ¬ Mem ⟨.float, nan, two, 1#32, 1#32⟩ oneUp := by
  refine ⟨by decide, ?_, ?_⟩
  · rw [← C27_membership_exact]; decide
  · rw [← C27_membership_exact]; decide

example : checkOversampling ⟨.int, 1#64, 5#64, 1#32, 0#32⟩ ⟨.int, 0#64, 9#64, 1#32, 0#32⟩ = .ok false := by
  decide
example : checkOversampling ⟨.int, 1#64, 15#64, 1#32, 0#32⟩ ⟨.int, 0#64, 9#64, 1#32, 0#32⟩ = .ok true := by
  decide

end CCS.Props
