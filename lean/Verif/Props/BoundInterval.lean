import Verif.Spec.BoundInterval
import Verif.Spec.BoundOrder
import Verif.Props.Interval

/-!
# C150: intervals from Python and Ruby
-/

namespace CCS.Props.BoundInterval

open CCS CCS.BoundInterval CCS.Spec CCS.BoundInterval.Spec CCS.BoundOrder.Spec

variable (lang : Lang) (toDouble : Int → Out F64)

theorem numeric_fits {t : NumType} {n : Number} (h : Fits t n) : ∃ x, lang.numeric toDouble t n = .ok x ∧ read t x = n := by
  cases t <;> cases n <;> first | exact h.elim | skip
  · rename_i i
    have e : (BitVec.ofInt 64 i).toInt = i := by
      rw [BitVec.toInt_ofInt]
      exact Int.bmod_eq_of_le (by have := h.1; omega) (by have := h.2; omega)
    refine ⟨BitVec.ofInt 64 i, ?_, by show Number.int _ = _; rw [e]⟩
    cases lang
    · rfl
    · show Rb.int64 i = _
      unfold Rb.int64; exact if_pos (show -2 ^ 63 ≤ i ∧ i < 2 ^ 63 from h)
  · exact ⟨_, rfl, rfl⟩

theorem value_read (t : NumType) (x : BitVec 64) :
    value (read t x) = (num t x).map (fun v => match t with | .int => v * 2 ^ 1074 | .float => v) := by
  cases t
  · rfl
  · show realValue x = _
    simp only [num]
    cases realValue x <;> rfl

theorem flag_ne (b : Bool) : flag b ≠ 0#32 ↔ b = true := by cases b <;> decide

theorem scaled {t : NumType} {a b : Int} :
    ((match t with | .int => a * 2 ^ 1074 | .float => a) < (match t with | .int => b * 2 ^ 1074 | .float => b) ↔ a < b) ∧
    ((match t with | .int => a * 2 ^ 1074 | .float => a) = (match t with | .int => b * 2 ^ 1074 | .float => b) ↔ a = b) := by
  cases t with
  | float => exact ⟨Iff.rfl, Iff.rfl⟩
  | int =>
    show (a * 2 ^ 1074 < b * 2 ^ 1074 ↔ a < b) ∧ (a * 2 ^ 1074 = b * 2 ^ 1074 ↔ a = b)
    have hk : (0 : Int) < 2 ^ 1074 := Int.pow_pos (by decide)
    generalize (2 : Int) ^ 1074 = k at hk
    exact ⟨⟨fun h => Int.lt_of_mul_lt_mul_right h (Int.le_of_lt hk), fun h => Int.mul_lt_mul_of_pos_right h hk⟩,
      ⟨fun h => Int.eq_of_mul_eq_mul_right (Int.ne_of_gt hk) h, fun h => by rw [h]⟩⟩

/-- Membership in an interval in terms of what its bounds read as. -/
theorem mem_read (iv : Interval) (x : BitVec 64) :
    Mem iv x ↔ Inside ⟨iv.type, lower iv, upper iv, lowerIncluded iv, upperIncluded iv⟩ (read iv.type x) := by
  unfold Mem Inside lower upper lowerIncluded upperIncluded
  simp only [value_read, Option.map_eq_some_iff, bne_iff_ne]
  constructor
  · rintro ⟨l, v, u, h1, h2, h3, h4, h5⟩
    refine ⟨_, _, _, ⟨l, h1, rfl⟩, ⟨v, h2, rfl⟩, ⟨u, h3, rfl⟩, ?_, ?_⟩
    · rw [scaled.1, scaled.2]; exact h4
    · rw [scaled.1, scaled.2]; exact h5
  · rintro ⟨_, _, _, ⟨l, h1, rfl⟩, ⟨v, h2, rfl⟩, ⟨u, h3, rfl⟩, h4, h5⟩
    rw [scaled.1, scaled.2] at h4 h5
    exact ⟨l, v, u, h1, h2, h3, h4, h5⟩

/-- **C150** An interval whose bounds are numbers of its type that 64 bits hold can be made, and gives back its type, bounds and
inclusions. -/
theorem C150_read_back_partial {s : Said} (h : Sound s) :
    ∃ iv, Made lang toDouble s iv ∧ iv.type = s.type ∧ lower iv = s.lower ∧ upper iv = s.upper ∧
      lowerIncluded iv = s.lowerIncluded ∧ upperIncluded iv = s.upperIncluded := by
  obtain ⟨l, hl, rl⟩ := numeric_fits lang toDouble h.lower
  obtain ⟨u, hu, ru⟩ := numeric_fits lang toDouble h.upper
  refine ⟨⟨s.type, l, u, flag s.lowerIncluded, flag s.upperIncluded⟩, ?_, rfl, rl, ru, ?_, ?_⟩
  · unfold Made Lang.interval; rw [hl, hu]; rfl
  · show (flag s.lowerIncluded != 0#32) = _
    cases s.lowerIncluded <;> rfl
  · show (flag s.upperIncluded != 0#32) = _
    cases s.upperIncluded <;> rfl

/-- **C150** `include` answers whether a number of the type of the interval lies between its bounds. -/
theorem C150_include_partial {s : Said} (h : Sound s) {iv : Interval} (hm : Made lang toDouble s iv) {v : Number} (hv : Fits s.type v) :
    Decides (lang.include toDouble iv v) (Inside s v) := by
  obtain ⟨iv', hm', ht, hl, hu, hli, hui⟩ := C150_read_back_partial lang toDouble h
  have e : iv' = iv := by
    unfold Made at hm hm'
    rw [hm] at hm'; exact (Out.ok.inj hm').symm
  subst e
  obtain ⟨x, hx, rx⟩ := numeric_fits lang toDouble hv
  refine ⟨iv'.include x, ?_, ?_⟩
  · unfold Lang.include; rw [ht, hx]; rfl
  · rw [C27_membership_exact, mem_read, ht, hl, hu, hli, hui, rx]

/-- **C150** In an interval that is empty lies no number of its type. -/
theorem C150_empty {s : Said} (h : Sound s) {iv : Interval} (hm : Made lang toDouble s iv) (he : empty iv = true) {v : Number}
    (hv : Fits s.type v) : ¬ Inside s v := by
  obtain ⟨x, hx, rx⟩ := numeric_fits lang toDouble hv
  obtain ⟨iv', hm', ht, hl, hu, hli, hui⟩ := C150_read_back_partial lang toDouble h
  have e : iv' = iv := by
    unfold Made at hm hm'
    rw [hm] at hm'; exact (Out.ok.inj hm').symm
  subst e
  intro hi
  refine C27_empty_has_no_member iv' he x ?_
  rw [mem_read, ht, hl, hu, hli, hui, rx]
  exact hi

/-- **C150** The intersection of two intervals of the same type whose bounds are no NaN contains exactly the numbers inside both; intervals
of different types have none. -/
theorem C150_intersect {s r : Said} (hs : Sound s) (hr : Sound r) {a b : Interval} (ha : Made lang toDouble s a)
    (hb : Made lang toDouble r b) (hn : value s.lower ≠ none ∧ value s.upper ≠ none ∧ value r.lower ≠ none ∧ value r.upper ≠ none) :
    (s.type = r.type → ∃ c, intersect a b = .ok c ∧ ∀ v, Fits s.type v →
      Decides (lang.include toDouble c v) (Inside s v ∧ Inside r v)) ∧
    (s.type ≠ r.type → intersect a b = .err .invalidType) := by
  obtain ⟨a', ha', ht, hl, hu, hli, hui⟩ := C150_read_back_partial lang toDouble hs
  obtain ⟨b', hb', kt, kl, ku, kli, kui⟩ := C150_read_back_partial lang toDouble hr
  have e : a' = a := by
    unfold Made at ha ha'
    rw [ha] at ha'; exact (Out.ok.inj ha').symm
  have e' : b' = b := by
    unfold Made at hb hb'
    rw [hb] at hb'; exact (Out.ok.inj hb').symm
  subst e e'
  have proper : ∀ iv : Interval, value (lower iv) ≠ none → value (upper iv) ≠ none → Proper iv := fun iv h1 h2 => by
    unfold lower upper at *
    rw [value_read] at h1 h2
    exact ⟨fun h => h1 (by rw [h]; rfl), fun h => h2 (by rw [h]; rfl)⟩
  refine ⟨fun hty => ?_, fun hty => ?_⟩
  · obtain ⟨c, hc, hct, -, hmem⟩ := C28_intersection_exact a' b' (by rw [ht, kt, hty])
      (proper a' (by rw [hl]; exact hn.1) (by rw [hu]; exact hn.2.1)) (proper b' (by rw [kl]; exact hn.2.2.1) (by rw [ku]; exact hn.2.2.2))
    refine ⟨c, hc, fun v hv => ?_⟩
    obtain ⟨x, hx, rx⟩ := numeric_fits lang toDouble hv
    refine ⟨c.include x, ?_, ?_⟩
    · unfold Lang.include; rw [hct, ht, hx]; rfl
    · rw [C27_membership_exact, hmem, mem_read a', mem_read b', ht, hl, hu, hli, hui, kt, kl, ku, kli, kui, ← hty, rx]
      simp only [Inside]
  · exact (C28_type_mismatch_refused a' b' (by rw [ht, kt]; exact hty)).1

/-- **C150** Intervals that are equal contain the same numbers. -/
theorem C150_equal {s r : Said} (hs : Sound s) (hr : Sound r) {a b : Interval} (ha : Made lang toDouble s a)
    (hb : Made lang toDouble r b) (he : equals a b = .ok true) : s.type = r.type ∧ ∀ v, Fits s.type v → (Inside s v ↔ Inside r v) := by
  have hty : a.type = b.type := by
    by_cases h : a.type = b.type
    · exact h
    · have := (C28_type_mismatch_refused a b h).2.2
      unfold equals at he
      rw [this] at he; cases he
  obtain ⟨a', ha', ht, -⟩ := C150_read_back_partial lang toDouble hs
  obtain ⟨b', hb', kt, -⟩ := C150_read_back_partial lang toDouble hr
  have e : a' = a := by
    unfold Made at ha ha'
    rw [ha] at ha'; exact (Out.ok.inj ha').symm
  have e' : b' = b := by
    unfold Made at hb hb'
    rw [hb] at hb'; exact (Out.ok.inj hb').symm
  subst e e'
  have hsr : s.type = r.type := by rw [← ht, ← kt, hty]
  refine ⟨hsr, fun v hv => ?_⟩
  obtain ⟨p, hp, hp'⟩ := C150_include_partial lang toDouble hs ha hv
  obtain ⟨q, hq, hq'⟩ := C150_include_partial lang toDouble hr hb (hsr ▸ hv)
  obtain ⟨x, hx, -⟩ := numeric_fits lang toDouble hv
  have h1 : lang.include toDouble a' v = .ok (a'.include x) := by unfold Lang.include; rw [ht, hx]; rfl
  have h2 : lang.include toDouble b' v = .ok (b'.include x) := by unfold Lang.include; rw [kt, ← hsr, hx]; rfl
  rw [h1] at hp
  rw [h2] at hq
  rw [← hp', ← hq', ← Out.ok.inj hp, ← Out.ok.inj hq, C27_membership_exact, C27_membership_exact]
  exact C30_equal_same_values a' b' he x

/-- What a stored number reads as is a number of its type that 64 bits hold. -/
theorem fits_read (t : NumType) (x : BitVec 64) : Fits t (read t x) := by
  cases t
  · have h1 := BitVec.le_toInt x
    have h2 := BitVec.toInt_lt (x := x)
    exact ⟨h1, h2⟩
  · trivial

/-- **C150** An interval that is not empty, whose bounds are no NaN and not both excluded, contains a number. -/
theorem C150_not_empty_partial {s : Said} (h : Sound s) {iv : Interval} (hm : Made lang toDouble s iv)
    (hn : value s.lower ≠ none ∧ value s.upper ≠ none) (hi : s.lowerIncluded = true ∨ s.upperIncluded = true)
    (he : empty iv = false) : ∃ v, Fits s.type v ∧ Inside s v := by
  obtain ⟨iv', hm', ht, hl, hu, hli, hui⟩ := C150_read_back_partial lang toDouble h
  have e : iv' = iv := by
    unfold Made at hm hm'
    rw [hm] at hm'; exact (Out.ok.inj hm').symm
  subst e
  have hp : Proper iv' := by
    obtain ⟨h1, h2⟩ := hn
    rw [← hl] at h1
    rw [← hu] at h2
    unfold lower at h1
    unfold upper at h2
    rw [value_read] at h1 h2
    exact ⟨fun h => h1 (by rw [h]; rfl), fun h => h2 (by rw [h]; rfl)⟩
  obtain ⟨x, hx⟩ := C27_nonempty_has_member iv' hp
    (hi.imp (fun h => by rw [← hli] at h; exact bne_iff_ne.1 h) (fun h => by rw [← hui] at h; exact bne_iff_ne.1 h)) he
  refine ⟨read iv'.type x, ht ▸ fits_read _ _, ?_⟩
  rw [mem_read, ht, hl, hu, hli, hui] at hx
  rw [ht]; exact hx

/-- **C150** Intervals of integers with included bounds, one of which contains a number, are equal exactly when they contain the same
numbers; without included bounds, and for floats, equality implies the same numbers (`C150_equal`) and the converse does not hold (C30). -/
theorem C150_equal_integers_partial {s r : Said} (hs : Sound s) (hr : Sound r) {a b : Interval} (ha : Made lang toDouble s a)
    (hb : Made lang toDouble r b) (hst : s.type = .int) (hrt : r.type = .int)
    (hi : s.lowerIncluded = true ∧ s.upperIncluded = true ∧ r.lowerIncluded = true ∧ r.upperIncluded = true)
    (hne : ∃ v, Fits .int v ∧ Inside s v) :
    Decides (equals a b) (∀ v, Fits .int v → (Inside s v ↔ Inside r v)) := by
  obtain ⟨a', ha', ht, hl, hu, hli, hui⟩ := C150_read_back_partial lang toDouble hs
  obtain ⟨b', hb', kt, kl, ku, kli, kui⟩ := C150_read_back_partial lang toDouble hr
  have e : a' = a := by
    unfold Made at ha ha'
    rw [ha] at ha'; exact (Out.ok.inj ha').symm
  have e' : b' = b := by
    unfold Made at hb hb'
    rw [hb] at hb'; exact (Out.ok.inj hb').symm
  subst e e'
  have sa : ∀ x, Mem a' x ↔ Inside s (read .int x) := fun x => by
    have := mem_read a' x
    rw [ht, hl, hu, hli, hui, hst] at this
    rw [this]; simp only [Inside]
  have sb : ∀ x, Mem b' x ↔ Inside r (read .int x) := fun x => by
    have := mem_read b' x
    rw [kt, kl, ku, kli, kui, hrt] at this
    rw [this]; simp only [Inside]
  obtain ⟨q, hq, hqq⟩ := C30_integer_equality_partial a' b' (ht.trans hst) (kt.trans hrt) (by
      rintro iv (rfl | rfl)
      · rw [hi.1] at hli; rw [hi.2.1] at hui
        exact ⟨fun h => absurd h (bne_iff_ne.1 hli), fun h => absurd h (bne_iff_ne.1 hui)⟩
      · rw [hi.2.2.1] at kli; rw [hi.2.2.2] at kui
        exact ⟨fun h => absurd h (bne_iff_ne.1 kli), fun h => absurd h (bne_iff_ne.1 kui)⟩)
    (.inl (by
      obtain ⟨v, hv, hin⟩ := hne
      obtain ⟨x, -, rx⟩ := numeric_fits lang toDouble hv
      exact ⟨x, (sa x).2 (rx ▸ hin)⟩))
  refine ⟨q, hq, hqq.trans ⟨fun h v hv => ?_, fun h x => ?_⟩⟩
  · obtain ⟨x, -, rx⟩ := numeric_fits lang toDouble hv
    rw [← rx, ← sa, ← sb]; exact h x
  · rw [sa, sb]; exact h _ (fits_read .int x)

/-- **C150** From Ruby, integers that 64 bits do not hold are refused, as bounds and by `include?`. -/
theorem C150_ruby_refused {i : Int} (h : ¬ (-2 ^ 63 ≤ i ∧ i < 2 ^ 63)) (iv : Interval) (ht : iv.type = .int) (n : Number) (li ui : Bool) :
    Lang.ruby.include toDouble iv (.int i) = .err .external ∧
    Lang.ruby.interval toDouble .int (.int i) n li ui = .err .external := by
  have key : Lang.ruby.numeric toDouble .int (.int i) = .err .external := by
    show Rb.int64 i = _
    unfold Rb.int64; rw [if_neg h]
  unfold Lang.include Lang.interval
  rw [ht, key]
  exact ⟨rfl, rfl⟩

/-- From 0 to 10, both included. -/
def exTen : Said := ⟨.int, .int 0, .int 10, true, true⟩

theorem exTen_sound : Sound exTen := ⟨by show _ ∧ _; decide, by show _ ∧ _; decide⟩

/-- **C150, violated** From Python, an integer that 64 bits do not hold is taken modulo 2^64: 2^64 + 3 is inside from 0 to 10, and a bound of
2^63 reads as -2^63. -/
theorem C150_python_wraps : ∃ iv, Made .python toDouble exTen iv ∧ Lang.python.include toDouble iv (.int (2 ^ 64 + 3)) = .ok true ∧
    ¬ Inside exTen (.int (2 ^ 64 + 3)) ∧
    ∃ iv', Made .python toDouble ⟨.int, .int 0, .int (2 ^ 63), true, true⟩ iv' ∧ upper iv' = .int (-2 ^ 63) := by
  refine ⟨_, rfl, ?_, ?_, _, rfl, by decide +kernel⟩
  · show Out.ok (Interval.include ⟨.int, BitVec.ofInt 64 0, BitVec.ofInt 64 10, 1#32, 1#32⟩ (BitVec.ofInt 64 (2 ^ 64 + 3))) = .ok true
    decide +kernel
  rintro ⟨l, x, u, -, h2, h3, -, h5⟩
  have e2 : (2 ^ 64 + 3) * 2 ^ 1074 = x := Option.some.inj h2
  have e3 : 10 * 2 ^ 1074 = u := Option.some.inj h3
  have hk : (0 : Int) < 2 ^ 1074 := Int.pow_pos (by decide)
  generalize (2 : Int) ^ 1074 = k at hk e2 e3
  subst e2 e3
  omega

/-- **C150, violated** From Ruby, the integer part of a float is what is looked for in an interval of integers: 10.5 is inside from 0 to
10. -/
theorem C150_ruby_truncates : ∃ iv, Made .ruby toDouble exTen iv ∧
    Lang.ruby.include toDouble iv (.float 0x4025000000000000#64) = .ok true ∧ ¬ Inside exTen (.float 0x4025000000000000#64) := by
  refine ⟨⟨.int, 0#64, 10#64, 1#32, 1#32⟩, rfl, ?_, ?_⟩
  · have key : Lang.ruby.numeric toDouble .int (.float 0x4025000000000000#64) = .ok 10#64 := by
      show (match truncated 0x4025000000000000#64 with | some i => Rb.int64 i | none => .err .external) = _
      rw [show truncated 0x4025000000000000#64 = some 10 by decide +kernel]
      rfl
    unfold Lang.include
    rw [key]
    show Out.ok (Interval.include ⟨.int, 0#64, 10#64, 1#32, 1#32⟩ 10#64) = .ok true
    decide +kernel
  · rintro ⟨l, x, u, -, h2, h3, -, h5⟩
    have e3 : 10 * 2 ^ 1074 = u := Option.some.inj h3
    have e2 : realValue 0x4025000000000000#64 = some x := h2
    have : realValue 0x4025000000000000#64 = some (10 * 2 ^ 1074 + 2 ^ 1073) := by decide +kernel
    rw [this] at e2
    have e2 := Option.some.inj e2
    have hk : (0 : Int) < 2 ^ 1073 := Int.pow_pos (by decide)
    rw [← e2, ← e3] at h5
    generalize (10 * 2 ^ 1074 : Int) = k at h5
    generalize (2 ^ 1073 : Int) = j at h5 hk
    omega

example : Sound exTen ∧ Fits exTen.type (.int 10) ∧ Inside exTen (.int 10) := by
  refine ⟨exTen_sound, by show _ ∧ _; decide, ⟨0 * 2 ^ 1074, 10 * 2 ^ 1074, 10 * 2 ^ 1074, rfl, rfl, rfl, .inl ?_, .inr ⟨rfl, rfl⟩⟩⟩
  have hk : (0 : Int) < 2 ^ 1074 := Int.pow_pos (by decide)
  generalize (2 : Int) ^ 1074 = k at hk ⊢
  omega

end CCS.Props.BoundInterval
