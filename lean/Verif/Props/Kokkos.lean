import Verif.Lemmas.Kokkos
import Verif.Props.Default

/-!
# C114: variables declared by Kokkos
-/

namespace CCS.Props

open CCS CCS.Spec

section
variable (ops : FloatOps) (toInt : F64 → Option (BitVec 64)) (jen : Bytes → BitVec 32) (little : Bool)

/-! ## C114: sets -/

/-- The value of a candidate. -/
def rawValue : Kokkos.ValueType → Kokkos.Raw → Value
  | .double, .word w => .float w
  | .int64, .word w => .int w
  | .string, .text s => .str (some s)
  | _, _ => .none

theorem means_eq {t : Kokkos.ValueType} {r : Kokkos.Raw} {v : Value} (h : Means t r v) : v = rawValue t r := by
  cases h <;> rfl

theorem means_inj {t : Kokkos.ValueType} {r s : Kokkos.Raw} {v : Value} (h : Means t r v) (h' : Means t s v) : r = s := by
  cases h <;> cases h' <;> rfl

theorem setDatums_eq {t : Kokkos.ValueType} {values : List Kokkos.Raw} (h : ∀ r ∈ values, ∃ v, Means t r v) :
    Kokkos.setDatums t values = .ok (values.map fun r => ⟨rawValue t r, false, false, false⟩) := by
  induction values with
  | nil => rfl
  | cons r rs ih =>
    obtain ⟨v, hv⟩ := h r (by simp)
    have e : r.value t = .ok (rawValue t r) := by
      cases hv with
      | double w => rfl
      | int64 w => rfl
      | string s hs => simp [Kokkos.Raw.value, Kokkos.stringLength, hs, rawValue]
    simp [Kokkos.setDatums, e, ih fun r hr => h r (List.mem_cons_of_mem _ hr)]

/-- **C114** (sets) A variable with a set of candidates is accepted when they are not none and not twice the same, and its legal values are
the candidates.  Strings cannot be on an interval or ratio scale. -/
theorem C114_set {name : Bytes} {t : Kokkos.ValueType} {c : Kokkos.Category} {values : List Kokkos.Raw}
    (hm : ∀ r ∈ values, ∃ v, Means t r v) :
    ((∃ p, Kokkos.variableParameter ops toInt jen little name ⟨t, c, .set values⟩ = .ok p) ↔
      values ≠ [] ∧ values.length ≤ 2 ^ 63 - 1 ∧ values.Nodup ∧ (t = .string → c = .categorical ∨ c = .ordinal)) ∧
    ∀ p, Kokkos.variableParameter ops toInt jen little name ⟨t, c, .set values⟩ = .ok p →
      p.name = name ∧ (∀ v, Legal p v ↔ ∃ r ∈ values, Means t r v) ∧ ∃ r, values.head? = some r ∧ Means t r p.default := by
  have hval : ∀ r ∈ values, Means t r (rawValue t r) := fun r hr => by
    obtain ⟨v, hv⟩ := hm r hr
    rw [← means_eq hv]; exact hv
  have e : Kokkos.variableParameter ops toInt jen little name ⟨t, c, .set values⟩ =
      createCategorical jen little c.kind name (values.map fun r => ⟨rawValue t r, false, false, false⟩) 0 := by
    simp [Kokkos.variableParameter, Kokkos.setParameter, setDatums_eq hm]
  have hmap : (values.map fun r => (⟨rawValue t r, false, false, false⟩ : Datum)).map Datum.v = values.map (rawValue t) := by
    simp
  have hnodup : (values.map (rawValue t)).Nodup ↔ values.Nodup := by
    rw [List.Nodup, List.pairwise_map]
    constructor
    · exact fun h => h.imp fun hne he => hne (congrArg _ he)
    · intro h
      refine List.Pairwise.imp_of_mem (fun {a b} ha hb hne hab => hne ?_) h
      exact means_inj (hval a ha) (hab ▸ hval b hb)
  rw [e]
  constructor
  · rw [(C33_creation_exact jen little c.kind name _ 0).1, hmap, hnodup, List.length_map]
    constructor
    · rintro ⟨h1, h2, h3, h4⟩
      refine ⟨fun h => by rw [h] at h1; simp at h1, h2, h3, fun ht => ?_⟩
      subst ht
      cases values with
      | nil => simp at h1
      | cons r rs =>
        have := h4 ⟨rawValue .string r, false, false, false⟩ (by simp)
        cases hval r (by simp) with
        | string s hs =>
          cases c <;> simp [Kokkos.Category.kind, Listable, rawValue] at this ⊢
    · rintro ⟨h1, h2, h3, h4⟩
      refine ⟨List.length_pos_iff.2 h1, h2, h3, fun d hd => ?_⟩
      obtain ⟨r, hr, rfl⟩ := List.mem_map.1 hd
      have := hval r hr
      simp only
      cases this with
      | double w => cases c <;> simp [Kokkos.Category.kind, Listable, rawValue]
      | int64 w => cases c <;> simp [Kokkos.Category.kind, Listable, rawValue]
      | string s hs =>
        rcases h4 rfl with rfl | rfl <;> simp [Kokkos.Category.kind, Listable, rawValue]
  · intro p hp
    obtain ⟨d, hd, rfl, -⟩ := createCategorical_ok hp
    refine ⟨rfl, fun v => ?_, ?_⟩
    · simp only [Legal, hmap, List.mem_map]
      constructor
      · rintro ⟨r, hr, rfl⟩
        exact ⟨r, hr, hval r hr⟩
      · rintro ⟨r, hr, hv⟩
        exact ⟨r, hr, (means_eq hv).symm⟩
    · cases values with
      | nil => simp at hd
      | cons r rs =>
        simp only [List.map_cons, List.getElem?_cons_zero, Option.some.injEq] at hd
        subst hd
        exact ⟨r, rfl, hval r (by simp)⟩

/-- Three strings. -/
example : ∃ p, Kokkos.variableParameter ops toInt jen little [65#8]
    ⟨.string, .categorical, .set [.text [66#8], .text [67#8, 68#8], .text []]⟩ = .ok p :=
  (C114_set ops toInt jen little (by
    intro r hr
    simp only [List.mem_cons, List.not_mem_nil, or_false] at hr
    rcases hr with rfl | rfl | rfl <;> exact ⟨_, .string _ (by simp)⟩)).1.2 ⟨by simp, by simp, by simp, fun _ => .inl rfl⟩

/-! ## C114: ranges of integers -/

theorem add64_ok {a b c : BitVec 64} (h : Kokkos.add64 a b = .ok c) : c.toInt = a.toInt + b.toInt := by
  unfold Kokkos.add64 at h
  split at h
  · next hr =>
    cases h
    rw [BitVec.toInt_add]
    exact Int.bmod_eq_of_le (by omega) (by omega)
  · cases h

/-- What is created for a range of integers whose upper bound is excluded or that has a step. -/
theorem intRange_made {name : Bytes} {r : Kokkos.Range} {p : Param} (hr : r.openUpper = true ∨ r.step ≠ 0#64)
    (h : Kokkos.intRange ops toInt name r = .ok p) :
    ∃ l u : BitVec 64, l.toInt = r.lower.toInt + (if r.openLower then (if r.step = 0#64 then 1 else r.step.toInt) else 0) ∧
      u.toInt = r.upper.toInt + (if r.openUpper then 0 else r.step.toInt) ∧
      createNumerical ops name .int l u r.step l = .ok p ∧ 0 ≤ r.step.toInt ∧ l.toInt < u.toInt := by
  unfold Kokkos.intRange at h
  split at h
  · cases h
  next hst =>
  obtain ⟨l, hl, h⟩ := bind_eq_ok h
  obtain ⟨u, hu, h⟩ := bind_eq_ok h
  refine ⟨l, u, ?_, ?_, h, by omega, (numerical_int_bounds h).1⟩
  · split at hl
    · next ho =>
      rw [if_pos ho, add64_ok hl]
      split <;> rfl
    · next ho => cases hl; rw [if_neg ho]; omega
  · split at hu
    · next ho => cases hu; rw [if_pos ho]; omega
    · next ho =>
      rw [if_neg ho]
      rcases hr with hr | hr
      · exact absurd hr ho
      · rw [if_neg hr] at hu
        exact add64_ok hu

/-- **C114** (ranges of integers) The legal values of the parameter: all the integers of an interval, whatever the step. -/
theorem C114_int_domain_partial {name : Bytes} {c : Kokkos.Category} {r : Kokkos.Range} {p : Param}
    (hr : r.openUpper = true ∨ r.step ≠ 0#64)
    (h : Kokkos.variableParameter ops toInt jen little name ⟨.int64, c, .range r⟩ = .ok p) (v : Value) :
    Legal p v ↔ ∃ x : BitVec 64, v = .int x ∧
      r.lower.toInt + (if r.openLower then (if r.step = 0#64 then 1 else r.step.toInt) else 0) ≤ x.toInt ∧
      x.toInt < r.upper.toInt + (if r.openUpper then 0 else r.step.toInt) := by
  obtain ⟨l, u, hl, hu, hp, -, -⟩ := intRange_made ops toInt hr h
  obtain rfl := createNumerical_ok hp
  rw [← hl, ← hu]
  simp only [Legal]
  constructor
  · rintro ⟨x, rfl, a, b, c, h1, h2, h3, h4, h5⟩
    simp only [num, Option.some.injEq] at h1 h2 h3
    refine ⟨x, rfl, ?_, ?_⟩
    · rcases h4 with h4 | h4 <;> omega
    · rcases h5 with h5 | h5
      · omega
      · exact absurd rfl h5.1
  · rintro ⟨x, rfl, h1, h2⟩
    exact ⟨x, rfl, _, _, _, rfl, rfl, rfl, by simp; omega, .inl h2⟩

/-- **C114** (ranges of integers) No candidate is refused, when the upper bound is excluded or there is a step. -/
theorem C114_int_accepted_partial {name : Bytes} {c : Kokkos.Category} {r : Kokkos.Range} {p : Param}
    (hr : r.openUpper = true ∨ r.step ≠ 0#64)
    (h : Kokkos.variableParameter ops toInt jen little name ⟨.int64, c, .range r⟩ = .ok p) (x : BitVec 64)
    (hx : InIntRange r x.toInt) : Legal p (.int x) := by
  obtain ⟨l, u, hl, hu, hp, hs, -⟩ := intRange_made ops toInt hr h
  refine (C114_int_domain_partial ops toInt jen little hr h _).2 ⟨x, rfl, ?_, ?_⟩
  · obtain ⟨h1, -, h3⟩ := hx
    split at h1
    · next ho =>
      rw [if_pos ho]
      split
      · omega
      · next h0 =>
        obtain ⟨k, hk⟩ := h3 h0
        have : 0 < r.step.toInt := by
          rcases Int.lt_or_eq_of_le hs with h | h
          · exact h
          · exact absurd (BitVec.eq_of_toInt_eq (by rw [← h]; rfl)) h0
        have hk1 : 1 ≤ k := by
          rcases Int.lt_or_le k 1 with h | h
          · have := Int.mul_le_mul_of_nonneg_left (show k ≤ 0 by omega) hs
            simp at this; omega
          · exact h
        have := Int.mul_le_mul_of_nonneg_left hk1 hs
        omega
    · next ho => rw [if_neg ho]; omega
  · obtain ⟨-, h2, -⟩ := hx
    split at h2
    · next ho => rw [if_pos ho]; omega
    · next ho =>
      rw [if_neg ho]
      rcases hr with hr | hr
      · exact absurd hr ho
      · have : 0 < r.step.toInt := by
          rcases Int.lt_or_eq_of_le hs with h | h
          · exact h
          · exact absurd (BitVec.eq_of_toInt_eq (by rw [← h]; rfl)) hr
        omega

/-- **C114** (ranges of integers) Without a step and with an excluded upper bound, the legal values are the candidates. -/
theorem C114_int_exact_partial {name : Bytes} {c : Kokkos.Category} {r : Kokkos.Range} {p : Param}
    (hr : r.openUpper = true) (hs : r.step = 0#64)
    (h : Kokkos.variableParameter ops toInt jen little name ⟨.int64, c, .range r⟩ = .ok p) (v : Value) :
    Legal p v ↔ ∃ x : BitVec 64, v = .int x ∧ InIntRange r x.toInt := by
  rw [C114_int_domain_partial ops toInt jen little (.inl hr) h v]
  simp only [InIntRange, hr, hs, if_true]
  constructor
  · rintro ⟨x, rfl, h1, h2⟩
    refine ⟨x, rfl, ?_, by omega, fun h => absurd rfl h⟩
    split at h1 <;> split <;> simp_all <;> omega
  · rintro ⟨x, rfl, h1, h2, -⟩
    refine ⟨x, rfl, ?_, by omega⟩
    split at h1 <;> split <;> simp_all <;> omega

/-- **C114** (ranges of integers) The values drawn for a tuning variable are candidates: on the grid of the step, and an included upper bound
is never exceeded. -/
theorem C114_int_drawn_partial {σ : Type} {M : Machine σ} {range : Nat} (hM : GslInt M range) {name : Bytes} {c : Kokkos.Category}
    {r : Kokkos.Range} {p : Param} (hr : r.openUpper = true ∨ r.step ≠ 0#64)
    (h : Kokkos.variableParameter M.ops toInt jen little name ⟨.int64, c, .range r⟩ = .ok p) {d : Sampler σ}
    (hd : defaultDistribution M p = .ok d) {n : Nat} {g g' : σ} {rows : Rows}
    (hlay : Layouts d n g (some (.ok (rows, g')))) : ∀ row ∈ rows, ∀ v ∈ row, InIntRange r v.toInt := by
  obtain ⟨l, u, hl, hu, hp, hs, hlu⟩ := intRange_made M.ops toInt hr h
  obtain rfl := createNumerical_ok hp
  have hd' : createUniform M .int l u false r.step = .ok d := hd
  by_cases hn : steps l u r.step ≤ range
  · obtain ⟨rows', g1, h1, h2⟩ := C75_uniform_int_partial hM hd' hn n g
    have := C77_outcome_unique hlay h1
    simp only [Option.some.injEq, Out.ok.injEq, Prod.mk.injEq] at this
    obtain ⟨rfl, rfl⟩ := this
    intro row hrow v hv
    obtain ⟨h3, h4, h5, h6⟩ := h2 row hrow v hv
    have hpos : r.step ≠ 0#64 → 0 < r.step.toInt := fun h0 => by
      rcases Int.lt_or_eq_of_le hs with h | h
      · exact h
      · exact absurd (BitVec.eq_of_toInt_eq (by rw [← h]; rfl)) h0
    refine ⟨?_, ?_, fun h0 => ?_⟩
    · split
      · next ho =>
        rw [if_pos ho] at hl
        split at hl
        · omega
        · next h0 => have := hpos h0; omega
      · next ho => rw [if_neg ho] at hl; omega
    · split
      · next ho => rw [if_pos ho] at hu; omega
      · next ho => rw [if_neg ho] at hu; omega
    · obtain ⟨k, hk⟩ := h6 h0
      rw [if_neg h0] at hl
      split at hl
      · refine ⟨k + 1, ?_⟩
        rw [Int.mul_add, Int.mul_one, ← hk]; omega
      · exact ⟨k, by rw [← hk]; omega⟩
  · rcases Nat.eq_zero_or_pos n with rfl | hn'
    · obtain ⟨h1, -⟩ := hlay.contiguous 0
      obtain rfl := List.length_eq_zero_iff.mp h1
      simp
    · obtain ⟨m', h1, -⟩ := (hlay.contiguous 0).2.2 (fun _ => 0)
      rw [C75_wide_aborts hM hd' (by omega) hn'] at h1
      cases h1

/-- **C114** (ranges of integers) Every candidate is drawn for one of the answers of the generator, except the last one when the upper bound is excluded and the
step does not divide the length of the range. -/
theorem C114_int_all_drawn_partial {σ : Type} {M : Machine σ} {name : Bytes} {c : Kokkos.Category}
    {r : Kokkos.Range} {p : Param} (hr : r.openUpper = true ∨ r.step ≠ 0#64)
    (h : Kokkos.variableParameter M.ops toInt jen little name ⟨.int64, c, .range r⟩ = .ok p) {d : Sampler σ}
    (hd : defaultDistribution M p = .ok d) (x : BitVec 64) (hx : InIntRange r x.toInt)
    (hlast : r.openUpper = true → x.toInt + r.step.toInt ≤ r.upper.toInt) :
    ∃ n j : BitVec 64, j.toNat < n.toNat ∧ ∀ g g', M.uniformInt g n = some (j, g') → Layouts d 1 g (some (.ok ([[x]], g'))) := by
  have hleg := C114_int_accepted_partial M.ops toInt jen little hr h x hx
  obtain ⟨y, hy, h1, h2⟩ := (C114_int_domain_partial M.ops toInt jen little hr h _).1 hleg
  cases hy
  obtain ⟨l, u, hl, hu, hp, hs, hlu⟩ := intRange_made M.ops toInt hr h
  obtain rfl := createNumerical_ok hp
  have hd' : createUniform M .int l u false r.step = .ok d := hd
  obtain ⟨j, hj, -, hj'⟩ := C75_every_value_partial hd' x (by omega) (by omega) (by
    rw [hu]
    split
    · next ho => have := hlast ho; omega
    · next ho =>
      have := hx.2.1
      rw [if_neg ho] at this
      omega) (fun h0 => by
    obtain ⟨k, hk⟩ := hx.2.2 h0
    rw [if_neg h0] at hl
    split at hl
    · refine ⟨k - 1, ?_⟩
      rw [Int.mul_sub, Int.mul_one, ← hk]; omega
    · exact ⟨k, by rw [← hk]; omega⟩)
  obtain ⟨-, -, hw, -, k, hk, -⟩ := uniform_int_ok hd'
  refine ⟨BitVec.ofInt 64 (steps l u r.step), j, ?_, hj'⟩
  rw [← hk] at hj ⊢
  rw [BitVec.ofInt_toInt]
  rw [BitVec.toInt_eq_toNat_cond] at hj
  split at hj <;> have := k.isLt <;> omega

/-- The integers 1, 3, 5, 7 and 9 of the range (-1, 9] by steps of 2, and their default distribution. -/
example : ∃ p, Kokkos.variableParameter ops toInt jen little [65#8] ⟨.int64, .ratio, .range ⟨-1#64, 9#64, 2#64, true, false⟩⟩ = .ok p ∧
    (∃ d, defaultDistribution exMachine p = .ok d) ∧ InIntRange ⟨-1#64, 9#64, 2#64, true, false⟩ 5 :=
  ⟨_, rfl, ⟨_, rfl⟩, by decide, by decide, fun _ => by decide⟩

/-- **C114** fails: the last of the candidates 0, 4, 8 of the range [0, 10) by steps of 4 is never drawn. -/
theorem C114_last_step_missed {σ : Type} {M : Machine σ} {range : Nat} (hM : GslInt M range) {name : Bytes} {c : Kokkos.Category}
    {p : Param} {d : Sampler σ}
    (h : Kokkos.variableParameter M.ops toInt jen little name ⟨.int64, c, .range ⟨0#64, 10#64, 4#64, false, true⟩⟩ = .ok p)
    (hd : defaultDistribution M p = .ok d) {n : Nat} {g g' : σ} {rows : Rows} (hr2 : 2 ≤ range)
    (hlay : Layouts d n g (some (.ok (rows, g')))) :
    InIntRange ⟨0#64, 10#64, 4#64, false, true⟩ 8 ∧ ∀ row ∈ rows, ∀ v ∈ row, v.toInt = 0 ∨ v.toInt = 4 := by
  refine ⟨⟨by decide, by decide, fun _ => by decide⟩, ?_⟩
  obtain rfl := Out.ok.inj h
  have hd' : createUniform M .int 0#64 10#64 false 4#64 = .ok d := hd
  obtain ⟨rows', g1, h1, h2⟩ := C75_uniform_int_partial hM hd' (by
    have : steps 0#64 10#64 4#64 = 2 := by decide
    omega) n g
  have := C77_outcome_unique hlay h1
  simp only [Option.some.injEq, Out.ok.injEq, Prod.mk.injEq] at this
  obtain ⟨rfl, rfl⟩ := this
  intro row hrow v hv
  obtain ⟨h3, h4, h5, h6⟩ := h2 row hrow v hv
  obtain ⟨k, hk⟩ := h6 (by decide)
  have e1 : (4#64).toInt = 4 := rfl
  have e2 : (10#64).toInt = 10 := rfl
  have e3 : (0#64).toInt = 0 := rfl
  rw [e1] at h5 hk
  rw [e2] at h5
  rw [e3] at h3 hk
  omega

/-- **C114** fails: an upper bound that is included, without a step, is not a legal value. -/
theorem C114_closed_upper {name : Bytes} {c : Kokkos.Category} {r : Kokkos.Range} {p : Param} (hc : r.openUpper = false)
    (hs : r.step = 0#64) (h1 : -2 ^ 53 ≤ r.upper.toInt) (h2 : r.upper.toInt ≤ 2 ^ 53)
    (h : Kokkos.variableParameter ieee truncated jen little name ⟨.int64, c, .range r⟩ = .ok p) :
    InIntRange r r.upper.toInt ∧ ¬ Legal p (.int r.upper) ∧
      ∀ v, Legal p v ↔ ∃ x : BitVec 64, v = .int x ∧ InIntRange r x.toInt ∧ x ≠ r.upper := by
  have e : Kokkos.variableParameter ieee truncated jen little name ⟨.int64, c, .range r⟩ =
      Kokkos.variableParameter ieee truncated jen little name ⟨.int64, c, .range { r with openUpper := true }⟩ := by
    simp only [Kokkos.variableParameter, Kokkos.intRange, hc, hs, Bool.false_eq_true, if_false, if_true, Kokkos.addEpsilon_exact h1 h2]
  rw [e] at h
  obtain ⟨l, u, hl, hu, -, -, hlu⟩ := intRange_made ieee truncated (.inl rfl) h
  have hmem : InIntRange r r.upper.toInt := by
    simp only [hs, if_true] at hl hu
    refine ⟨?_, by rw [hc]; simp, fun h => absurd hs h⟩
    split at hl <;> split <;> simp_all <;> omega
  have hex := C114_int_exact_partial ieee truncated jen little (r := { r with openUpper := true }) rfl hs h
  refine ⟨hmem, ?_, fun v => ?_⟩
  · rw [hex]
    rintro ⟨x, hx, -, h3, -⟩
    cases hx
    simp at h3
  · rw [hex]
    constructor
    · rintro ⟨x, rfl, h3, h4, h5⟩
      simp only [if_true] at h4
      refine ⟨x, rfl, ⟨h3, by rw [hc]; simp; omega, h5⟩, fun hx => ?_⟩
      rw [hx] at h4; omega
    · rintro ⟨x, rfl, ⟨h3, h4, h5⟩, hne⟩
      refine ⟨x, rfl, h3, ?_, h5⟩
      rw [hc] at h4
      simp only [Bool.false_eq_true, if_false] at h4
      simp only [if_true]
      rcases Int.lt_or_eq_of_le h4 with h | h
      · exact h
      · exact absurd (BitVec.eq_of_toInt_eq h) hne

/-- A range of 10 integers, 1 to 10: 10 is left out. -/
example : ∃ p, Kokkos.variableParameter ieee truncated jen little [65#8] ⟨.int64, .ratio, .range ⟨1#64, 10#64, 0#64, false, false⟩⟩ =
    .ok p := by
  have : Kokkos.addEpsilon ieee truncated 10#64 = .ok 10#64 := Kokkos.addEpsilon_exact (by decide) (by decide)
  simp only [Kokkos.variableParameter, Kokkos.intRange, this]
  exact ⟨_, rfl⟩

/-- **C114** fails: declaring a variable with a single integer for range ends the program. -/
theorem C114_single_value {name : Bytes} {c : Kokkos.Category} {u : BitVec 64} (h1 : -2 ^ 53 ≤ u.toInt) (h2 : u.toInt ≤ 2 ^ 53) :
    Kokkos.variableParameter ieee truncated jen little name ⟨.int64, c, .range ⟨u, u, 0#64, false, false⟩⟩ = .err .invalidValue ∧
      InIntRange ⟨u, u, 0#64, false, false⟩ u.toInt := by
  constructor
  · simp [Kokkos.variableParameter, Kokkos.intRange, Kokkos.addEpsilon_exact h1 h2, createNumerical, intBoundsRefused]
  · simp [InIntRange]

/-- **C114** fails: beyond `2^53` the upper bound is rounded, and the largest integer has no result. -/
theorem C114_rounded_upper {name : Bytes} {c : Kokkos.Category} {l : BitVec 64} :
    Kokkos.variableParameter ieee truncated jen little name ⟨.int64, c, .range ⟨l, 0x20000000000001#64, 0#64, false, false⟩⟩ =
      Kokkos.variableParameter ieee truncated jen little name ⟨.int64, c, .range ⟨l, 0x20000000000000#64, 0#64, false, true⟩⟩ ∧
    Kokkos.variableParameter ieee truncated jen little name ⟨.int64, c, .range ⟨l, 0x7fffffffffffffff#64, 0#64, false, false⟩⟩ = .ub := by
  have e1 : Kokkos.addEpsilon ieee truncated 0x20000000000001#64 = .ok 0x20000000000000#64 := by decide +kernel
  have e2 : Kokkos.addEpsilon ieee truncated 0x7fffffffffffffff#64 = .ub := by decide +kernel
  constructor
  · simp [Kokkos.variableParameter, Kokkos.intRange, e1]
  · simp [Kokkos.variableParameter, Kokkos.intRange, e2]

/-- **C114** fails: with a step, an included upper bound too close to the largest integer overflows. -/
theorem C114_step_overflow {name : Bytes} {c : Kokkos.Category} {r : Kokkos.Range} (hl : r.openLower = false) (hc : r.openUpper = false)
    (hs : 0 < r.step.toInt) (hu : 2 ^ 63 ≤ r.upper.toInt + r.step.toInt) :
    Kokkos.variableParameter ops toInt jen little name ⟨.int64, c, .range r⟩ = .ub := by
  have h0 : r.step ≠ 0#64 := fun h => by rw [h] at hs; exact absurd hs (by decide)
  have : Kokkos.add64 r.upper r.step = .ub := by unfold Kokkos.add64; rw [if_neg (by omega)]
  simp only [Kokkos.variableParameter, Kokkos.intRange, hl, hc, h0, this, Bool.false_eq_true, if_false]
  rw [if_neg (by omega)]
  rfl

/-! ## C114: other variables -/

/-- **C114** fails: an integer without bounds overflows the checks of its creation. -/
theorem C114_unbounded_int {name : Bytes} {c : Kokkos.Category} :
    Kokkos.variableParameter ops toInt jen little name ⟨.int64, c, .unbounded⟩ = .ub :=
  C32_wide_domain_undefined ops name _ _ _ _ (by decide) (by decide)

/-- **C114** A string without bounds accepts every string; a range of strings ends the program. -/
theorem C114_strings {name : Bytes} {c : Kokkos.Category} {r : Kokkos.Range} :
    (∃ p, Kokkos.variableParameter ops toInt jen little name ⟨.string, c, .unbounded⟩ = .ok p ∧ p.name = name ∧
      ∀ v, Legal p v ↔ ∃ s, v = .str s) ∧
    Kokkos.variableParameter ops toInt jen little name ⟨.string, c, .range r⟩ = .err .invalidValue :=
  ⟨⟨_, rfl, rfl, fun _ => Iff.rfl⟩, rfl⟩

/-- **C114** A double without bounds: every number but infinity is legal. -/
theorem C114_unbounded_double_partial {name : Bytes} {c : Kokkos.Category} :
    ∃ p, Kokkos.variableParameter ieee toInt jen little name ⟨.double, c, .unbounded⟩ = .ok p ∧
      ∀ x, Legal p (.float x) ↔ F64.isNaN x = false ∧ x ≠ 0x7ff0000000000000#64 := by
  refine ⟨⟨name, .float 0xfff0000000000000#64,
    .numerical ⟨.float, 0xfff0000000000000#64, 0x7ff0000000000000#64, 1#32, 0#32⟩ 0#64⟩, ?_, fun x => ?_⟩
  · have : floatBoundsRefused ieee 0xfff0000000000000#64 0x7ff0000000000000#64 0#64 0xfff0000000000000#64 = false := by
      decide +kernel
    simp [Kokkos.variableParameter, Kokkos.unboundedParameter, createNumerical, this]
  · have hl : num .float 0xfff0000000000000#64 = some (-2 ^ 2098) := by decide +kernel
    have hu : num .float 0x7ff0000000000000#64 = some (2 ^ 2098) := by decide +kernel
    constructor
    · rintro ⟨y, hy, a, b, c, h1, h2, h3, h4, h5⟩
      cases hy
      refine ⟨(num_float_some h2).1, fun hx => ?_⟩
      rw [hx] at h2
      rw [h2] at h3
      cases h3
      rcases h5 with h5 | h5
      · omega
      · exact absurd rfl h5.1
    · rintro ⟨hn, hx⟩
      cases hr : num .float x with
      | none => rw [isNaN_iff.2 hr] at hn; cases hn
      | some b =>
        have k1 := key_lt_iff hr hu
        have k2 := key_lt_iff hr hl
        have hk : F64.key x < F64.key 0x7ff0000000000000#64 ∧ ¬ F64.key x < F64.key 0xfff0000000000000#64 := by
          have hne : x.toNat ≠ 0x7ff0000000000000 := fun h => hx (BitVec.eq_of_toNat_eq h)
          have hn' : ¬ 0x7ff0000000000000 < x.toNat % 2 ^ 63 := of_decide_eq_false hn
          have e1 : F64.key 0x7ff0000000000000#64 = 0x7ff0000000000000 := by decide
          have e2 : F64.key 0xfff0000000000000#64 = -0x7ff0000000000000 := by decide
          have := x.isLt
          rw [e1, e2]
          unfold F64.key
          split <;> omega
        refine ⟨x, rfl, _, b, _, hl, hr, hu, ?_, .inl (k1.1 hk.1)⟩
        have h7 := mt k2.2 hk.2
        rcases Int.lt_or_eq_of_le (Int.not_lt.1 h7) with h | h
        · exact .inl h
        · exact .inr ⟨by decide, h⟩

/-- **C114** fails: an included upper bound of a range of doubles without a step is not a legal value, unless it is very small. -/
theorem C114_double_closed_upper {name : Bytes} {c : Kokkos.Category} {r : Kokkos.Range} {p : Param} (hc : r.openUpper = false)
    (hs : F64.feq r.step 0#64 = true) (hf : F64.isFinite r.upper = true) (hbig : 2 ^ 1049 ≤ Ieee.mag r.upper)
    (h : Kokkos.variableParameter ieee toInt jen little name ⟨.double, c, .range r⟩ = .ok p) : ¬ Legal p (.float r.upper) := by
  simp only [Kokkos.variableParameter, Kokkos.doubleRange, hc, hs, Bool.false_eq_true, if_false, if_true,
    Kokkos.add_epsilon hf hbig] at h
  split at h
  · obtain rfl := createNumerical_ok h
    rintro ⟨x, hx, a, b, c, h1, h2, h3, h4, h5⟩
    cases hx
    rw [h2] at h3
    cases h3
    rcases h5 with h5 | h5
    · omega
    · exact absurd rfl h5.1
  · cases h

/-- The range of doubles [0, 1]. -/
example : ∃ p, Kokkos.variableParameter ieee toInt jen little [65#8] ⟨.double, .ratio, .range ⟨0#64, F64.one, 0#64, false, false⟩⟩ = .ok p ∧
    F64.isFinite F64.one = true ∧ 2 ^ 1049 ≤ Ieee.mag F64.one := by
  have : floatBoundsRefused ieee 0#64 (ieee.add F64.one Kokkos.epsilon) 0#64 0#64 = false := by decide +kernel
  have h0 : F64.le 0#64 0#64 = true := by decide
  have h1 : F64.feq 0#64 0#64 = true := by decide
  refine ⟨⟨[65#8], .float 0#64, .numerical ⟨.float, 0#64, ieee.add F64.one Kokkos.epsilon, 1#32, 0#32⟩ 0#64⟩, ?_, by decide +kernel,
    by decide +kernel⟩
  simp [Kokkos.variableParameter, Kokkos.doubleRange, createNumerical, this, h0, h1]

end

end CCS.Props
