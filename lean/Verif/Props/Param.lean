import Verif.Lemmas.ParamWire
import Verif.Props.Interval

/-!
# C13, C32–C38: parameters

`Spec.Legal p v` says that `v` is one of the values parameter `p` stands for; `Spec.Created` that a
parameter came out of a constructor; `Spec.Respects` that a distribution answers with numbers in its
declared bounds (`Verif/Spec/Param.lean`).
-/

namespace CCS.Props

open CCS Spec

section
variable (ops : FloatOps) (jen : Bytes → BitVec 32) (little : Bool)

/-! ## C32 -/

/-- **C32** Integer parameters: creation succeeds exactly for sensible arguments (when the width of
the domain is representable), and is refused with INVALID_VALUE otherwise. -/
theorem C32_int_creation_exact (name : Bytes) (l u q d : BitVec 64)
    (hw : u.toInt - l.toInt < 2 ^ 63) :
    (l.toInt < u.toInt ∧ 0 ≤ q.toInt ∧ q.toInt ≤ u.toInt - l.toInt ∧ l.toInt ≤ d.toInt ∧
        d.toInt < u.toInt →
      createNumerical ops name .int l u q d =
        .ok ⟨name, .int d, .numerical ⟨.int, l, u, 1#32, 0#32⟩ q⟩) ∧
    (¬ (l.toInt < u.toInt ∧ 0 ≤ q.toInt ∧ q.toInt ≤ u.toInt - l.toInt ∧ l.toInt ≤ d.toInt ∧
        d.toInt < u.toInt) →
      createNumerical ops name .int l u q d = .err .invalidValue) := by
  have key : intBoundsRefused l u q d =
      .ok (!decide (l.toInt < u.toInt ∧ 0 ≤ q.toInt ∧ q.toInt ≤ u.toInt - l.toInt ∧
        l.toInt ≤ d.toInt ∧ d.toInt < u.toInt)) := by
    unfold intBoundsRefused
    by_cases h1 : u.toInt ≤ l.toInt
    · rw [if_pos h1]; simp; omega
    rw [if_neg h1]
    by_cases h2 : q.toInt < 0
    · rw [if_pos h2]; simp; omega
    rw [if_neg h2]
    have hs : sub64 u l = .ok (u - l) := by
      unfold sub64
      rw [if_pos ⟨by omega, hw⟩]
    have hsv : (u - l).toInt = u.toInt - l.toInt := by
      rw [BitVec.toInt_sub]
      apply Int.bmod_eq_of_le <;> omega
    rw [hs, Out.bind_ok, hsv]
    by_cases h3 : u.toInt - l.toInt < q.toInt
    · rw [if_pos h3]; simp; omega
    rw [if_neg h3]
    by_cases h4 : d.toInt < l.toInt
    · rw [if_pos h4]; simp; omega
    rw [if_neg h4]
    by_cases h5 : u.toInt ≤ d.toInt
    · rw [if_pos h5]; simp; omega
    rw [if_neg h5]; simp; omega
  unfold createNumerical
  simp only [key, Out.bind_ok]
  constructor
  · intro h; simp [h]
  · intro h; simp only [decide_eq_false h]; rfl

/-- **C32** A created integer parameter's default is legal, so its domain is not empty. -/
theorem C32_int_default_legal (name : Bytes) (l u q d : BitVec 64) (p : Param)
    (h : createNumerical ops name .int l u q d = .ok p) :
    p.default = .int d ∧ checkValue jen little p p.default = true ∧
    l.toInt < u.toInt ∧ ∃ v, Legal p v := by
  have hp := createNumerical_ok h
  have hb : intBoundsRefused l u q d = .ok false := by
    unfold createNumerical at h
    obtain ⟨r, hr, h⟩ := bind_eq_ok h
    cases r with
    | true => cases h
    | false => exact hr
  unfold intBoundsRefused at hb
  split at hb
  · cases hb
  split at hb
  · cases hb
  obtain ⟨w, -, hb⟩ := bind_eq_ok hb
  split at hb
  · cases hb
  split at hb
  · cases hb
  split at hb
  · cases hb
  have hl : Legal p p.default := by
    subst hp
    refine ⟨d, rfl, l.toInt, d.toInt, u.toInt, rfl, rfl, rfl, ?_, ?_⟩
    · simp only [ne_eq, show ¬ (1#32 = 0#32) by decide, not_false_eq_true, true_and]; omega
    · left; omega
  refine ⟨by rw [hp]; rfl, (checkValue_iff p _).2 hl, by omega, _, hl⟩

/-- **C32** (partial) A created floating point parameter's default is legal, when bounds and default
are numbers.  Missing: NaN (below). -/
theorem C32_float_default_legal_partial (name : Bytes) (l u q d : F64) (p : Param)
    (h : createNumerical ops name .float l u q d = .ok p)
    (hl : IsNum .float l) (hu : IsNum .float u) (hd : IsNum .float d) :
    p.default = .float d ∧ checkValue jen little p p.default = true ∧
    (∃ a b, num .float l = some a ∧ num .float u = some b ∧ a < b) ∧ ∃ v, Legal p v := by
  have hp := createNumerical_ok h
  have hb : floatBoundsRefused ops l u q d = false := by
    unfold createNumerical at h
    simp only at h
    split at h
    · cases h
    · rename_i hb; simpa using hb
  unfold floatBoundsRefused at hb
  simp only [Bool.or_eq_false_iff] at hb
  obtain ⟨⟨⟨⟨h1, -⟩, -⟩, h4⟩, h5⟩ := hb
  obtain ⟨a, ha⟩ := isNum_iff.1 hl
  obtain ⟨b, hb⟩ := isNum_iff.1 hu
  obtain ⟨x, hx⟩ := isNum_iff.1 hd
  have e1 := (le_iff .float u l)
  have e4 := (lt_iff .float d l)
  have e5 := (le_iff .float u d)
  simp only [NumType.le, NumType.lt] at e1 e4 e5
  rw [h1, hb, ha] at e1
  rw [h4, hx, ha] at e4
  rw [h5, hb, hx] at e5
  simp at e1 e4 e5
  have hleg : Legal p p.default := by
    subst hp
    refine ⟨d, rfl, a, x, b, ha, hx, hb, ?_, ?_⟩
    · simp only [ne_eq, show ¬ (1#32 = 0#32) by decide, not_false_eq_true, true_and]; omega
    · left; omega
  exact ⟨by rw [hp]; rfl, (checkValue_iff p _).2 hleg, ⟨a, b, ha, hb, by omega⟩, _, hleg⟩

/-- **C32** fails for NaN: whatever the bounds and quantization accepted with some ordinary default, a NaN
default is accepted too and is not a legal value. -/
theorem C32_nan_default_accepted (name : Bytes) (l u q d d' : F64) (p : Param)
    (h : createNumerical ops name .float l u q d = .ok p) (hd' : num .float d' = none) :
    ∃ p', createNumerical ops name .float l u q d' = .ok p' ∧
      checkValue jen little p' p'.default = false := by
  have hb : floatBoundsRefused ops l u q d = false := by
    unfold createNumerical at h
    simp only at h
    split at h
    · cases h
    · rename_i hb; simpa using hb
  have hn : F64.isNaN d' = true := isNaN_iff.2 hd'
  have hb' : floatBoundsRefused ops l u q d' = false := by
    unfold floatBoundsRefused at hb ⊢
    simp only [Bool.or_eq_false_iff] at hb ⊢
    obtain ⟨⟨⟨⟨h1, h2⟩, h3⟩, -⟩, -⟩ := hb
    refine ⟨⟨⟨⟨h1, h2⟩, h3⟩, ?_⟩, ?_⟩ <;> simp [F64.lt, F64.le, hn]
  have hc : createNumerical ops name .float l u q d' =
      .ok ⟨name, .float d', .numerical ⟨.float, l, u, 1#32, 0#32⟩ q⟩ := by
    unfold createNumerical
    simp only [hb']
    rfl
  refine ⟨_, hc, ?_⟩
  rw [Bool.eq_false_iff, ne_eq, checkValue_iff]
  rintro ⟨x, hx, a, y, b, -, hy, -⟩
  cases hx
  rw [show num .float d' = none from hd'] at hy
  cases hy

/-- **C32** A domain with NaN bounds is accepted although it has no legal value. -/
theorem C32_nan_bounds_accepted (name : Bytes) (l u q d : F64) (hl : num .float l = none)
    (hu : num .float u = none) (hq : F64.lt q 0#64 = false)
    (hs : F64.lt (ops.sub u l) q = false) :
    ∃ p, createNumerical ops name .float l u q d = .ok p ∧ ∀ v, ¬ Legal p v := by
  have hln : F64.isNaN l = true := isNaN_iff.2 hl
  have hun : F64.isNaN u = true := isNaN_iff.2 hu
  have hb' : floatBoundsRefused ops l u q d = false := by
    unfold floatBoundsRefused
    simp only [Bool.or_eq_false_iff]
    refine ⟨⟨⟨⟨?_, hq⟩, hs⟩, ?_⟩, ?_⟩ <;> simp [F64.lt, F64.le, hln, hun]
  refine ⟨⟨name, .float d, .numerical ⟨.float, l, u, 1#32, 0#32⟩ q⟩, ?_, ?_⟩
  · unfold createNumerical
    simp only [hb']
    rfl
  · rintro v ⟨x, -, a, y, b, ha, -⟩
    rw [show num .float l = none from hl] at ha
    cases ha

/-- **C32** An integer domain wider than the integer type: the test itself overflows. -/
theorem C32_wide_domain_undefined (name : Bytes) (l u q d : BitVec 64) (hq : 0 ≤ q.toInt)
    (hw : 2 ^ 63 ≤ u.toInt - l.toInt) : createNumerical ops name .int l u q d = .ub := by
  have : intBoundsRefused l u q d = .ub := by
    unfold intBoundsRefused
    rw [if_neg (by omega), if_neg (by omega)]
    have : sub64 u l = .ub := by unfold sub64; rw [if_neg (by omega)]
    rw [this]; rfl
  unfold createNumerical
  simp [this]

/-- Ordinary arguments are accepted, for integers and (with a subtraction that is right on them) for
doubles. -/
example : createNumerical ops [65#8] .int 0#64 10#64 0#64 3#64 =
    .ok ⟨[65#8], .int 3#64, .numerical ⟨.int, 0#64, 10#64, 1#32, 0#32⟩ 0#64⟩ := rfl
example : (createNumerical ⟨fun _ _ => 0#64, fun _ _ => one, fun _ _ => 0#64, fun _ _ => 0#64, fun _ _ => 0#64⟩
    [65#8] .float one two 0#64 one).isOk = true ∧ IsNum .float one ∧ IsNum .float two := by
  refine ⟨by decide, ?_, ?_⟩ <;> · unfold IsNum; decide +kernel
example : (BitVec.ofInt 64 (-2 ^ 62)).toInt = -2 ^ 62 ∧ (BitVec.ofInt 64 (2 ^ 62)).toInt = 2 ^ 62 := by decide

/-! ## C33 -/

/-- **C33** Creation succeeds exactly for a non-empty list (of at most 2^63 - 1 values) of listable,
pairwise different values and an index in range; the refusal code is INVALID_VALUE and nothing is
undefined. -/
theorem C33_creation_exact (kind : CatKind) (name : Bytes) (ds : List Datum) (i : Nat) :
    ((∃ p, createCategorical jen little kind name ds i = .ok p) ↔
      i < ds.length ∧ ds.length ≤ 2 ^ 63 - 1 ∧ (ds.map Datum.v).Nodup ∧
        ∀ d ∈ ds, Listable kind d.v) ∧
    ((¬ ∃ p, createCategorical jen little kind name ds i = .ok p) →
      createCategorical jen little kind name ds i = .err .invalidValue) := by
  constructor
  · constructor
    · rintro ⟨p, h⟩
      obtain ⟨d, hd, -, hn, hl, hL⟩ := createCategorical_ok h
      exact ⟨(List.getElem?_eq_some_iff.1 hd).1, hl, hn,
        fun d hd => hL _ (List.mem_map.2 ⟨d, hd, rfl⟩)⟩
    · rintro ⟨hi, hl, hn, hL⟩
      exact ⟨_, createCategorical_good (List.getElem?_eq_getElem hi) hl hn (by
        intro v hv
        obtain ⟨d, hd, rfl⟩ := List.mem_map.1 hv
        exact hL d hd)⟩
  · intro h
    rcases createCategorical_err kind name ds i with h' | h'
    · exact h'
    · exact absurd h' h

/-- **C33** After creation: the default is the value at the given index; the value check accepts
exactly the listed values; validation answers with the listed value, stored in the parameter. -/
theorem C33_created_is_the_set (kind : CatKind) (name : Bytes) (ds : List Datum) (i : Nat) (p : Param)
    (h : createCategorical jen little kind name ds i = .ok p) :
    p.name = name ∧
    (∃ d, ds[i]? = some d ∧ p.default = d.v ∧ checkValue jen little p p.default = true) ∧
    (∀ v, checkValue jen little p v = true ↔ ∃ d ∈ ds, d.v = v) ∧
    (∀ d : Datum, (∃ e ∈ ds, e.v = d.v) →
      validateValue jen little p d = (true, ⟨d.v, false, false, false⟩)) := by
  obtain ⟨d, hd, rfl, -⟩ := createCategorical_ok h
  refine ⟨rfl, ⟨d, hd, rfl, ?_⟩, fun v => ?_, fun e he => ?_⟩
  · rw [checkValue_iff]
    exact List.mem_map.2 ⟨d, List.mem_of_getElem? hd, rfl⟩
  · rw [checkValue_iff]
    exact List.mem_map
  · have : e.v ∈ ds.map Datum.v := List.mem_map.2 he
    simp only [validateValue, valueFind_eq, if_pos this]

example : (createCategorical (fun _ => 0#32) true .categorical [65#8]
    [⟨.int 1#64, false, false, false⟩, ⟨.str (some [66#8]), true, false, false⟩, ⟨.none, false, false, false⟩] 1) =
    .ok ⟨[65#8], .str (some [66#8]), .categorical .categorical [.int 1#64, .str (some [66#8]), .none]⟩ := by
  decide
example : (createCategorical (fun _ => 0#32) true .ordinal [65#8]
    [⟨.int 1#64, false, false, false⟩, ⟨.int 1#64, false, false, false⟩] 1) = .err .invalidValue := by
  decide

/-! ## C34 -/

/-- **C34** The answer for two listed values is the order of their positions in the declaration;
anything else is refused. -/
theorem C34_order_of_declaration (name : Bytes) (ds : List Datum) (idx : Nat) (p : Param)
    (h : createCategorical jen little .ordinal name ds idx = .ok p) (i j : Nat) (a b : Datum)
    (ha : ds[i]? = some a) (hb : ds[j]? = some b) :
    (ordinalCompare jen little p a.v b.v = .ok .lt ↔ i < j) ∧
    (ordinalCompare jen little p a.v b.v = .ok .eq ↔ i = j) ∧
    (ordinalCompare jen little p a.v b.v = .ok .gt ↔ j < i) := by
  obtain ⟨d, hd, rfl, hn, -⟩ := createCategorical_ok h
  have idx : ∀ k c, ds[k]? = some c →
      valueIndex jen little (ds.map Datum.v) c.v = some k := by
    intro k c hc
    unfold valueIndex
    rw [valueMatch_eq, List.findIdx?_eq_some_iff_getElem]
    have hk : k < ds.length := (List.getElem?_eq_some_iff.1 hc).1
    have hkv : ds[k] = c := (List.getElem?_eq_some_iff.1 hc).2
    refine ⟨by simpa using hk, by simp [hkv], ?_⟩
    intro m hm
    have := (List.pairwise_iff_getElem.1 hn) m k (by simp; omega) (by simp; omega) hm
    simp only [List.getElem_map, hkv] at this ⊢
    simpa using this
  simp only [ordinalCompare, idx i a ha, idx j b hb]
  rcases Nat.lt_trichotomy i j with hij | hij | hij
  · simp [hij]; omega
  · simp [hij]
  · have : ¬ i < j := by omega
    simp [hij, this]; omega

/-- **C34** Comparing a value that is not listed is refused. -/
theorem C34_unlisted_refused (name : Bytes) (ds : List Datum) (idx : Nat) (p : Param)
    (h : createCategorical jen little .ordinal name ds idx = .ok p) (a b : Value)
    (hab : a ∉ ds.map Datum.v ∨ b ∉ ds.map Datum.v) :
    ordinalCompare jen little p a b = .err .invalidValue := by
  obtain ⟨d, hd, rfl, hn, -⟩ := createCategorical_ok h
  have idx : ∀ v, v ∉ ds.map Datum.v → valueIndex jen little (ds.map Datum.v) v = none := by
    intro v hv
    unfold valueIndex
    rw [valueMatch_eq, List.findIdx?_eq_none_iff]
    intro x hx
    simp
    rintro rfl
    exact hv hx
  simp only [ordinalCompare]
  rcases hab with h | h
  · rw [idx a h]
  · rw [idx b h]
    cases valueIndex jen little (ds.map Datum.v) a <;> rfl

/-- **C34** On listed values the relation is a strict total order. -/
theorem C34_strict_total_order (name : Bytes) (ds : List Datum) (idx : Nat) (p : Param)
    (h : createCategorical jen little .ordinal name ds idx = .ok p) :
    (∀ a ∈ ds, ordinalCompare jen little p a.v a.v ≠ .ok .lt) ∧
    (∀ a ∈ ds, ∀ b ∈ ds, a.v ≠ b.v → ordinalCompare jen little p a.v b.v = .ok .lt ∨
      ordinalCompare jen little p b.v a.v = .ok .lt) ∧
    (∀ a ∈ ds, ∀ b ∈ ds, ∀ c ∈ ds, ordinalCompare jen little p a.v b.v = .ok .lt →
      ordinalCompare jen little p b.v c.v = .ok .lt → ordinalCompare jen little p a.v c.v = .ok .lt) ∧
    (∀ a ∈ ds, ∀ b ∈ ds, ordinalCompare jen little p a.v b.v = .ok .lt →
      ordinalCompare jen little p b.v a.v = .ok .gt) := by
  have key := C34_order_of_declaration jen little name ds idx p h
  refine ⟨?_, ?_, ?_, ?_⟩
  · intro a ha
    obtain ⟨i, hi⟩ := List.mem_iff_getElem?.1 ha
    rw [ne_eq, (key i i a a hi hi).1]; omega
  · intro a ha b hb hab
    obtain ⟨i, hi⟩ := List.mem_iff_getElem?.1 ha
    obtain ⟨j, hj⟩ := List.mem_iff_getElem?.1 hb
    rw [(key i j a b hi hj).1, (key j i b a hj hi).1]
    have : i ≠ j := by
      rintro rfl
      rw [hi] at hj
      cases hj
      exact hab rfl
    omega
  · intro a ha b hb c hc
    obtain ⟨i, hi⟩ := List.mem_iff_getElem?.1 ha
    obtain ⟨j, hj⟩ := List.mem_iff_getElem?.1 hb
    obtain ⟨k, hk⟩ := List.mem_iff_getElem?.1 hc
    rw [(key i j a b hi hj).1, (key j k b c hj hk).1, (key i k a c hi hk).1]
    omega
  · intro a ha b hb
    obtain ⟨i, hi⟩ := List.mem_iff_getElem?.1 ha
    obtain ⟨j, hj⟩ := List.mem_iff_getElem?.1 hb
    rw [(key i j a b hi hj).1, (key j i b a hj hi).2.2]
    exact id

example : (createCategorical (fun _ => 0#32) true .ordinal [65#8]
    [⟨.int 7#64, false, false, false⟩, ⟨.int 1#64, false, false, false⟩, ⟨.int 4#64, false, false, false⟩] 0) =
    .ok ⟨[65#8], .int 7#64, .categorical .ordinal [.int 7#64, .int 1#64, .int 4#64]⟩ := by
  decide
example : ordinalCompare (fun _ => 0#32) true
    ⟨[65#8], .int 7#64, .categorical .ordinal [.int 7#64, .int 1#64, .int 4#64]⟩ (.int 7#64) (.int 1#64) =
    .ok .lt := by decide

/-! ## C35 -/

/-- **C35** The check accepts exactly the legal values. -/
theorem C35_check_exact (p : Param) (v : Value) : checkValue jen little p v = true ↔ Legal p v :=
  checkValue_iff p v

/-- **C35** Validation answers true exactly for the legal values, with an equal value; otherwise with
INACTIVE. -/
theorem C35_validate_agrees (p : Param) (d : Datum) :
    ((validateValue jen little p d).1 = true ↔ checkValue jen little p d.v = true) ∧
    (Legal p d.v → (validateValue jen little p d).1 = true ∧ (validateValue jen little p d).2.v = d.v) ∧
    (¬ Legal p d.v → (validateValue jen little p d).1 = false ∧
      (validateValue jen little p d).2 = ⟨.inactive, false, false, false⟩) := by
  rw [checkValue_iff]
  rcases validateValue_cases (jen := jen) (little := little) p d with ⟨h, h1, h2⟩ | ⟨h, h1⟩
  · simp [h, h1, h2]
  · simp [h, h1]

/-- **C35** A validated string belongs to the parameter: it is no longer transient. -/
theorem C35_validated_not_transient (p : Param) (d : Datum)
    (h : (validateValue jen little p d).1 = true) (s : Option Bytes) (hs : d.v = .str s) :
    (validateValue jen little p d).2.transient = false := by
  unfold validateValue at *
  cases hk : p.kind with
  | numerical iv q =>
    rw [hk] at h
    simp only at h ⊢
    split at h
    · rename_i hc
      exfalso
      rw [checkValue_iff] at hc
      unfold Legal at hc
      rw [hk] at hc
      simp only at hc
      cases ht : iv.type <;> rw [ht] at hc <;> obtain ⟨x, hx, -⟩ := hc <;> rw [hs] at hx <;> cases hx
    · cases h
  | categorical k vals =>
    simp only
    cases valueFind jen little vals d.v <;> rfl
  | string =>
    simp only [hs]

/-- **C35** Many values at once: the same answers as one by one. -/
theorem C35_many_agrees (p : Param) (ds : List Datum) :
    (validateValues jen little p ds).length = ds.length ∧
    (checkValues jen little p (ds.map Datum.v)).length = ds.length ∧
    ∀ (i : Nat) d, ds[i]? = some d →
      (validateValues jen little p ds)[i]? = some (validateValue jen little p d) ∧
      (checkValues jen little p (ds.map Datum.v))[i]? = some (checkValue jen little p d.v) := by
  refine ⟨by simp [validateValues], by simp [checkValues], fun i d h => ?_⟩
  simp [validateValues, checkValues, h]

example : Legal ⟨[65#8], .int 3#64, .numerical ⟨.int, 0#64, 10#64, 1#32, 0#32⟩ 0#64⟩ (.int 3#64) := by
  rw [← C35_check_exact (fun _ => 0#32) true]; decide
example : ¬ Legal ⟨[65#8], .int 3#64, .numerical ⟨.int, 0#64, 10#64, 1#32, 0#32⟩ 0#64⟩ (.int 10#64) := by
  rw [← C35_check_exact (fun _ => 0#32) true]; decide

/-! ## C36 -/

theorem created_len {p : Param} (hp : Created ops jen little p) (k : CatKind) (vals : List Value)
    (hk : p.kind = .categorical k vals) : vals.length ≤ 2 ^ 63 - 1 := by
  cases hp with
  | numerical h => rw [createNumerical_ok h] at hk; cases hk
  | categorical h =>
    obtain ⟨d, -, rfl, -, hl, -⟩ := createCategorical_ok h
    cases hk
    simpa using hl
  | string name => cases hk

/-- **C36** Sampling a parameter from a distribution that respects its declared bounds: on success the
requested number of values, all accepted by the parameter's check. -/
theorem C36_samples_legal (p : Param) (hp : Created ops jen little p) (hprop : Proper p.interval)
    (bounds : Interval) (draw : Draws) (hd : Respects bounds draw) (n : Nat) (vs : List Value)
    (h : paramSamples p bounds draw n = .ok vs) :
    vs.length = n ∧ ∀ v ∈ vs, checkValue jen little p v = true := by
  suffices vs.length = n ∧ ∀ v ∈ vs, Legal p v from
    ⟨this.1, fun v hv => (checkValue_iff p v).2 (this.2 v hv)⟩
  unfold paramSamples at h
  split at h
  · rename_i hn
    cases h
    exact ⟨hn.symm, by simp⟩
  have hs : p.kind ≠ .string := by
    intro hk
    rw [hk] at h
    cases h
  have h : (checkOversampling bounds p.interval >>= fun over => draw 0 n >>= fun vs =>
      if over then retryLoop p draw n 6 1 2 (vs.filterMap p.keep) else convertAll p vs) = .ok vs := by
    cases hk : p.kind <;> rw [hk] at h
    · exact h
    · exact h
    · exact absurd hk hs
  obtain ⟨over, ho, h⟩ := bind_eq_ok h
  obtain ⟨ws, hw, h⟩ := bind_eq_ok h
  obtain ⟨hlen, hmem⟩ := hd 0 n ws hw
  cases over with
  | true =>
    refine retryLoop_ok ?_ (fun v hv => filterMap_legal hv) h
    exact hlen ▸ List.length_filterMap_le _ _
  | false =>
    obtain ⟨vs', h', hl', hleg⟩ := convertAll_ok (p := p) (xs := ws) fun x hx =>
      convert_of_mem hs (created_len ops jen little hp) (C31_no_oversampling_contained bounds p.interval hprop ho x (hmem x hx))
    have h : convertAll p ws = .ok vs := h
    rw [h'] at h
    cases h
    exact ⟨by omega, hleg⟩

/-- **C36** The only failures are SAMPLING_UNSUCCESSFUL, a failure of the distribution itself, a
distribution whose bounds cannot be compared with the parameter's domain, and string parameters. -/
theorem C36_failures (p : Param) (hp : Created ops jen little p) (bounds : Interval)
    (draw : Draws) (hd : Respects bounds draw) (hprop : Proper p.interval) (n : Nat) (e : Err)
    (h : paramSamples p bounds draw n = .err e) :
    e = .samplingUnsuccessful ∨ (∃ k m, draw k m = .err e) ∨
    checkOversampling bounds p.interval = .err e ∨
    (p.kind = .string ∧ e = .unsupportedOperation) := by
  unfold paramSamples at h
  split at h
  · cases h
  by_cases hs : p.kind = .string
  · rw [hs] at h
    right; right; right
    exact ⟨hs, (Out.err.inj h).symm⟩
  have h : (checkOversampling bounds p.interval >>= fun over => draw 0 n >>= fun vs =>
      if over then retryLoop p draw n 6 1 2 (vs.filterMap p.keep) else convertAll p vs) = .err e := by
    cases hk : p.kind <;> rw [hk] at h
    · exact h
    · exact h
    · exact absurd hk hs
  cases ho : checkOversampling bounds p.interval with
  | err e' => rw [ho] at h; cases h; simp
  | ub => rw [ho] at h; cases h
  | ok over =>
    rw [ho, Out.bind_ok] at h
    cases hw : draw 0 n with
    | err e' => rw [hw] at h; cases h; exact .inr (.inl ⟨_, _, hw⟩)
    | ub => rw [hw] at h; cases h
    | ok ws =>
      rw [hw, Out.bind_ok] at h
      cases over with
      | true =>
        have := (retryLoop_bad (p := p) (draw := draw) (n := n) (fuel := 6) (k := 1) (coeff := 2)
          (found := ws.filterMap p.keep) (by decide)).2 e h
        rcases this with h | h
        · exact .inl h
        · exact .inr (.inl h)
      | false =>
        obtain ⟨vs', h', -⟩ := convertAll_ok (p := p) (xs := ws) fun x hx =>
          convert_of_mem hs (created_len ops jen little hp)
            (C31_no_oversampling_contained bounds p.interval hprop ho x ((hd 0 n ws hw).2 x hx))
        have h : convertAll p ws = .err e := h
        rw [h'] at h
        cases h

/-- **C36** Sampling is not undefined unless the distribution is, or comparing the domains overflows. -/
theorem C36_defined (p : Param) (hp : Created ops jen little p) (bounds : Interval)
    (draw : Draws) (hd : Respects bounds draw) (hprop : Proper p.interval) (n : Nat)
    (hdu : ∀ k m, draw k m ≠ .ub) (hou : checkOversampling bounds p.interval ≠ .ub) :
    paramSamples p bounds draw n ≠ .ub := by
  intro h
  unfold paramSamples at h
  split at h
  · cases h
  by_cases hs : p.kind = .string
  · rw [hs] at h
    cases h
  have h : (checkOversampling bounds p.interval >>= fun over => draw 0 n >>= fun vs =>
      if over then retryLoop p draw n 6 1 2 (vs.filterMap p.keep) else convertAll p vs) = .ub := by
    cases hk : p.kind <;> rw [hk] at h
    · exact h
    · exact h
    · exact absurd hk hs
  cases ho : checkOversampling bounds p.interval with
  | err e' => rw [ho] at h; cases h
  | ub => exact hou ho
  | ok over =>
    rw [ho, Out.bind_ok] at h
    cases hw : draw 0 n with
    | err e' => rw [hw] at h; cases h
    | ub => exact hdu _ _ hw
    | ok ws =>
      rw [hw, Out.bind_ok] at h
      cases over with
      | true =>
        obtain ⟨k, m, hk⟩ := (retryLoop_bad (p := p) (draw := draw) (n := n) (fuel := 6) (k := 1)
          (coeff := 2) (found := ws.filterMap p.keep) (by decide)).1 h
        exact hdu _ _ hk
      | false =>
        obtain ⟨vs', h', -⟩ := convertAll_ok (p := p) (xs := ws) fun x hx =>
          convert_of_mem hs (created_len ops jen little hp)
            (C31_no_oversampling_contained bounds p.interval hprop ho x ((hd 0 n ws hw).2 x hx))
        have h : convertAll p ws = .ub := h
        rw [h'] at h
        cases h

/-- **C36** The number of draws is bounded: the result depends on at most six requests to the
distribution, of at most `32 n` numbers each. -/
theorem C36_draws_bounded (p : Param) (bounds : Interval) (n : Nat) (d₁ d₂ : Draws)
    (h : ∀ k m, k < 6 → m ≤ 32 * n → d₁ k m = d₂ k m) :
    paramSamples p bounds d₁ n = paramSamples p bounds d₂ n := by
  unfold paramSamples
  split
  · rfl
  have : ∀ over vs, (if over = true then retryLoop p d₁ n 6 1 2 (List.filterMap p.keep vs)
        else convertAll p vs) =
      (if over = true then retryLoop p d₂ n 6 1 2 (List.filterMap p.keep vs) else convertAll p vs) := by
    intro over vs
    split
    · exact retryLoop_congr (by decide) (by decide) (by decide) h
    · rfl
  rw [h 0 n (by omega) (by omega)]
  simp only [this]

/-- A distribution over `[0, 20)` and a parameter over `[0, 10)`: oversampling, a batch with legal and
illegal numbers, then a retry. -/
example : paramSamples ⟨[65#8], .int 3#64, .numerical ⟨.int, 0#64, 10#64, 1#32, 0#32⟩ 0#64⟩
    ⟨.int, 0#64, 20#64, 1#32, 0#32⟩
    (fun _ m => .ok ((List.range m).map fun i => BitVec.ofNat 64 (i * 7 % 20))) 4 =
    .ok [.int 0#64, .int 7#64, .int 1#64, .int 0#64] := by decide
example : Respects ⟨.int, 0#64, 20#64, 1#32, 0#32⟩
    (fun _ m => .ok ((List.range m).map fun i => BitVec.ofNat 64 (i * 7 % 20))) := by
  intro k n vs h
  cases h
  refine ⟨by simp, fun x hx => ?_⟩
  obtain ⟨i, -, rfl⟩ := List.mem_map.1 hx
  have hlt : i * 7 % 20 < 20 := Nat.mod_lt _ (by decide)
  generalize i * 7 % 20 = m at hlt
  rw [← C27_membership_exact]
  have hall : ∀ m : Fin 20, (Interval.mk .int 0#64 20#64 1#32 0#32).include (BitVec.ofNat 64 m.val) = true := by
    decide
  exact hall ⟨m, hlt⟩

/-! ## C37 -/

/-- **C37** Numerical parameters.  The array of `n` datums holds `2n` words, the raw numbers being in
the second half.  After copying the numbers kept and setting the types, datum `j` holds the `j`-th
number kept, as if the raw numbers were in another buffer. -/
theorem C37_numerical_in_place (mem raw : List (BitVec 64)) (n : Nat) (keep : BitVec 64 → Bool)
    (tf : BitVec 64) (hm : mem.length = 2 * n) (hraw : mem.drop n = raw) :
    (expandValue n keep n 0 0 mem).1 = (raw.filter keep).length ∧
    (setTypes tf n 0 (expandValue n keep n 0 0 mem).2).length = 2 * n ∧
    (∀ j, j < (raw.filter keep).length →
      (setTypes tf n 0 (expandValue n keep n 0 0 mem).2)[2 * j]? = (raw.filter keep)[j]?) ∧
    (∀ j, j < n → (setTypes tf n 0 (expandValue n keep n 0 0 mem).2)[2 * j + 1]? = some tf) := by
  have hl : raw.length = n := by rw [← hraw]; simp [hm]; omega
  obtain ⟨h1, h2, h3⟩ := expandValue_spec n keep raw hl n 0 0 mem (by omega) hm (by simp)
    (by simp) (fun j _ hj => by rw [← hraw, List.getElem?_drop])
  obtain ⟨g1, g2, g3, -⟩ := setTypes_spec tf n 0 (expandValue n keep n 0 0 mem).2 (by rw [h2]; omega)
  refine ⟨h1, by rw [g1, h2], fun j hj => by rw [g2, h3 j hj], fun j hj => g3 j (by omega) (by omega)⟩

/-- **C37** Categorical parameters: both words of each datum are written while raw numbers remain to be
read. -/
theorem C37_categorical_in_place (mem raw : List (BitVec 64)) (n : Nat)
    (lookup : BitVec 64 → Option (BitVec 64 × BitVec 64)) (hm : mem.length = 2 * n)
    (hraw : mem.drop n = raw) :
    (expandDatum n lookup n 0 0 mem).1 = (raw.filterMap lookup).length ∧
    (expandDatum n lookup n 0 0 mem).2.length = 2 * n ∧
    ∀ j, j < (raw.filterMap lookup).length →
      (expandDatum n lookup n 0 0 mem).2[2 * j]? = ((raw.filterMap lookup)[j]?).map (·.1) ∧
      (expandDatum n lookup n 0 0 mem).2[2 * j + 1]? = ((raw.filterMap lookup)[j]?).map (·.2) := by
  have hl : raw.length = n := by rw [← hraw]; simp [hm]; omega
  exact expandDatum_spec n lookup raw hl n 0 0 mem (by omega) hm (by simp) (by simp)
    (fun j _ hj => by rw [← hraw, List.getElem?_drop])

example : (expandValue 3 (fun _ => true) 3 0 0 [0, 0, 0, 11, 12, 13]).2 = [11, 0, 12, 11, 13, 13] := by
  decide
example : (expandDatum 3 (fun x => some (x, 1)) 3 0 0 [0, 0, 0, 11, 12, 13]).2 = [11, 1, 12, 1, 13, 1] := by
  decide

/-! ## C38 -/

/-- **C38** (partial) A large enough array receives all the values in order; a smaller one is refused.
Missing: the entries beyond the values, which are not set (below). -/
theorem C38_get_values_partial (vals before : List Value) :
    (before.length < vals.length → getValues vals before = .err .invalidValue) ∧
    (vals.length ≤ before.length → ∃ after, getValues vals before = .ok after ∧
      after.length = before.length ∧ ∀ i, i < vals.length → after[i]? = vals[i]?) := by
  unfold getValues
  constructor
  · intro h; rw [if_pos h]
  · intro h
    rw [if_neg (by omega), show vals.length - before.length = 0 by omega]
    refine ⟨_, rfl, ?_, fun i hi => ?_⟩
    · simp; omega
    · simp [List.getElem?_append_left hi]

/-- **C38** fails: entries of the caller's array beyond the values keep their previous contents,
whatever they are. -/
theorem C38_remaining_entries_not_set (vals before : List Value) (i : Nat)
    (hi : vals.length ≤ i) (hi' : i < before.length) :
    ∃ after, getValues vals before = .ok after ∧ after[i]? = before[i]? := by
  unfold getValues
  rw [if_neg (by omega), show vals.length - before.length = 0 by omega]
  refine ⟨_, rfl, ?_⟩
  simp only [List.range'_zero, List.foldl_nil]
  rw [List.getElem?_append_right hi, List.getElem?_drop]
  congr 1; omega

example : getValues [.int 1#64] [.int 7#64, .int 8#64] = .ok [.int 1#64, .int 8#64] := by decide

/-! ## C13 -/

/-- The strings of a parameter are C strings, its booleans fit the boolean type, and its values, of 16 bytes each, fit in
memory. -/
structure Storable (p : Param) : Prop where
  name : 0#8 ∉ p.name ∧ p.name.length + 1 < 2 ^ 64
  strings : ∀ k vals s, p.kind = .categorical k vals → .str (some s) ∈ vals →
    0#8 ∉ s ∧ s.length + 1 < 2 ^ 64
  bools : ∀ k vals b, p.kind = .categorical k vals → .bool b ∈ vals →
    (b.setWidth 32).signExtend 64 = b
  few : ∀ k vals, p.kind = .categorical k vals → vals.length < 2 ^ 60

theorem listable_writable {k : CatKind} {v : Value} (h : Listable k v)
    (hs : ∀ s, v = .str (some s) → 0#8 ∉ s ∧ s.length + 1 < 2 ^ 64) : v.Writable := by
  cases v with
  | str s =>
    cases s with
    | some s => exact hs s rfl
    | none => cases k <;> simp [Listable] at h
  | _ => trivial

theorem created_writable {p : Param} (hp : Created ops jen little p) (hs : Storable p) :
    ParamWritable p := by
  cases hp with
  | numerical h =>
    refine ⟨hs.name, ?_, ?_⟩
    · rw [createNumerical_ok h]
      rename_i t _ _ _ _
      cases t <;> trivial
    · rw [createNumerical_ok h]
      intro k vals hk; cases hk
  | categorical h =>
    obtain ⟨d, hd, rfl, -, -, hL⟩ := createCategorical_ok h
    have hw : ∀ v ∈ List.map Datum.v _, v.Writable := fun v hv =>
      listable_writable (hL v hv) (fun s hsv => hs.strings _ _ s rfl (hsv ▸ hv))
    refine ⟨hs.name, hw _ (List.mem_map.2 ⟨d, List.mem_of_getElem? hd, rfl⟩), ?_⟩
    rintro k vals ⟨⟩
    exact hw
  | string name =>
    refine ⟨hs.name, trivial, ?_⟩
    intro k vals hk; cases hk

/-- **C13** (partial) Every parameter is written in exactly the announced size, and reading it, on a
machine of any byte order, gives the same parameter with the same handle and user data, provided no
other listed value is numerically indistinguishable from a floating point default.
Missing: that last case (below); NULL user data pointers and callbacks (see C09). -/
theorem C13_parameter_round_trip_partial (little' : Bool) (p : Param)
    (hp : Created ops jen little p) (hs : Storable p) (handle : BitVec 64) (ud : Bytes)
    (hud : ud.length < 2 ^ 64)
    (hdef : ∀ k vals f g, p.kind = .categorical k vals → p.default = .float f → .float g ∈ vals →
      f ≠ g → ∃ a b, num .float f = some a ∧ num .float g = some b ∧ a ≠ b) :
    ∃ n, szParam p handle ud = .ok n ∧
      RoundTrips (serParam little p handle ud) n (deParam ops jen little') (handle, p, ud) := by
  have hw := created_writable ops jen little hp hs
  refine ⟨_, length_param p hw handle ud, _, writes_param little p hw handle ud, rfl, ?_⟩
  refine reads_param hud ?_
  cases hp with
  | numerical h => exact reads_numerical_param h hw
  | string name => exact reads_string_param hw rfl
  | categorical h =>
    rename_i kind name values index
    obtain ⟨d, hd, rfl, hn, hl, hL⟩ := createCategorical_ok h
    refine reads_categorical_param hw rfl (hs.few _ _ rfl) ?_
    have hb : ∀ v ∈ values.map Datum.v, (readBack v).v = v := by
      intro v hv
      cases v with
      | bool b => exact congrArg Value.bool (hs.bools _ _ b rfl hv)
      | _ => rfl
    have hi : (values.map Datum.v)[index]? = some d.v := by simp [hd]
    refine rebuild_values hb (hb _ (List.mem_of_getElem? hi)) hi (publicCmp_self _ _) ?_ hn
      (by simpa using hl) hL
    intro j w hj hjw he
    have hne : d.v ≠ w := by
      intro hdw
      have hil : index < (values.map Datum.v).length := (List.getElem?_eq_some_iff.1 hi).1
      have hjl : j < (values.map Datum.v).length := (List.getElem?_eq_some_iff.1 hjw).1
      have := (List.pairwise_iff_getElem.1 hn) index j hil hjl hj
      rw [(List.getElem?_eq_some_iff.1 hi).2, (List.getElem?_eq_some_iff.1 hjw).2] at this
      exact this hdw
    rcases publicCmp_eq he with h | ⟨f, g, hf, hg, hfg⟩
    · exact hne h
    · obtain ⟨a, b, ha, hb, hab⟩ := hdef _ _ f g rfl hf (hg ▸ List.mem_of_getElem? hjw)
        (by rintro rfl; exact hne (hf.trans hg.symm))
      rcases hfg with h | h | h
      · rw [ha] at h; cases h
      · rw [hb] at h; cases h
      · rw [ha, hb] at h; exact hab (Option.some.inj h)

/-- **C13** fails: the categorical parameter with values 0.0 and -0.0 and default 0.0 can be created,
and comes back with default -0.0. -/
theorem C13_default_changes (kind : CatKind) (handle : BitVec 64) :
    ∃ p p', createCategorical jen little kind [65#8]
        [⟨.float 0#64, false, false, false⟩, ⟨.float 0x8000000000000000#64, false, false, false⟩] 0 = .ok p ∧
      p.default = .float 0#64 ∧ p'.default = .float 0x8000000000000000#64 ∧
      ∃ n, szParam p handle [] = .ok n ∧
        RoundTrips (serParam little p handle []) n (deParam ops jen little) (handle, p', []) := by
  have hL : ∀ v ∈ [Value.float 0#64, Value.float 0x8000000000000000#64], Listable kind v := by
    intro v hv
    simp only [List.mem_cons, List.not_mem_nil, or_false] at hv
    cases kind <;> rcases hv with rfl | rfl <;> simp [Listable]
  have hc := createCategorical_good (jen := jen) (little := little) (kind := kind) (name := [65#8])
    (ds := [⟨.float 0#64, false, false, false⟩, ⟨.float 0x8000000000000000#64, false, false, false⟩])
    (i := 0) rfl (by simp) (by decide) hL
  refine ⟨_, ⟨[65#8], .float 0x8000000000000000#64, .categorical kind [.float 0#64, .float 0x8000000000000000#64]⟩,
    hc, rfl, rfl, ?_⟩
  have hw := created_writable ops jen little (.categorical hc) ⟨by simp,
    by rintro k vals s ⟨⟩ h; simp at h, by rintro k vals s ⟨⟩ h; simp at h, by rintro k vals ⟨⟩; simp⟩
  refine ⟨_, length_param _ hw handle [], _, writes_param little _ hw handle [], rfl, ?_⟩
  refine reads_param (by decide) (reads_categorical_param hw rfl (by simp) ?_)
  refine rebuild_values (i := 1) (by simp [readBack]) rfl rfl ?_ ?_ (by decide) (by simp) hL
  · show publicDatumCmp little (.float 0#64) _ = .eq
    cases little <;> decide
  · intro j w hj hjw
    rcases j with _ | _ | j
    · omega
    · omega
    · simp at hjw

example : Storable ⟨[65#8], .int 7#64, .categorical .ordinal [.int 7#64, .str (some [66#8]), .bool 1#64]⟩ := by
  refine ⟨by decide, ?_, ?_, by rintro k vals ⟨⟩; simp⟩
  · rintro k vals s ⟨⟩ h
    simp at h
    subst h
    decide
  · rintro k vals b ⟨⟩ h
    simp at h
    subst h
    decide

/-! ## C09 -/

/-- **C09** fails for parameters: a categorical parameter announced with `2^60 + k` values gets a block for `k` of them, because
the size of the block wraps around, and the next one is written past its end. -/
theorem C09_parameter_overflow {k : Nat} (hk : k < 2 ^ 60) {p : Param} (hw : ParamWritable p) {kind : CatKind} {vals : List Value}
    (hp : p.kind = .categorical kind vals) (hl : vals.length = k + 1) (handle : BitVec 64) (tail : Bytes) :
    deParam ops jen little (objBytes parameterType handle ++ (paramCommonBytes p ++
      (lebBytes (BitVec.ofNat 64 (2 ^ 60 + k)) ++ (vals.flatMap datumBytes ++ tail)))) = .ub := by
  have e2 : deParamBody ops jen little p.kind.code = deCategorical jen little := by
    rw [hp]; cases kind <;> rfl
  unfold deParam
  rw [Rd.bind_eq, (decodes_obj _ _).1, Out.bind_ok]
  simp only
  rw [refute_false (by simp), Rd.bind_eq, Rd.lift_ok, Out.bind_ok, Rd.bind_eq]
  unfold Rd.peek
  simp only
  have e : paramCommonBytes p = lebBytes p.kind.code ++ (paramCommonBytes p).drop (lebBytes p.kind.code).length := by
    unfold paramCommonBytes; simp
  have h1 : deEnum (paramCommonBytes p ++ (lebBytes (BitVec.ofNat 64 (2 ^ 60 + k)) ++ (vals.flatMap datumBytes ++ tail))) =
      .ok (p.kind.code, (paramCommonBytes p).drop (lebBytes p.kind.code).length ++
        (lebBytes (BitVec.ofNat 64 (2 ^ 60 + k)) ++ (vals.flatMap datumBytes ++ tail))) := by
    rw [e, List.append_assoc, (decodes_enum p.kind.code).1]
    simp
  rw [h1]
  show (deParamBody ops jen little p.kind.code >>= fun q => deUserData >>= fun ud => pure (handle, q, ud)) _ = _
  rw [Rd.bind_eq, e2]
  unfold deCategorical
  rw [Rd.bind_eq, (decodes_paramCommon little p hw).1, Out.bind_ok]
  simp only
  rw [Rd.bind_eq, (decodes_size (n := 2 ^ 60 + k) (by omega)).1, Out.bind_ok]
  simp only
  rw [Rd.bind_eq, fill_ub (f := readBack) vals (2 ^ 60 + k) 0
    (fun v hv => (decodes_datum little v (hw.values kind vals hp v hv)).1) (by omega) (by omega) (by omega)]
  rfl

/-- The hypotheses are met: one value announced as `2^60`. -/
example : ParamWritable ⟨[65#8], .int 7#64, .categorical .ordinal [.int 7#64]⟩ :=
  ⟨by decide, trivial, by rintro k vals ⟨⟩ v hv; simp at hv; subst hv; trivial⟩

end

end CCS.Props
