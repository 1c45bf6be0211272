import Verif.Model.Default
import Verif.Props.Param
import Verif.Props.Distribution

/-!
# C113: default distributions
-/

namespace CCS.Props

open CCS CCS.Spec

variable {σ : Type} (M : Machine σ) (jen : Bytes → BitVec 32) (little : Bool)

/-- What a created numerical parameter of integers satisfies. -/
theorem numerical_int_bounds {ops : FloatOps} {name : Bytes} {l u q d : BitVec 64} {p : Param}
    (h : createNumerical ops name .int l u q d = .ok p) :
    l.toInt < u.toInt ∧ 0 ≤ q.toInt ∧ u.toInt - l.toInt < 2 ^ 63 ∧ q.toInt ≤ u.toInt - l.toInt ∧
      l.toInt ≤ d.toInt ∧ d.toInt < u.toInt := by
  by_cases hw : u.toInt - l.toInt < 2 ^ 63
  · by_cases hc : l.toInt < u.toInt ∧ 0 ≤ q.toInt ∧ q.toInt ≤ u.toInt - l.toInt ∧ l.toInt ≤ d.toInt ∧ d.toInt < u.toInt
    · exact ⟨hc.1, hc.2.1, hw, hc.2.2.1, hc.2.2.2⟩
    · rw [(C32_int_creation_exact ops name l u q d hw).2 hc] at h; cases h
  · by_cases hq : 0 ≤ q.toInt
    · rw [C32_wide_domain_undefined ops name l u q d hq (by omega)] at h; cases h
    · unfold createNumerical intBoundsRefused at h
      simp only at h
      rw [if_neg (by omega), if_pos (by omega)] at h
      cases h

theorem uniform_of_int {l u q : BitVec 64} (h1 : l.toInt < u.toInt) (h2 : 0 ≤ q.toInt) (h3 : u.toInt - l.toInt < 2 ^ 63)
    (h4 : q.toInt ≤ u.toInt - l.toInt) :
    ∃ d, createUniform M .int l u false q = .ok d ∧ d.dim = 1 ∧ d.types = [.int] ∧ d.bounds = [⟨.int, l, u, 1#32, 0#32⟩] := by
  unfold createUniform Uniform.check Uniform.fill
  simp only [Bool.false_eq_true, false_and, false_or]
  rw [if_neg (by omega), intRange_of (by omega) h3]
  simp only [Out.bind_ok, toInt_ofInt64 (show -2 ^ 63 ≤ u.toInt - l.toInt by omega) h3]
  rw [refute, if_neg (by omega)]
  simp only [Out.bind_ok, if_false]
  by_cases h0 : q = 0#64
  · rw [if_pos h0]
    exact ⟨_, rfl, rfl, rfl, rfl⟩
  · rw [if_neg h0]
    have hqp : 0 < q.toInt := by
      rcases Int.lt_or_eq_of_le h2 with h | h
      · exact h
      · exact absurd (BitVec.eq_of_toInt_eq (by rw [← h]; rfl)) h0
    have e : (u.toInt - l.toInt).tdiv q.toInt = (u.toInt - l.toInt) / q.toInt := Int.tdiv_eq_ediv_of_nonneg (by omega)
    have b1 : 0 ≤ (u.toInt - l.toInt) / q.toInt := Int.ediv_nonneg (by omega) h2
    have b2 : (u.toInt - l.toInt) / q.toInt ≤ u.toInt - l.toInt := Int.ediv_le_self _ (by omega)
    rw [e, intRange_of (by omega) (by omega)]
    exact ⟨_, rfl, rfl, rfl, rfl⟩

/-- **C113** Every parameter that is not a string has a default distribution: of one dimension, of the type of the parameter, and whose
bounds are the domain of the parameter. -/
theorem C113_exists {p : Param} (hp : Created M.ops jen little p) (hs : p.kind ≠ .string) :
    ∃ d, defaultDistribution M p = .ok d ∧ d.dim = 1 ∧ d.types = [p.interval.type] ∧ d.bounds = [p.interval] := by
  cases hp with
  | @numerical name t l u q d p h =>
    obtain rfl := createNumerical_ok h
    cases t with
    | int =>
      obtain ⟨h1, h2, h3, h4, -, -⟩ := numerical_int_bounds h
      exact uniform_of_int M h1 h2 h3 h4
    | float =>
      have hb : floatBoundsRefused M.ops l u q d = false := by
        unfold createNumerical at h
        simp only at h
        split at h
        · cases h
        · next hb => simpa using hb
      unfold floatBoundsRefused at hb
      simp only [Bool.or_eq_false_iff] at hb
      obtain ⟨⟨⟨⟨h1, h2⟩, h3⟩, -⟩, -⟩ := hb
      have h2' : F64.lt q F64.zero = false := h2
      have e : Uniform.check M .float l u false q = .ok () := by
        simp only [Uniform.check, refute, h1, h2', h3, Bool.false_eq_true, false_and, or_self, if_false]
      unfold defaultDistribution createUniform
      simp only [e, Uniform.fill, Out.bind_ok]
      exact ⟨_, rfl, rfl, rfl, rfl⟩
  | @categorical kind name values index p h =>
    obtain ⟨d, hd, rfl, -, hl, -⟩ := createCategorical_ok h
    have hpos : 0 < values.length := by
      have := (List.getElem?_eq_some_iff.1 hd).1
      omega
    have hi : (BitVec.ofNat 64 values.length).toInt = values.length := by
      rw [BitVec.toInt_eq_toNat_cond, BitVec.toNat_ofNat, Nat.mod_eq_of_lt (by omega), if_pos (by omega)]
    have := uniform_of_int M (l := 0#64) (u := BitVec.ofNat 64 values.length) (q := 0#64) (by rw [hi]; simp; omega) (by decide)
      (by rw [hi]; simp; omega) (by rw [hi]; simp)
    simpa [defaultDistribution, Param.interval] using this
  | string name => exact absurd rfl hs

/-- **C113** A string has none. -/
theorem C113_string (name : Bytes) : defaultDistribution M (createString name) = .err .unsupportedOperation := rfl

/-- **C113** Sampling a parameter with its default distribution never takes the path that filters samples. -/
theorem C113_no_filter {p : Param} (hp : Created M.ops jen little p) (hs : p.kind ≠ .string) (hprop : Proper p.interval)
    {d : Sampler σ} (hd : defaultDistribution M p = .ok d) :
    d.bounds.map (fun b => checkOversampling b p.interval) = [.ok false] := by
  obtain ⟨d', h1, -, -, h4⟩ := C113_exists M jen little hp hs
  rw [hd] at h1
  obtain rfl := Out.ok.inj h1
  rw [h4]
  simp only [List.map_cons, List.map_nil, List.cons.injEq, and_true]
  have hlt : ∀ (t : NumType) (a : BitVec 64), t.lt a a = false := by
    intro t a
    cases h : t.lt a a with
    | false => rfl
    | true =>
      obtain ⟨x, y, hx, hy, hxy⟩ := (lt_iff t a a).1 h
      rw [hx] at hy; cases hy; omega
  have hint : p.interval.intersect p.interval = .ok p.interval := by
    unfold Interval.intersect mergeMax mergeMin
    simp [hlt]
  have hints : ∀ l u : BitVec 64, l.toInt < u.toInt →
      Interval.equal ⟨.int, l, u, 1#32, 0#32⟩ ⟨.int, l, u, 1#32, 0#32⟩ = .ok true := by
    intro l u h
    have := BitVec.le_toInt l
    simp [Interval.equal, Interval.closedLower, Interval.closedUpper, truthy, decr64]
    rw [if_neg (by omega)]
    simp
  have heq : p.interval.equal p.interval = .ok true := by
    clear hint h4 hd
    cases hp with
    | @numerical name t l u q d p h =>
      obtain rfl := createNumerical_ok h
      cases t with
      | int => exact hints l u (numerical_int_bounds h).1
      | float =>
        have hf : ∀ x, IsNum .float x → F64.feq x x = true := fun x hx => by
          obtain ⟨a, ha⟩ := Option.ne_none_iff_exists'.1 hx
          exact (feq_iff x x).2 ⟨a, ha, ha⟩
        have h1 : F64.feq l l = true := hf l hprop.1
        have h2 : F64.feq u u = true := hf u hprop.2
        simp [Interval.equal, Param.interval, h1, h2]
    | @categorical kind name values index p h =>
      obtain ⟨d, hd, rfl, -, hl, -⟩ := createCategorical_ok h
      have := (List.getElem?_eq_some_iff.1 hd).1
      simp only [Param.interval, List.length_map]
      refine hints _ _ ?_
      rw [BitVec.toInt_eq_toNat_cond, BitVec.toInt_eq_toNat_cond]
      simp only [BitVec.toNat_ofNat, Nat.mod_eq_of_lt (show values.length < 2 ^ 64 by omega)]
      simp; omega
    | string name => exact absurd rfl hs
  unfold checkOversampling
  rw [hint]
  simp only [Out.bind_ok]
  rw [heq]; rfl

/-- **C113** (partial) Every sample of the default distribution of an integer, categorical, ordinal or discrete parameter stands for a legal value of the
parameter, in every layout, and sampling succeeds unless there are more values than the generator can choose from.  Missing for the full
claim: doubles (`C113_float_sample_illegal`). -/
theorem C113_samples_legal_partial {range : Nat} (hM : GslInt M range) {p : Param} (hp : Created M.ops jen little p)
    (hs : p.kind ≠ .string) (ht : p.interval.type = .int) {d : Sampler σ} (hd : defaultDistribution M p = .ok d) :
    (∀ n g rows g', Layouts d n g (some (.ok (rows, g'))) →
      rows.length = n ∧ ∀ row ∈ rows, ∃ v x, row = [v] ∧ p.convert v = .ok x ∧ Legal p x) ∧
    (p.interval.upper.toInt - p.interval.lower.toInt ≤ range → ∀ n g, ∃ rows g', Layouts d n g (some (.ok (rows, g')))) := by
  obtain ⟨q, hq, hu⟩ : ∃ q : BitVec 64, (q ≠ 0#64 → 1 ≤ q.toInt) ∧
      createUniform M .int p.interval.lower p.interval.upper false q = .ok d := by
    cases hp with
    | @numerical name t l u q dv p h =>
      obtain rfl := createNumerical_ok h
      obtain rfl : t = .int := ht
      refine ⟨q, fun h0 => ?_, hd⟩
      have := (numerical_int_bounds h).2.1
      rcases Int.lt_or_eq_of_le this with h | h
      · exact h
      · exact absurd (BitVec.eq_of_toInt_eq (by rw [← h]; rfl)) h0
    | @categorical kind name values index p h =>
      obtain ⟨dv, hdv, rfl, -, hl, -⟩ := createCategorical_ok h
      exact ⟨0#64, fun h => absurd rfl h, hd⟩
    | string name => exact absurd rfl hs
  obtain ⟨hlt, hq0, hw, hqw, -⟩ := uniform_int_ok hu
  have hsteps : steps p.interval.lower p.interval.upper q ≤ p.interval.upper.toInt - p.interval.lower.toInt := by
    unfold steps
    split
    · omega
    · exact Int.ediv_le_self _ (by omega)
  constructor
  · intro n g rows g' hlay
    have hb := C83_uniform_int_partial hM hu n g rows g' hlay
    obtain ⟨_, _, _, _, k, hk, u, hu', hd'⟩ := uniform_int_ok hu
    have hrows := (hlay.contiguous 0)
    simp only [Fills] at hrows
    obtain ⟨hr1, hr2, -⟩ := hrows
    refine ⟨hr1, fun row hrow => ?_⟩
    have hlen := hr2 row hrow
    rw [hd'] at hlen
    obtain ⟨v, rfl⟩ := List.length_eq_one_iff.1 hlen
    have hm : Mem ⟨.int, p.interval.lower, p.interval.upper, 1#32, 0#32⟩ v := by
      refine hb _ hrow 0 v _ rfl ?_
      rw [hd', hu']; rfl
    refine ⟨v, ?_⟩
    clear hd
    cases hp with
    | @numerical name t l u q dv p h =>
      obtain rfl := createNumerical_ok h
      obtain rfl : t = .int := ht
      exact ⟨.int v, rfl, rfl, v, rfl, hm⟩
    | @categorical kind name values index p h =>
      obtain ⟨dv, hdv, rfl, -, hl, -⟩ := createCategorical_ok h
      obtain ⟨a, x, b, h1, h2, h3, h4, h5⟩ := hm
      simp only [num, Option.some.injEq, Param.interval, List.length_map] at h1 h2 h3
      simp only [ne_eq, not_true_eq_false, false_and, or_false] at h5
      have hi : (BitVec.ofNat 64 values.length).toInt = values.length := by
        rw [BitVec.toInt_eq_toNat_cond, BitVec.toNat_ofNat, Nat.mod_eq_of_lt (by omega), if_pos (by omega)]
      have h10 : (0#64).toInt = 0 := rfl
      have hnn : 0 ≤ v.toInt := by omega
      have hv : (v.toNat : Int) = v.toInt := by
        rw [BitVec.toInt_eq_toNat_cond] at hnn ⊢
        split <;> split at hnn <;> have := v.isLt <;> omega
      have hlt : v.toNat < (values.map Datum.v).length := by rw [List.length_map]; omega
      refine ⟨(values.map Datum.v)[v.toNat], rfl, ?_, ?_⟩
      · simp only [Param.convert]
        rw [if_neg (by omega), List.getElem?_eq_getElem hlt]
      · exact List.getElem_mem hlt
    | string name => exact absurd rfl hs
  · intro hr n g
    obtain ⟨rows, g', h, -⟩ := C75_uniform_int_partial hM hu (by omega) n g
    exact ⟨rows, g', h⟩

/-- **C113** Every value of a categorical, ordinal or discrete parameter is drawn for one of the answers of the generator. -/
theorem C113_every_value {name : Bytes} {kind : CatKind} {values : List Datum} {index : Nat} {p : Param}
    (h : createCategorical jen little kind name values index = .ok p) {d : Sampler σ} (hd : defaultDistribution M p = .ok d)
    {x : Value} (hx : Legal p x) :
    ∃ j v : BitVec 64, j.toNat < values.length ∧ p.convert v = .ok x ∧ ∀ g g',
      M.uniformInt g (BitVec.ofNat 64 values.length) = some (j, g') → Layouts d 1 g (some (.ok ([[v]], g'))) := by
  obtain ⟨dv, hdv, rfl, -, hl, -⟩ := createCategorical_ok h
  obtain ⟨i, hi, rfl⟩ := List.mem_iff_getElem.1 (show x ∈ values.map Datum.v from hx)
  have hi' : i < values.length := by simpa using hi
  have hn : (BitVec.ofNat 64 values.length).toInt = values.length := by
    rw [BitVec.toInt_eq_toNat_cond, BitVec.toNat_ofNat, Nat.mod_eq_of_lt (by omega), if_pos (by omega)]
  have hv : (BitVec.ofNat 64 i).toInt = i := by
    rw [BitVec.toInt_eq_toNat_cond, BitVec.toNat_ofNat, Nat.mod_eq_of_lt (by omega), if_pos (by omega)]
  have hd' : createUniform M .int 0#64 (BitVec.ofNat 64 values.length) false 0#64 = .ok d := by
    simpa [defaultDistribution, Param.interval] using hd
  have h10 : (0#64).toInt = 0 := rfl
  obtain ⟨j, hj, -, hj'⟩ := C75_every_value_partial hd' (BitVec.ofNat 64 i) (by rw [hv]; omega) (by rw [hv, hn]; omega)
    (by rw [hv, hn]; omega) (fun h => absurd rfl h)
  have hst : steps 0#64 (BitVec.ofNat 64 values.length) 0#64 = values.length := by
    rw [steps, if_pos rfl, hn]; omega
  rw [hst] at hj hj'
  refine ⟨j, BitVec.ofNat 64 i, by omega, ?_, fun g g' hg => hj' g g' (by simpa using hg)⟩
  simp only [Param.convert]
  rw [if_neg (by rw [hv]; omega), BitVec.toNat_ofNat, Nat.mod_eq_of_lt (by omega), List.getElem?_eq_getElem hi]

/-- A double parameter from 1 to the next double. -/
def exNarrow : Out Param := createNumerical ieee [65#8] .float F64.one 0x3ff0000000000001#64 0#64 F64.one

/-- **C113** fails for doubles: the default distribution gives the upper bound, which is outside the domain, and the sample is not filtered since
the bounds of the distribution are the domain. -/
theorem C113_float_sample_illegal :
    ∃ p, exNarrow = .ok p ∧ peek (defaultDistribution exFlat p) (·.callSamples 1 (some 0)) [0] = some (.ok [0x3ff0000000000001#64]) ∧
      checkOversampling p.interval p.interval = .ok false ∧ p.convert 0x3ff0000000000001#64 = .ok (.float 0x3ff0000000000001#64) ∧
      ¬ Legal p (.float 0x3ff0000000000001#64) := by
  refine ⟨⟨[65#8], .float F64.one, .numerical ⟨.float, F64.one, 0x3ff0000000000001#64, 1#32, 0#32⟩ 0#64⟩, by decide +kernel, by decide +kernel,
    by decide +kernel, by decide +kernel, ?_⟩
  rintro ⟨x, h, hm⟩
  cases h
  exact C83_float_upper.2.2 hm

/-- A list of three values and an interval of integers meet the hypotheses. -/
example : ∃ p d, createCategorical jen little .categorical [65#8] [⟨.int 1#64, false, false, false⟩, ⟨.bool 1#64, false, false, false⟩,
    ⟨.str (some [66#8]), false, false, false⟩] 0 = .ok p ∧ Created exMachine.ops jen little p ∧ p.interval.type = .int ∧
    p.interval.upper.toInt - p.interval.lower.toInt ≤ 4294967295 ∧ defaultDistribution exMachine p = .ok d := by
  obtain ⟨p, hp⟩ := ((C33_creation_exact jen little .categorical [65#8] [⟨.int 1#64, false, false, false⟩, ⟨.bool 1#64, false, false, false⟩,
    ⟨.str (some [66#8]), false, false, false⟩] 0).1).2 ⟨by simp, by simp, by simp, by
      intro d hd
      simp only [List.mem_cons, List.not_mem_nil, or_false] at hd
      rcases hd with rfl | rfl | rfl <;> simp [Listable]⟩
  have hc : Created exMachine.ops jen little p := .categorical hp
  obtain ⟨dv, -, rfl, -⟩ := createCategorical_ok hp
  obtain ⟨d, hd, -⟩ := C113_exists exMachine jen little hc (by simp)
  exact ⟨_, d, hp, hc, rfl, by simp [Param.interval], hd⟩

end CCS.Props
