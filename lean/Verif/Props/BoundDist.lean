import Verif.Spec.BoundDist
import Verif.Props.BoundInterval
import Verif.Props.DistWire
import Verif.Props.Getters

/-!
# C156: distributions made and questioned from Python and Ruby
-/

namespace CCS.Props.BoundDist

open CCS CCS.Spec CCS.BoundInterval CCS.BoundInterval.Spec CCS.BoundDist CCS.BoundDist.Spec CCS.Props.BoundInterval

variable {σ : Type} {M : Machine σ} {lang : Lang} {toDouble : Int → Out F64}

/-! ## The creation functions, taken apart -/

theorem number_read {t : NumType} {n : Number} (hf : Fits t n) {x : BitVec 64} (h : lang.numeric toDouble t n = .ok x) : read t x = n := by
  obtain ⟨y, h1, h2⟩ := numeric_fits lang toDouble hf
  rw [h1] at h
  rw [← Out.ok.inj h]; exact h2

theorem read_fits (t : NumType) (x : BitVec 64) : Fits t (read t x) := by
  cases t with
  | float => trivial
  | int =>
    have h1 := BitVec.le_toInt x
    have h2 := BitVec.toInt_lt (x := x)
    exact ⟨by simpa using h1, by simpa using h2⟩

theorem read_inj {t : NumType} {x y : BitVec 64} (h : read t x = read t y) : x = y := by
  cases t with
  | float => exact Number.float.inj h
  | int => exact BitVec.eq_of_toInt_eq (Number.int.inj h)

/-- A number read back is given again as the same bits. -/
theorem number_back (t : NumType) (x : BitVec 64) : lang.numeric toDouble t (read t x) = .ok x := by
  obtain ⟨y, h1, h2⟩ := numeric_fits lang toDouble (read_fits t x)
  rw [h1, read_inj h2]

theorem doubles_back : ∀ xs : List F64, doubles lang toDouble (xs.map .float) = .ok xs
  | [] => rfl
  | x :: xs => by
    show (lang.numeric toDouble .float (.float x) >>= fun y => doubles lang toDouble (xs.map .float) >>= fun ys => .ok (y :: ys)) = _
    rw [show lang.numeric toDouble .float (.float x) = .ok x from rfl, doubles_back xs]; rfl

theorem doubles_length : ∀ {ns : List Number} {xs : List F64}, doubles lang toDouble ns = .ok xs → xs.length = ns.length
  | [], xs, h => by cases h; rfl
  | n :: ns, xs, h => by
    obtain ⟨y, -, h⟩ := bind_eq_ok (show (_ >>= _) = _ from h)
    obtain ⟨ys, h1, h⟩ := bind_eq_ok h
    cases h
    simp [doubles_length h1]

theorem uniform_ok {t : NumType} {lower upper quantization : Option Number} {log : Option Bool} {d : DistObj}
    (h : BoundDist.createUniform M lang toDouble t lower upper log quantization = .ok d) :
    ∃ l u q, lang.numeric toDouble t (lower.getD (zeroOf t)) = .ok l ∧ lang.numeric toDouble t (upper.getD (topOf t)) = .ok u ∧
      lang.numeric toDouble t (quantization.getD (zeroOf t)) = .ok q ∧ DistObj.newUniform M t l u (log.getD false) q = .ok d := by
  obtain ⟨l, h1, h⟩ := bind_eq_ok (show (_ >>= _) = _ from h)
  obtain ⟨u, h2, h⟩ := bind_eq_ok h
  obtain ⟨q, h3, h⟩ := bind_eq_ok h
  exact ⟨l, u, q, h1, h2, h3, h⟩

theorem normal_ok {t : NumType} {mu sigma quantization : Option Number} {log : Option Bool} {d : DistObj}
    (h : BoundDist.createNormal lang toDouble t mu sigma log quantization = .ok d) :
    ∃ m s q, lang.numeric toDouble .float (mu.getD (.float 0#64)) = .ok m ∧ lang.numeric toDouble .float (sigma.getD (.float F64.one)) = .ok s ∧
      lang.numeric toDouble t (quantization.getD (zeroOf t)) = .ok q ∧ DistObj.newNormal t m s (log.getD false) q = .ok d := by
  obtain ⟨l, h1, h⟩ := bind_eq_ok (show (_ >>= _) = _ from h)
  obtain ⟨u, h2, h⟩ := bind_eq_ok h
  obtain ⟨q, h3, h⟩ := bind_eq_ok h
  exact ⟨l, u, q, h1, h2, h3, h⟩

theorem newUniform_shape {t : NumType} {l u q : BitVec 64} {log : Bool} {d : DistObj} (h : DistObj.newUniform M t l u log q = .ok d) :
    ∃ v : Uniform, d = .uniform v [] ∧ v.type = t ∧ v.lower = l ∧ v.upper = u ∧ v.log = log ∧ v.quantization = q := by
  obtain ⟨⟨⟩, -, h⟩ := bind_eq_ok (show (_ >>= _) = _ from h)
  obtain ⟨v, hv, h⟩ := bind_eq_ok h
  cases h
  refine ⟨v, rfl, ?_⟩
  unfold Uniform.fill at hv
  cases t with
  | float =>
    simp only at hv
    split at hv <;> cases hv <;> exact ⟨rfl, rfl, rfl, by simp_all, rfl⟩
  | int =>
    simp only at hv
    split at hv
    · cases hv; exact ⟨rfl, rfl, rfl, rfl, rfl⟩
    · obtain ⟨w, -, hv⟩ := bind_eq_ok hv
      have hf : log = false := by cases log <;> simp_all
      subst hf
      split at hv
      · cases hv; exact ⟨rfl, rfl, rfl, rfl, rfl⟩
      · obtain ⟨k, -, hv⟩ := bind_eq_ok hv
        cases hv; exact ⟨rfl, rfl, rfl, rfl, rfl⟩

theorem newNormal_shape {t : NumType} {m s : F64} {q : BitVec 64} {log : Bool} {d : DistObj} (h : DistObj.newNormal t m s log q = .ok d) :
    ∃ v : Normal, d = .normal v [] ∧ v.type = t ∧ v.mu = m ∧ v.sigma = s ∧ v.log = log ∧ v.quantization = q := by
  obtain ⟨⟨⟩, -, h⟩ := bind_eq_ok (show (_ >>= _) = _ from h)
  obtain ⟨⟨⟩, -, h⟩ := bind_eq_ok h
  cases h
  exact ⟨_, rfl, rfl, rfl, rfl, rfl, rfl⟩

theorem mixture_ok {ds : List DistObj} {ws : Option (List Number)} {d : DistObj} (h : BoundDist.createMixture M lang toDouble ds ws = .ok d) :
    ∃ xs, weightsGiven lang toDouble ds.length ws = .ok xs ∧ DistObj.newMixture M ds xs = .ok d :=
  bind_eq_ok (show (_ >>= _) = _ from h)

theorem multivariate_ok {ds : List DistObj} {ws : Option (List Number)} {d : DistObj} (h : BoundDist.createMultivariate M lang ds ws = .ok d) :
    DistObj.newMultivariate M ds = .ok d := by
  unfold BoundDist.createMultivariate at h
  split at h
  · cases h
  · exact h

theorem newMixture_shape {ds : List DistObj} {ws : List F64} {d : DistObj} (h : DistObj.newMixture M ds ws = .ok d) :
    ∃ m, d = .mixture m ds [] := by
  obtain ⟨_, _, _, _, -, -, -, -, rfl⟩ := DistObj.newMixture_iff.mp h
  exact ⟨_, rfl⟩

theorem newMultivariate_shape {ds : List DistObj} {d : DistObj} (h : DistObj.newMultivariate M ds = .ok d) : d = .multivariate ds [] := by
  obtain ⟨_, -, h⟩ := bind_eq_ok (show (_ >>= _) = _ from h)
  exact (Out.ok.inj h).symm

/-! ## Classes -/

theorem class_uniform (M : Machine σ) (v : Uniform) (data : Bytes) : fromHandle M (.uniform v data) = .ok (uniformClass v.type) := by
  have e : ((DistObj.uniform v data).sampler M).types = [v.type] := by rw [DistObj.sampler]
  show (match ((DistObj.uniform v data).sampler M).types with
    | [.float] => Out.ok Class.uniformFloat | [.int] => .ok .uniformInt | [] => .err .invalidDistribution | _ => .ub) = _
  rw [e]; cases v.type <;> rfl

theorem class_normal (M : Machine σ) (v : Normal) (data : Bytes) : fromHandle M (.normal v data) = .ok (normalClass v.type) := by
  have e : ((DistObj.normal v data).sampler M).types = [v.type] := by rw [DistObj.sampler]
  show (match ((DistObj.normal v data).sampler M).types with
    | [.float] => Out.ok Class.normalFloat | [.int] => .ok .normalInt | [] => .err .invalidDistribution | _ => .ub) = _
  rw [e]; cases v.type <;> rfl

/-- **C156** The object made later for a distribution has the class it was created with. -/
theorem C156_class (d : DistObj) :
    (∀ t l u g q, BoundDist.createUniform M lang toDouble t l u g q = .ok d → fromHandle M d = .ok (uniformClass t)) ∧
    (∀ t m s g q, BoundDist.createNormal lang toDouble t m s g q = .ok d → fromHandle M d = .ok (normalClass t)) ∧
    (∀ xs, BoundDist.createRoulette M.ops lang toDouble xs = .ok d → fromHandle M d = .ok .roulette) ∧
    (∀ ds ws, BoundDist.createMixture M lang toDouble ds ws = .ok d → fromHandle M d = .ok .mixture) ∧
    (∀ ds ws, BoundDist.createMultivariate M lang ds ws = .ok d → fromHandle M d = .ok .multivariate) := by
  refine ⟨fun t l u g q h => ?_, fun t m s g q h => ?_, fun xs h => ?_, fun ds ws h => ?_, fun ds ws h => ?_⟩
  · obtain ⟨_, _, _, -, -, -, h⟩ := uniform_ok h
    obtain ⟨v, rfl, rfl, -⟩ := newUniform_shape h
    exact class_uniform M v []
  · obtain ⟨_, _, _, -, -, -, h⟩ := normal_ok h
    obtain ⟨v, rfl, rfl, -⟩ := newNormal_shape h
    exact class_normal M v []
  · obtain ⟨_, -, h⟩ := bind_eq_ok (show (_ >>= _) = _ from h)
    obtain ⟨r, -, rfl⟩ := DistObj.newRoulette_iff.mp h
    rfl
  · obtain ⟨_, -, h⟩ := mixture_ok h
    obtain ⟨m, rfl⟩ := newMixture_shape h
    rfl
  · rw [newMultivariate_shape (multivariate_ok h)]; rfl

/-! ## Properties read back -/

theorem shown_uniform (v : Uniform) (data : Bytes) (x : BitVec 64) : shown M (.uniform v data) (some x) = .ok (read v.type x) := by
  have e : ((DistObj.uniform v data).sampler M).types = [v.type] := by rw [DistObj.sampler]
  unfold shown dataType
  rw [e]; rfl

theorem shown_normal (v : Normal) (data : Bytes) (x : BitVec 64) : shown M (.normal v data) (some x) = .ok (read v.type x) := by
  have e : ((DistObj.normal v data).sampler M).types = [v.type] := by rw [DistObj.sampler]
  unfold shown dataType
  rw [e]; rfl

theorem uniform_answers (M : Machine σ) (v : Uniform) (data : Bytes) :
    lowerOf M (.uniform v data) = .ok (read v.type v.lower) ∧ upperOf M (.uniform v data) = .ok (read v.type v.upper) ∧
    scaleOf (.uniform v data) = .ok v.log ∧ quantizationOf M (.uniform v data) = .ok (read v.type v.quantization) :=
  ⟨shown_uniform (M := M) v data v.lower, shown_uniform (M := M) v data v.upper, rfl, shown_uniform (M := M) v data v.quantization⟩

theorem normal_answers (M : Machine σ) (v : Normal) (data : Bytes) :
    muOf (.normal v data) = .ok (.float v.mu) ∧ sigmaOf (.normal v data) = .ok (.float v.sigma) ∧
    normalScaleOf (.normal v data) = .ok v.log ∧ normalQuantizationOf M (.normal v data) = .ok (read v.type v.quantization) :=
  ⟨rfl, rfl, rfl, shown_normal (M := M) v data v.quantization⟩

/-- **C156** (partial) A uniform distribution created with numbers of its type that 64 bits hold gives back its bounds, its scale and its quantization.
Missing: larger integers from Python (`C156_python_wraps`). -/
theorem C156_uniform_partial {t : NumType} {l u q : Number} {log : Bool} {d : DistObj} (hl : Fits t l) (hu : Fits t u) (hq : Fits t q)
    (h : BoundDist.createUniform M lang toDouble t (some l) (some u) (some log) (some q) = .ok d) :
    lowerOf M d = .ok l ∧ upperOf M d = .ok u ∧ scaleOf d = .ok log ∧ quantizationOf M d = .ok q := by
  obtain ⟨xl, xu, xq, h1, h2, h3, h⟩ := uniform_ok h
  obtain ⟨v, rfl, rfl, rfl, rfl, rfl, rfl⟩ := newUniform_shape h
  obtain ⟨a1, a2, a3, a4⟩ := uniform_answers M v []
  exact ⟨by rw [a1, number_read hl h1], by rw [a2, number_read hu h2], a3, by rw [a4, number_read hq h3]⟩

/-- **C156** (partial) A normal distribution created with floats gives back its mean, its deviation, its scale and its quantization.
Missing: integers given for the mean or the deviation, and quantizations that 64 bits do not hold from Python. -/
theorem C156_normal_partial {t : NumType} {m s q : Number} {log : Bool} {d : DistObj} (hm : Fits .float m) (hs : Fits .float s) (hq : Fits t q)
    (h : BoundDist.createNormal lang toDouble t (some m) (some s) (some log) (some q) = .ok d) :
    muOf d = .ok m ∧ sigmaOf d = .ok s ∧ normalScaleOf d = .ok log ∧ normalQuantizationOf M d = .ok q := by
  obtain ⟨xm, xs, xq, h1, h2, h3, h⟩ := normal_ok h
  obtain ⟨v, rfl, rfl, rfl, rfl, rfl, rfl⟩ := newNormal_shape h
  obtain ⟨a1, a2, a3, a4⟩ := normal_answers M v []
  exact ⟨by rw [a1]; exact congrArg Out.ok (number_read hm h1), by rw [a2]; exact congrArg Out.ok (number_read hs h2), a3,
    by rw [a4, number_read hq h3]⟩

theorem intRange_in {i : Int} (h1 : -2 ^ 63 ≤ i) (h2 : i < 2 ^ 63) : intRange i = .ok (BitVec.ofInt 64 i) ∧ (BitVec.ofInt 64 i).toInt = i := by
  refine ⟨if_pos ⟨h1, h2⟩, ?_⟩
  rw [BitVec.toInt_ofInt]
  exact Int.bmod_eq_of_le (by omega) (by omega)

/-- **C156** A uniform distribution of integers less than `2^63` apart can be created exactly when the lower bound is below the upper one, the
quantization is neither negative nor larger than their distance, and the lower bound is positive if the scale is logarithmic. -/
theorem C156_uniform_int_iff {l u q : Int} (hl : Fits .int (.int l)) (hu : Fits .int (.int u)) (hq : Fits .int (.int q)) (hw : u - l < 2 ^ 63)
    (log : Bool) : (∃ d, BoundDist.createUniform M lang toDouble .int (some (.int l)) (some (.int u)) (some log) (some (.int q)) = .ok d) ↔
      l < u ∧ 0 ≤ q ∧ q ≤ u - l ∧ (log = true → 0 < l) := by
  obtain ⟨xl, nl, rl⟩ := numeric_fits lang toDouble hl
  obtain ⟨xu, nu, ru⟩ := numeric_fits lang toDouble hu
  obtain ⟨xq, nq, rq⟩ := numeric_fits lang toDouble hq
  replace rl : xl.toInt = l := Number.int.inj rl
  replace ru : xu.toInt = u := Number.int.inj ru
  replace rq : xq.toInt = q := Number.int.inj rq
  have e : BoundDist.createUniform M lang toDouble .int (some (.int l)) (some (.int u)) (some log) (some (.int q)) =
      DistObj.newUniform M .int xl xu log xq := by
    show (lang.numeric toDouble .int (.int l) >>= fun a => lang.numeric toDouble .int (.int u) >>= fun b =>
      lang.numeric toDouble .int (.int q) >>= fun c => DistObj.newUniform M .int a b log c) = _
    rw [nl, nu, nq]; rfl
  rw [e]
  have hl' : -2 ^ 63 ≤ l ∧ l < 2 ^ 63 := hl
  have hu' : -2 ^ 63 ≤ u ∧ u < 2 ^ 63 := hu
  have hq' : -2 ^ 63 ≤ q ∧ q < 2 ^ 63 := hq
  have hcheck : Uniform.check M .int xl xu log xq = .ok () ↔ l < u ∧ 0 ≤ q ∧ q ≤ u - l ∧ (log = true → 0 < l) := by
    unfold Uniform.check
    simp only [rl, ru, rq]
    split
    · rename_i hc
      constructor
      · intro h; cases h
      · rintro ⟨a, b, c, f⟩
        rcases hc with hc | ⟨hc, hd⟩ | hc
        · omega
        · have := f hc; omega
        · omega
    · rename_i hc
      have c1 : l < u := by
        rcases Int.lt_or_le l u with h | h
        · exact h
        · exact absurd (Or.inl h) hc
      have c2 : 0 ≤ q := by
        rcases Int.lt_or_le q 0 with h | h
        · exact absurd (Or.inr (Or.inr h)) hc
        · exact h
      have c3 : log = true → 0 < l := fun h => by
        rcases Int.lt_or_le 0 l with h' | h'
        · exact h'
        · exact absurd (Or.inr (Or.inl ⟨h, h'⟩)) hc
      obtain ⟨i1, i2⟩ := intRange_in (i := u - l) (by omega) hw
      rw [i1]
      show refute ((BitVec.ofInt 64 (u - l)).toInt < q) .invalidValue = _ ↔ _
      rw [i2]
      unfold refute
      split
      · constructor
        · intro h; cases h
        · rintro ⟨-, -, h, -⟩; omega
      · exact ⟨fun _ => ⟨c1, c2, by omega, c3⟩, fun _ => rfl⟩
  constructor
  · rintro ⟨d, h⟩
    obtain ⟨⟨⟩, h1, -⟩ := bind_eq_ok (show (_ >>= _) = _ from h)
    exact hcheck.mp h1
  · intro h
    have hc := hcheck.mpr h
    obtain ⟨h1, h2, h3, h4⟩ := h
    unfold DistObj.newUniform
    rw [hc]
    show ∃ d, (Uniform.fill M .int xl xu log xq >>= fun v => Out.ok (DistObj.uniform v [])) = .ok d
    unfold Uniform.fill
    simp only [rl, ru, rq]
    split
    · exact ⟨_, rfl⟩
    · obtain ⟨i1, i2⟩ := intRange_in (i := u - l) (by omega) hw
      rw [i1]
      simp only [Out.bind_ok, i2]
      split
      · exact ⟨_, rfl⟩
      ·
        have t1 : 0 ≤ (u - l).tdiv q := Int.tdiv_nonneg (by omega) h2
        have t2 : (u - l).tdiv q ≤ u - l := Int.tdiv_le_self _ (by omega)
        rw [(intRange_in (i := (u - l).tdiv q) (by omega) (by omega)).1]
        exact ⟨_, rfl⟩

/-- **C156** What is left out when a distribution is created has a fixed value: the bounds are 0 and 1, or 0 and 100 for integers, the mean is 0 and the
deviation 1, the scale is linear, there is no quantization, and the components of a mixture all have the weight 1. -/
theorem C156_defaults :
    (∀ t, BoundDist.createUniform M lang toDouble t none none none none =
      match t with
      | .float => BoundDist.createUniform M lang toDouble .float (some (.float 0#64)) (some (.float F64.one)) (some false) (some (.float 0#64))
      | .int => BoundDist.createUniform M lang toDouble .int (some (.int 0)) (some (.int 100)) (some false) (some (.int 0))) ∧
    (∀ t, BoundDist.createNormal lang toDouble t none none none none =
      BoundDist.createNormal lang toDouble t (some (.float 0#64)) (some (.float F64.one)) (some false)
        (some (match t with | .float => .float 0#64 | .int => .int 0))) ∧
    (∀ ds, BoundDist.createMixture M lang toDouble ds none =
      BoundDist.createMixture M lang toDouble ds (some (List.replicate ds.length (.float F64.one)))) := by
  refine ⟨fun t => by cases t <;> rfl, fun t => by cases t <;> rfl, fun ds => ?_⟩
  have e : weightsGiven lang toDouble ds.length none =
      weightsGiven lang toDouble ds.length (some (List.replicate ds.length (.float F64.one))) := by
    have hd : doubles lang toDouble (List.replicate ds.length (.float F64.one)) = .ok (List.replicate ds.length F64.one) := by
      have := doubles_back (lang := lang) (toDouble := toDouble) (List.replicate ds.length F64.one)
      rwa [List.map_replicate] at this
    unfold weightsGiven
    cases lang with
    | python =>
      simp only [List.length_replicate, Nat.lt_irrefl, if_false, hd, Nat.sub_self, List.replicate_zero]
      show _ = Out.ok (_ ++ [])
      rw [List.append_nil]
    | ruby => simp only [List.length_replicate, ne_eq, not_true_eq_false, if_false, hd]
  unfold BoundDist.createMixture
  rw [e]

/-! ## Integers that 64 bits do not hold, and floats -/

/-- **C156** Violation: in Python a bound is taken modulo `2^64`. -/
theorem C156_python_wraps (l q : Option Number) (log : Option Bool) (u k : Int) :
    BoundDist.createUniform M .python toDouble .int l (some (.int (u + k * 2 ^ 64))) log q =
      BoundDist.createUniform M .python toDouble .int l (some (.int u)) log q := by
  have h : (Lang.python).numeric toDouble .int (.int (u + k * 2 ^ 64)) = (Lang.python).numeric toDouble .int (.int u) := by
    show Out.ok (BitVec.ofInt 64 (u + k * 2 ^ 64)) = Out.ok (BitVec.ofInt 64 u)
    congr 1
    apply BitVec.eq_of_toInt_eq
    rw [BitVec.toInt_ofInt, BitVec.toInt_ofInt]
    exact Int.add_mul_bmod_self_right _ _ _
  show ((Lang.python).numeric toDouble .int (l.getD (zeroOf .int)) >>= fun a =>
    (Lang.python).numeric toDouble .int (.int (u + k * 2 ^ 64)) >>= fun b => _) = _
  rw [h]; rfl

/-- **C156** In Ruby an exception is raised. -/
theorem C156_ruby_refuses (l q : Option Number) (log : Option Bool) {u : Int} (hu : ¬ Fits .int (.int u)) (d : DistObj) :
    BoundDist.createUniform M .ruby toDouble .int l (some (.int u)) log q ≠ .ok d := by
  intro h
  obtain ⟨_, xu, _, -, h2, -⟩ := uniform_ok h
  rw [show (Lang.ruby).numeric toDouble .int ((some (Number.int u)).getD (topOf .int)) = Rb.int64 u from rfl, Rb.int64,
    if_neg (show ¬ (-2 ^ 63 ≤ u ∧ u < 2 ^ 63) from hu)] at h2
  cases h2

/-- **C156** A float given as a bound of a distribution of integers: an exception in Python; in Ruby what is after the point is left out. -/
theorem C156_float_bounds (l q : Option Number) (log : Option Bool) (f : F64) :
    (∀ d, BoundDist.createUniform M .python toDouble .int l (some (.float f)) log q ≠ .ok d) ∧
    (∀ i, truncated f = some i → BoundDist.createUniform M .ruby toDouble .int l (some (.float f)) log q =
      BoundDist.createUniform M .ruby toDouble .int l (some (.int i)) log q) := by
  refine ⟨fun d h => ?_, fun i hi => ?_⟩
  · obtain ⟨_, xu, _, -, h2, -⟩ := uniform_ok h
    cases h2
  · have e : (Lang.ruby).numeric toDouble .int (.float f) = (Lang.ruby).numeric toDouble .int (.int i) := by
      show (match truncated f with | some i => Rb.int64 i | none => .err .external) = Rb.int64 i
      rw [hi]
    show ((Lang.ruby).numeric toDouble .int (l.getD (zeroOf .int)) >>= fun a => (Lang.ruby).numeric toDouble .int (.float f) >>= fun b => _) = _
    rw [e]; rfl

/-! ## Weights -/

/-- **C156** (partial) With as many weights as components, the two languages create the same mixture, that of the library; so do they without weights.
Missing: another number of weights (`C156_python_pads`, `C156_python_excess`, `C156_ruby_weights`). -/
theorem C156_weights_partial {ds : List DistObj} {ws : List Number} {xs : List F64} (hn : ws.length = ds.length)
    (hx : doubles lang toDouble ws = .ok xs) : BoundDist.createMixture M lang toDouble ds (some ws) = DistObj.newMixture M ds xs := by
  have e : weightsGiven lang toDouble ds.length (some ws) = .ok xs := by
    unfold weightsGiven
    cases lang with
    | python =>
      simp only [hn, Nat.lt_irrefl, if_false, hx, Nat.sub_self, List.replicate_zero]
      show Out.ok (xs ++ []) = _
      rw [List.append_nil]
    | ruby => simp only [hn, ne_eq, not_true_eq_false, if_false, hx]
  unfold BoundDist.createMixture
  rw [e]; rfl

theorem doubles_append : ∀ (ns ms : List Number), doubles lang toDouble (ns ++ ms) =
    (doubles lang toDouble ns >>= fun xs => doubles lang toDouble ms >>= fun ys => .ok (xs ++ ys))
  | [], ms => by
    show doubles lang toDouble ms = (doubles lang toDouble ms >>= fun ys => .ok ys)
    cases doubles lang toDouble ms <;> rfl
  | n :: ns, ms => by
    show (lang.numeric toDouble .float n >>= fun y => doubles lang toDouble (ns ++ ms) >>= fun ys => .ok (y :: ys)) =
      ((lang.numeric toDouble .float n >>= fun y => doubles lang toDouble ns >>= fun ys => .ok (y :: ys)) >>= _)
    rw [doubles_append ns ms]
    cases lang.numeric toDouble .float n with
    | ok y => cases doubles lang toDouble ns with
      | ok ys => cases doubles lang toDouble ms <;> rfl
      | err => rfl
      | ub => rfl
    | err => rfl
    | ub => rfl

/-- **C156** Violation: in Python, weights that are missing at the end are zeros. -/
theorem C156_python_pads {ds : List DistObj} {ws : List Number} (hn : ws.length ≤ ds.length) :
    BoundDist.createMixture M .python toDouble ds (some ws) =
      BoundDist.createMixture M .python toDouble ds (some (ws ++ List.replicate (ds.length - ws.length) (.float 0#64))) := by
  have hz : doubles .python toDouble (List.replicate (ds.length - ws.length) (.float 0#64)) =
      .ok (List.replicate (ds.length - ws.length) 0#64) := by
    have := doubles_back (lang := .python) (toDouble := toDouble) (List.replicate (ds.length - ws.length) 0#64)
    rwa [List.map_replicate] at this
  have e : weightsGiven .python toDouble ds.length (some ws) =
      weightsGiven .python toDouble ds.length (some (ws ++ List.replicate (ds.length - ws.length) (.float 0#64))) := by
    have hl : (ws ++ List.replicate (ds.length - ws.length) (Number.float 0#64)).length = ds.length := by simp; omega
    unfold weightsGiven
    simp only [hl, Nat.lt_irrefl, if_false, if_neg (Nat.not_lt.mpr hn), Nat.sub_self, List.replicate_zero]
    rw [doubles_append, hz]
    cases doubles .python toDouble ws with
    | ok xs =>
      show Out.ok (xs ++ _) = Out.ok ((xs ++ _) ++ [])
      rw [List.append_nil]
    | err => rfl
    | ub => rfl
  unfold BoundDist.createMixture
  rw [e]

/-- **C156** In Python more weights than components raise an exception. -/
theorem C156_python_excess {ds : List DistObj} {ws : List Number} (hn : ds.length < ws.length) :
    BoundDist.createMixture M .python toDouble ds (some ws) = .err .external := by
  unfold BoundDist.createMixture weightsGiven
  simp only [hn, if_true]
  rfl

/-- **C156** In Ruby another number of weights is the error INVALID_VALUE. -/
theorem C156_ruby_weights {ds : List DistObj} {ws : List Number} (hn : ws.length ≠ ds.length) :
    BoundDist.createMixture M .ruby toDouble ds (some ws) = .err .invalidValue := by
  unfold BoundDist.createMixture weightsGiven
  simp only [ne_eq, Ne.symm hn, not_false_eq_true, if_true]
  rfl

/-- **C156** Violation: the class of multivariate distributions of Python accepts weights, of any number, and they change nothing; that of Ruby raises an
exception. -/
theorem C156_weights_ignored (ds : List DistObj) (ws : List Number) :
    BoundDist.createMultivariate M .python ds (some ws) = BoundDist.createMultivariate M .python ds none ∧
    BoundDist.createMultivariate M .ruby ds (some ws) = .err .external := ⟨rfl, rfl⟩

/-! ## Components -/

/-- Each distribution of a list has a class. -/
def Classes (M : Machine σ) (ds : List DistObj) (cs : List Class) : Prop := List.Forall₂ (fun d c => fromHandle M d = .ok c) ds cs

theorem each_ok : ∀ {ds : List DistObj} {cs : List Class}, Classes M ds cs → eachFromHandle M (ds.map some) = .ok (cs.zip ds)
  | [], _, h => by cases h; rfl
  | d :: ds, _, h => by
    cases h with
    | cons h1 h2 =>
      show (fromHandle M d >>= fun c => eachFromHandle M (ds.map some) >>= fun r => .ok ((c, d) :: r)) = _
      rw [h1, each_ok h2]; rfl

theorem components_ok {get : Asked (Option DistObj) → Out (Option (List (Option DistObj)) × Option Nat)} {ds : List DistObj} {cs : List Class}
    (hl : Lists get none (ds.map some)) (h : Classes M ds cs) : numDistributions get = .ok ds.length ∧ componentsOf M get = .ok (cs.zip ds) := by
  have e : numDistributions get = .ok ds.length := by
    unfold numDistributions
    rw [hl.counted]
    show Out.ok ((some (ds.map some).length).getD 0) = _
    simp
  refine ⟨e, ?_⟩
  unfold componentsOf
  rw [e]
  show (get ⟨ds.length, some (List.replicate ds.length none), false⟩ >>= _) = _
  rw [hl.whole ds.length (List.replicate ds.length none) false (by simp) (by simp)]
  show eachFromHandle M ((some _).getD []) = _
  simp only [Option.getD_some, List.length_map, Nat.sub_self, List.replicate_zero, List.append_nil, List.drop_replicate]
  exact each_ok h

theorem weights_whole (ops : FloatOps) (m : MixtureData) (ds : List DistObj) (data : Bytes) :
    DistObj.getWeights ops ds.length (.mixture m ds data) = .ok (DistObj.widths ops ds.length m.weights) := by
  show (if ds.length < ds.length then Out.err .invalidValue
    else .ok (DistObj.widths ops ds.length m.weights ++ List.replicate (ds.length - ds.length) F64.zero)) = _
  rw [if_neg (Nat.lt_irrefl _), Nat.sub_self, List.replicate_zero, List.append_nil]

/-- **C156** A mixture and a multivariate distribution give back their components, in order, each with its class, and their number; and a mixture as
many weights. -/
theorem C156_components {ds : List DistObj} {cs : List Class} (hcs : Classes M ds cs) (ws : Option (List Number)) (d : DistObj) :
    (BoundDist.createMixture M lang toDouble ds ws = .ok d → numDistributions d.getMixture = .ok ds.length ∧
      componentsOf M d.getMixture = .ok (cs.zip ds) ∧ ∃ xs, weightsOf M.ops d = .ok xs ∧ xs.length = ds.length) ∧
    (BoundDist.createMultivariate M lang ds ws = .ok d → numDistributions d.getMultivariate = .ok ds.length ∧
      componentsOf M d.getMultivariate = .ok (cs.zip ds)) := by
  constructor
  · intro h
    obtain ⟨xs, -, h⟩ := mixture_ok h
    obtain ⟨e1, e2⟩ := components_ok ((C122_components M ds xs d).1 h) hcs
    refine ⟨e1, e2, ?_⟩
    obtain ⟨m, rfl⟩ := newMixture_shape h
    unfold weightsOf
    rw [e1]
    refine ⟨(DistObj.widths M.ops ds.length m.weights).map .float, ?_, by simp [DistObj.widths]⟩
    show (DistObj.getWeights M.ops ds.length (.mixture m ds []) >>= fun ws => Out.ok (ws.map Number.float)) = _
    rw [weights_whole]; rfl
  · intro h
    exact components_ok ((C122_components M ds [] d).2 (multivariate_ok h)) hcs

/-- **C156** A roulette has as many areas as it was created with. -/
theorem C156_areas {areas : List Number} {d : DistObj} (h : BoundDist.createRoulette M.ops lang toDouble areas = .ok d) :
    numAreas d = .ok areas.length ∧ ∃ xs, areasOf M.ops d = .ok xs ∧ xs.length = areas.length := by
  obtain ⟨ys, h1, h⟩ := bind_eq_ok (show (_ >>= _) = _ from h)
  obtain ⟨r, h2, rfl⟩ := DistObj.newRoulette_iff.mp h
  have hn : r.numAreas = areas.length := by
    rw [← doubles_length h1]
    obtain ⟨⟨⟩, -, h2⟩ := bind_eq_ok (show (_ >>= _) = _ from h2)
    obtain ⟨_, -, h2⟩ := bind_eq_ok h2
    cases h2; rfl
  refine ⟨by rw [← hn]; rfl, (DistObj.widths M.ops r.numAreas r.areas).map .float, ?_, by simp [DistObj.widths, hn]⟩
  show (r.getAreas M.ops (some r.numAreas) >>= fun xs => Out.ok (xs.map Number.float)) = _
  unfold Roulette.getAreas
  simp only [Nat.lt_irrefl, if_false, Nat.sub_self, List.replicate_zero, List.append_nil]
  rfl

/-! ## Copies -/

theorem made_built {d : DistObj} (h : Made M lang toDouble d) : BuiltDist M d ∧ ∃ c, fromHandle M d = .ok c := by
  have keep : ∀ d : DistObj, (∃ v, d = .uniform v []) ∨ (∃ v, d = .normal v []) ∨ (∃ v, d = .roulette v []) ∨ (∃ m ds, d = .mixture m ds []) ∨
      (∃ ds, d = .multivariate ds []) → d.withData [] = d := by
    rintro d (⟨_, rfl⟩ | ⟨_, rfl⟩ | ⟨_, rfl⟩ | ⟨_, _, rfl⟩ | ⟨_, rfl⟩) <;> rfl
  induction h with
  | uniform h =>
    obtain ⟨_, _, _, -, -, -, k⟩ := uniform_ok h
    obtain ⟨v, e, -⟩ := newUniform_shape k
    refine ⟨?_, _, (C156_class _).1 _ _ _ _ _ h⟩
    rw [← keep _ (.inl ⟨v, e⟩)]; exact .uniform k []
  | normal h =>
    obtain ⟨_, _, _, -, -, -, k⟩ := normal_ok h
    obtain ⟨v, e, -⟩ := newNormal_shape k
    refine ⟨?_, _, (C156_class _).2.1 _ _ _ _ _ h⟩
    rw [← keep _ (.inr (.inl ⟨v, e⟩))]; exact .normal k []
  | roulette h =>
    obtain ⟨_, -, k⟩ := bind_eq_ok (show (_ >>= _) = _ from h)
    obtain ⟨r, -, e⟩ := DistObj.newRoulette_iff.mp k
    refine ⟨?_, _, (C156_class (toDouble := toDouble) (lang := lang) _).2.2.1 _ h⟩
    rw [← keep _ (.inr (.inr (.inl ⟨r, e⟩)))]; exact .roulette k []
  | mixture hc h ih =>
    obtain ⟨_, -, k⟩ := mixture_ok h
    obtain ⟨m, e⟩ := newMixture_shape k
    refine ⟨?_, _, (C156_class _).2.2.2.1 _ _ h⟩
    rw [← keep _ (.inr (.inr (.inr (.inl ⟨m, _, e⟩))))]; exact .mixture (fun c k => (ih c k).1) k []
  | multivariate hc h ih =>
    have k := multivariate_ok h
    have e := newMultivariate_shape k
    refine ⟨?_, _, (C156_class (toDouble := toDouble) (lang := lang) _).2.2.2.2 _ _ h⟩
    rw [← keep _ (.inr (.inr (.inr (.inr ⟨_, e⟩))))]; exact .multivariate (fun c k => (ih c k).1) k []

theorem classes_exist : ∀ {ds : List DistObj}, (∀ c ∈ ds, ∃ k, fromHandle M c = .ok k) → ∃ cs, Classes M ds cs
  | [], _ => ⟨[], .nil⟩
  | d :: ds, h => by
    obtain ⟨c, hc⟩ := h d (by simp)
    obtain ⟨cs, hcs⟩ := classes_exist (ds := ds) fun x hx => h x (List.mem_cons_of_mem _ hx)
    exact ⟨c :: cs, .cons hc hcs⟩

theorem each_same {f : DistObj → Out DistObj} : ∀ {ds : List DistObj} {cs : List Class}, Classes M ds cs → (∀ c ∈ ds, f c = .ok c) →
    each f (cs.zip ds) = .ok ds
  | [], _, h, _ => by cases h; rfl
  | d :: ds, _, h, hf => by
    cases h with
    | @cons _ c _ cs h1 h2 =>
      show (f d >>= fun x => each f (cs.zip ds) >>= fun xs => .ok (x :: xs)) = _
      rw [hf d (by simp), each_same h2 fun c hc => hf c (by simp [hc])]; rfl

theorem deep {P : Nat → DistObj → Prop} : ∀ {ds : List DistObj}, (∀ c ∈ ds, ∃ n, ∀ m, n ≤ m → P m c) → ∃ n, ∀ m, n ≤ m → ∀ c ∈ ds, P m c
  | [], _ => ⟨0, fun _ _ _ h => by cases h⟩
  | d :: ds, h => by
    obtain ⟨a, ha⟩ := h d (by simp)
    obtain ⟨b, hb⟩ := deep (ds := ds) fun c hc => h c (List.mem_cons_of_mem _ hc)
    refine ⟨max a b, fun m hm c hc => ?_⟩
    rcases List.mem_cons.mp hc with rfl | hc
    · exact ha m (by omega)
    · exact hb m (by omega) c hc

/-- **C156** (partial) With the arithmetic of IEEE 754, a program that reads all the properties of a distribution made in its language, and calls the
constructors with the answers, has the same distribution.
Missing: roulettes whose bounds are not multiples of `2^-52`, and mixtures with bounds that are not numbers (see C84). -/
theorem C156_copy_partial (hM : M.ops = ieee) {d : DistObj} (h : Made M lang toDouble d) (hs : SteadyDist d) :
    ∃ n, ∀ m, n ≤ m → copy M lang toDouble m d = .ok d := by
  induction h with
  | @uniform t _ _ _ _ d h =>
    refine ⟨1, fun m hm => ?_⟩
    obtain ⟨m, rfl⟩ : ∃ k, m = k + 1 := ⟨m - 1, by omega⟩
    have hclass := (C156_class d).1 _ _ _ _ _ h
    obtain ⟨_, _, _, -, -, -, k⟩ := uniform_ok h
    obtain ⟨v, rfl, rfl, rfl, rfl, e, rfl⟩ := newUniform_shape k
    rw [← e] at k
    obtain ⟨a1, a2, a3, a4⟩ := uniform_answers M v []
    have : copyUniform M lang toDouble v.type (.uniform v []) = .ok (.uniform v []) := by
      unfold copyUniform BoundDist.createUniform
      rw [a1, a2, a3, a4]
      show (lang.numeric toDouble v.type (read v.type v.lower) >>= fun a => lang.numeric toDouble v.type (read v.type v.upper) >>= fun b =>
        lang.numeric toDouble v.type (read v.type v.quantization) >>= fun c => DistObj.newUniform M v.type a b v.log c) = _
      rw [number_back, number_back, number_back]
      exact k
    rw [copy, hclass]
    cases hv : v.type <;> rw [hv] at this <;> exact this
  | @normal t _ _ _ _ d h =>
    refine ⟨1, fun m hm => ?_⟩
    obtain ⟨m, rfl⟩ : ∃ k, m = k + 1 := ⟨m - 1, by omega⟩
    have hclass := (C156_class (M := M) d).2.1 _ _ _ _ _ h
    obtain ⟨_, _, _, -, -, -, k⟩ := normal_ok h
    obtain ⟨v, rfl, rfl, rfl, rfl, e, rfl⟩ := newNormal_shape k
    rw [← e] at k
    obtain ⟨a1, a2, a3, a4⟩ := normal_answers M v []
    have : copyNormal M lang toDouble v.type (.normal v []) = .ok (.normal v []) := by
      unfold copyNormal BoundDist.createNormal
      rw [a1, a2, a3, a4]
      show (lang.numeric toDouble v.type (read v.type v.quantization) >>= fun c => DistObj.newNormal v.type v.mu v.sigma v.log c) = _
      rw [number_back]
      exact k
    rw [copy, hclass]
    cases hv : v.type <;> rw [hv] at this <;> exact this
  | @roulette areas d h =>
    refine ⟨1, fun m hm => ?_⟩
    obtain ⟨m, rfl⟩ : ∃ k, m = k + 1 := ⟨m - 1, by omega⟩
    have hr := DistObj.recreate_same hM (made_built (.roulette h)).1 hs
    obtain ⟨_, -, k⟩ := bind_eq_ok (show (_ >>= _) = _ from h)
    obtain ⟨r, -, rfl⟩ := DistObj.newRoulette_iff.mp k
    rw [recreate] at hr
    obtain ⟨d', h1, h2⟩ := bind_eq_ok hr
    obtain ⟨r', -, rfl⟩ := DistObj.newRoulette_iff.mp h1
    cases h2
    have ha : areasOf M.ops (.roulette r []) = .ok ((DistObj.widths M.ops r.numAreas r.areas).map .float) := by
      show (r.getAreas M.ops (some r.numAreas) >>= fun xs => Out.ok (xs.map Number.float)) = _
      unfold Roulette.getAreas
      simp only [Nat.lt_irrefl, if_false, Nat.sub_self, List.replicate_zero, List.append_nil]
      rfl
    show (areasOf M.ops (.roulette r []) >>= fun xs => BoundDist.createRoulette M.ops lang toDouble xs) = _
    rw [ha]
    show (doubles lang toDouble _ >>= _) = _
    rw [doubles_back]
    exact h1
  | @mixture ds ws d hc h ih =>
    have hb : ∀ c ∈ ds, ∃ k, fromHandle M c = .ok k := fun c k => (made_built (hc c k)).2
    obtain ⟨cs, hcs⟩ := classes_exist hb
    obtain ⟨xs, -, k⟩ := mixture_ok h
    obtain ⟨e1, e2⟩ := components_ok ((C122_components M ds xs d).1 k) hcs
    obtain ⟨m0, rfl⟩ := newMixture_shape k
    cases hs with
    | mixture hn hs =>
      obtain ⟨n, hd⟩ := deep fun c k => ih c k (hs c k)
      refine ⟨n + 1, fun m hm => ?_⟩
      obtain ⟨m, rfl⟩ : ∃ k, m = k + 1 := ⟨m - 1, by omega⟩
      have hw : weightsOf M.ops (.mixture m0 ds []) = .ok ((DistObj.widths M.ops ds.length m0.weights).map .float) := by
        unfold weightsOf
        rw [e1]
        show (DistObj.getWeights M.ops ds.length (.mixture m0 ds []) >>= fun ws => Out.ok (ws.map Number.float)) = _
        rw [weights_whole]; rfl
      show (weightsOf M.ops (.mixture m0 ds []) >>= fun ws => componentsOf M (DistObj.mixture m0 ds []).getMixture >>= fun cs =>
        each (copy M lang toDouble m) cs >>= fun xs => BoundDist.createMixture M lang toDouble xs (some ws)) = _
      rw [hw, e2]
      show (each (copy M lang toDouble m) (cs.zip ds) >>= fun xs => _) = _
      rw [each_same hcs fun c k => hd m (by omega) c k]
      show BoundDist.createMixture M lang toDouble ds (some ((DistObj.widths M.ops ds.length m0.weights).map .float)) = _
      rw [C156_weights_partial (by simp [DistObj.widths]) (doubles_back _)]
      exact DistObj.mixture_back hM k hn
  | @multivariate ds ws d hc h ih =>
    have hb : ∀ c ∈ ds, ∃ k, fromHandle M c = .ok k := fun c k => (made_built (hc c k)).2
    obtain ⟨cs, hcs⟩ := classes_exist hb
    have k := multivariate_ok h
    obtain ⟨e1, e2⟩ := components_ok ((C122_components M ds [] d).2 k) hcs
    obtain rfl := newMultivariate_shape k
    cases hs with
    | multivariate hs =>
      obtain ⟨n, hd⟩ := deep fun c k => ih c k (hs c k)
      refine ⟨n + 1, fun m hm => ?_⟩
      obtain ⟨m, rfl⟩ : ∃ k, m = k + 1 := ⟨m - 1, by omega⟩
      show (componentsOf M (DistObj.multivariate ds []).getMultivariate >>= fun cs =>
        each (copy M lang toDouble m) cs >>= fun xs => BoundDist.createMultivariate M lang xs none) = _
      rw [e2]
      show (each (copy M lang toDouble m) (cs.zip ds) >>= fun xs => _) = _
      rw [each_same hcs fun c k => hd m (by omega) c k]
      show BoundDist.createMultivariate M lang ds none = _
      cases lang <;> exact k

/-! ## Cases -/

/-- No integer is given where a float is expected. -/
def exDouble : Int → Out F64 := fun _ => .err .external

/-- A die as a program makes it. -/
def exThrow (lang : Lang) : Out DistObj := BoundDist.createUniform exMachine lang exDouble .int (some (.int 1)) (some (.int 7)) none none

/-- The bounds of the die are read back, and the bound `2^64 + 7` makes the same die in Python, none in Ruby. -/
example : isOk (exThrow .python) = true ∧ isOk (exThrow .ruby) = true ∧ Fits .int (.int 1) ∧ Fits .int (.int 7) ∧
    isOk (BoundDist.createUniform exMachine .python exDouble .int (some (.int 1)) (some (.int (2 ^ 64 + 7))) none none) = true ∧
    isOk (BoundDist.createUniform exMachine .ruby exDouble .int (some (.int 1)) (some (.int (2 ^ 64 + 7))) none none) = false ∧
    ¬ Fits .int (.int (2 ^ 64 + 7)) := by
  refine ⟨by decide +kernel, by decide +kernel, ⟨by decide, by decide⟩, ⟨by decide, by decide⟩, by decide +kernel, by decide +kernel, ?_⟩
  rintro ⟨-, h⟩
  exact absurd h (by decide)

/-- `1.5` and `6.5`: bounds 1 and 6 in Ruby. -/
example : truncated 0x3ff8000000000000#64 = some 1 ∧ truncated 0x401a000000000000#64 = some 6 ∧
    isOk (BoundDist.createUniform exMachine .ruby exDouble .int (some (.float 0x3ff8000000000000#64)) (some (.float 0x401a000000000000#64)) none none) = true ∧
    isOk (BoundDist.createUniform exMachine .python exDouble .int (some (.float 0x3ff8000000000000#64)) (some (.float 0x401a000000000000#64)) none none) =
      false := by decide +kernel

/-- A normal distribution of floats. -/
example : isOk (BoundDist.createNormal .ruby exDouble .float (some (.float dHalf)) (some (.float F64.one)) (some true) none) = true := by decide +kernel

/-- Violation: two components and the weight 1: Python makes a mixture that never draws from the second component, Ruby refuses. -/
theorem C156_padded_witness : (∃ m, BoundDist.createMixture exMachine .python exDouble [exCoin, exDie] (some [.float F64.one]) =
      .ok (.mixture m [exCoin, exDie] []) ∧ m.weights = [F64.zero, F64.one, F64.one] ∧
      weightsOf ieee (.mixture m [exCoin, exDie] []) = .ok [.float F64.one, .float F64.zero]) ∧
    BoundDist.createMixture exMachine .ruby exDouble [exCoin, exDie] (some [.float F64.one]) = .err .invalidValue := by
  refine ⟨?_, C156_ruby_weights (by decide)⟩
  have e : BoundDist.createMixture exMachine .python exDouble [exCoin, exDie] (some [.float F64.one]) =
      DistObj.newMixture exMachine [exCoin, exDie] [F64.one, F64.zero] :=
    (C156_python_pads (by decide)).trans (C156_weights_partial (by decide) (doubles_back [F64.one, F64.zero]))
  obtain ⟨d, hd⟩ := exists_of_isOk (x := DistObj.newMixture exMachine [exCoin, exDie] [F64.one, F64.zero]) (by decide +kernel)
  rw [e, hd]
  obtain ⟨dim, types, bounds, inv, h1, h2, h3, h4, rfl⟩ := DistObj.newMixture_iff.mp hd
  have hi : inv = ieee.div F64.one (ieee.total [F64.one, F64.zero]) := (DistObj.inverse_parts h3).2.1
  have hw : Mixture.areas exMachine inv ([F64.one, F64.zero].take [exCoin, exDie].length) = [F64.zero, F64.one, F64.one] := by
    rw [hi]; decide +kernel
  refine ⟨_, rfl, hw, ?_⟩
  unfold weightsOf
  show (DistObj.getWeights ieee [exCoin, exDie].length (.mixture _ [exCoin, exDie] []) >>= fun ws => Out.ok (ws.map Number.float)) = _
  rw [weights_whole]
  simp only [hw]
  decide +kernel

/-- A program makes a mixture of a coin and a die with the weights 1 and 5: the hypotheses of `C156_copy_partial` are met. -/
example : ∃ die d, exThrow .python = .ok die ∧
    BoundDist.createMixture exMachine .python exDouble [exCoin, die] (some [.float F64.one, .float dFive]) = .ok d ∧
    Made exMachine .python exDouble d ∧ SteadyDist d := by
  have hcoin : BoundDist.createRoulette exMachine.ops .python exDouble (exHalves.map .float) = .ok exCoin := by
    have h1 : CCS.createRoulette exMachine.ops exHalves = .ok ⟨2, [F64.zero, 0x3fe0000000000000#64, F64.one]⟩ := by decide +kernel
    unfold BoundDist.createRoulette
    rw [doubles_back, Out.bind_ok]
    exact DistObj.newRoulette_iff.mpr ⟨_, h1, rfl⟩
  obtain ⟨die, hdie⟩ := exists_of_isOk (x := exThrow .python) (by decide +kernel)
  have hv : exThrow .python = .ok (.uniform ⟨.int, 1#64, 7#64, false, 0#64, 0#64, 6#64, false⟩ []) := by
    have h1 : Uniform.check exMachine .int 1#64 7#64 false 0#64 = .ok () := by decide +kernel
    have h2 : Uniform.fill exMachine .int 1#64 7#64 false 0#64 = .ok ⟨.int, 1#64, 7#64, false, 0#64, 0#64, 6#64, false⟩ := by decide +kernel
    have n1 : (Lang.python).numeric exDouble .int (.int 1) = .ok 1#64 := by decide +kernel
    have n2 : (Lang.python).numeric exDouble .int (.int 7) = .ok 7#64 := by decide +kernel
    have n3 : (Lang.python).numeric exDouble .int (.int 0) = .ok 0#64 := by decide +kernel
    unfold exThrow BoundDist.createUniform
    simp only [Option.getD_some, Option.getD_none, zeroOf, n1, n2, n3, Out.bind_ok]
    rw [DistObj.newUniform, h1, Out.bind_ok, h2, Out.bind_ok]
  rw [hv] at hdie
  obtain rfl := (Out.ok.inj hdie).symm
  obtain ⟨d, hd⟩ := exists_of_isOk (x := DistObj.newMixture exMachine [exCoin, .uniform ⟨.int, 1#64, 7#64, false, 0#64, 0#64, 6#64, false⟩ []]
    [F64.one, dFive]) (by decide +kernel)
  have hm : BoundDist.createMixture exMachine .python exDouble [exCoin, .uniform ⟨.int, 1#64, 7#64, false, 0#64, 0#64, 6#64, false⟩ []]
      (some [.float F64.one, .float dFive]) = .ok d :=
    (C156_weights_partial (by decide) (doubles_back [F64.one, dFive])).trans hd
  refine ⟨_, d, hv, hm, .mixture (fun c hc => ?_) hm, ?_⟩
  · simp only [List.mem_cons, List.not_mem_nil, or_false] at hc
    rcases hc with rfl | rfl
    · exact .roulette hcoin
    · exact .uniform hv
  · obtain ⟨dim, types, bounds, inv, h1, h2, h3, h4, rfl⟩ := DistObj.newMixture_iff.mp hd
    have hi : inv = ieee.div F64.one (ieee.total [F64.one, dFive]) := (DistObj.inverse_parts h3).2.1
    refine .mixture ?_ fun c hc => ?_
    · rw [show Mixture.areas exMachine inv _ = [F64.zero, 0x3fc5555555555555#64, F64.one] by rw [hi]; decide +kernel]
      intro b hb
      simp only [List.mem_cons, List.not_mem_nil, or_false] at hb
      rcases hb with rfl | rfl | rfl
      · exact fun h => absurd ((realValue_none _).mp h) (by decide)
      · exact fun h => absurd ((realValue_none _).mp h) (by decide)
      · exact fun h => absurd ((realValue_none _).mp h) (by decide)
    · simp only [List.mem_cons, List.not_mem_nil, or_false] at hc
      rcases hc with rfl | rfl
      · exact exCoin_steady
      · exact .uniform

end CCS.Props.BoundDist
