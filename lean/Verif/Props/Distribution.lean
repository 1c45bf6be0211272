import Verif.Lemmas.Distribution
import Verif.Lemmas.Roulette
import Verif.Spec.Ieee

/-!
# C75–C77, C83: distributions
-/

namespace CCS.Props

open CCS CCS.Spec CCS.Distribution

variable {σ : Type}

/-! ## A machine for examples -/

/-- IEEE arithmetic, and a counter for generator. -/
def exMachine : Machine Nat where
  ops := ieee
  exp := fun x => x
  log := fun x => x
  floor := fun x => x
  round := fun x => x
  toInt := fun _ => none
  guess := fun _ _ => 0
  uniform := fun g => (F64.zero, g + 1)
  uniformInt := fun g n => if 1 ≤ n.toNat ∧ n.toNat ≤ 4294967295 then some (BitVec.ofNat 64 (g % n.toNat), g + 1) else none
  flat := fun g a _ => (a, g + 1)
  gaussian := fun g s => (s, g + 1)
  tail := fun g a _ => (a, g + 1)
  turns := 10

theorem exMachine_int : GslInt exMachine 4294967295 := by
  intro g n
  refine ⟨fun h1 h2 => ⟨BitVec.ofNat 64 (g % n.toNat), g + 1, if_pos ⟨h1, h2⟩, ?_⟩, fun h => if_neg (by omega)⟩
  have := Nat.mod_lt g (show 0 < n.toNat by omega)
  rw [BitVec.toNat_ofNat, Nat.mod_eq_of_lt (by have := n.isLt; omega)]
  exact this

/-- Whether a result is a success, and what it is. -/
def isOk {α : Type} : Out α → Bool
  | .ok _ => true
  | _ => false

theorem exists_of_isOk {α : Type} {x : Out α} (h : isOk x = true) : ∃ a, x = .ok a := by
  cases x with
  | ok a => exact ⟨a, rfl⟩
  | err e => cases h
  | ub => cases h

/-- Areas of an example: two equal halves. -/
def exHalves : List F64 := [F64.one, F64.one]

/-! ## C77 -/

/-- **C77** Every distribution, however nested, makes the same samples whichever layout is asked, writes every cell of the
request and nothing else.  Missing for the full claim: columns that are NULL, see `C77_null_column`. -/
theorem C77_layouts_partial {M : Machine σ} {d : Sampler σ} (h : Made M d) (n : Nat) (g : σ) :
    ∃ out, Layouts d n g out := by
  obtain ⟨T, hT⟩ := good_made h
  exact ⟨_, layouts_of_good hT n g⟩

/-- **C77** The samples of a multivariate distribution are those of its components, each in its own columns. -/
theorem C77_multivariate_partial {M : Machine σ} {ds : List (Sampler σ)} {d : Sampler σ} (h : ∀ x ∈ ds, Made M x)
    (hd : createMultivariate ds = .ok d) (n : Nat) (g : σ) : ∃ out, Layouts d n g out ∧ InTurn n ds g out := by
  obtain ⟨Ts, hTs⟩ := goods_of fun x hx => good_made (h x hx)
  exact ⟨_, layouts_of_good (good_multi hTs hd) n g, chain_of_goods hTs n g⟩

/-- **C77** Every sample of a mixture is a sample of one of its components. -/
theorem C77_mixture_partial {M : Machine σ} {ds : List (Sampler σ)} {ws : List F64} {d : Sampler σ}
    (h : ∀ x ∈ ds, Made M x) (hd : createMixture M ds ws = .ok d) (n : Nat) (g : σ) :
    ∃ out, Layouts d n g out ∧ ∀ rows g', out = some (.ok (rows, g')) → Picks M ds n g rows g' := by
  obtain ⟨Ts, hTs⟩ := goods_of fun x hx => good_made (h x hx)
  obtain ⟨areas, hg⟩ := good_mixture hTs hd
  exact ⟨_, layouts_of_good hg n g, fun rows g' hr => picks_of_goods M hTs _ _ n g rows g' hr⟩

/-- The outcome that `Fills` states is unique. -/
theorem fills_unique {act : Act σ} {n dim : Nat} {addr : Nat → Nat → Nat} {g : σ} {o o' : Option (Out (Rows × σ))}
    (h : Fills act n dim addr g o) (h' : Fills act n dim addr g o') : o = o' := by
  have key : ∀ rows g1 rows' g1', Fills act n dim addr g (some (.ok (rows, g1))) →
      Fills act n dim addr g (some (.ok (rows', g1'))) → rows = rows' ∧ g1 = g1' := by
    rintro rows g1 rows' g1' ⟨hl, hw, hA⟩ ⟨hl', hw', hA'⟩
    obtain ⟨m, e1, e2, -⟩ := hA (fun _ => 0)
    obtain ⟨m', e1', e2', -⟩ := hA' (fun _ => 0)
    rw [e1] at e1'
    simp only [Option.some.injEq, Out.ok.injEq, Store.mk.injEq] at e1'
    obtain ⟨rfl, rfl⟩ := e1'
    refine ⟨List.ext_getElem (by omega) fun r h1 h2 => List.ext_getElem ?_ fun c h3 h4 => ?_, rfl⟩
    · rw [hw _ (List.getElem_mem _), hw' _ (List.getElem_mem _)]
    · rw [← e2 r c _ (at_some.mpr ⟨_, List.getElem?_eq_getElem h1, List.getElem?_eq_getElem h3⟩),
        ← e2' r c _ (at_some.mpr ⟨_, List.getElem?_eq_getElem h2, List.getElem?_eq_getElem h4⟩)]
  rcases o with _ | (⟨rows, g1⟩ | e | _) <;> rcases o' with _ | (⟨rows', g1'⟩ | e' | _)
  case some.ok.some.ok =>
    obtain ⟨rfl, rfl⟩ := key _ _ _ _ h h'
    rfl
  case some.err.some.err =>
    have a := h (fun _ => 0)
    rw [h' (fun _ => 0)] at a
    simp only [Option.some.injEq, Out.err.injEq] at a
    rw [a]
  all_goals
    first
      | rfl
      | (exfalso
         have h1 := h
         have h2 := h'
         simp only [Fills] at h1 h2
         first
           | (have a := h1 (fun _ => 0); have b := h2 (fun _ => 0); rw [a] at b; cases b)
           | (obtain ⟨_, a, -⟩ := h1.2.2 (fun _ => 0); have b := h2 (fun _ => 0); rw [a] at b; cases b)
           | (obtain ⟨_, a, -⟩ := h2.2.2 (fun _ => 0); have b := h1 (fun _ => 0); rw [b] at a; cases a))

/-- **C77** What `Layouts` states determines the samples: two outcomes for one call are the same. -/
theorem C77_outcome_unique {d : Sampler σ} {n : Nat} {g : σ} {o o' : Option (Out (Rows × σ))} (h : Layouts d n g o)
    (h' : Layouts d n g o') : o = o' := fills_unique (h.contiguous 0) (h'.contiguous 0)

/-- **C77** fails when some of the columns, not all, are NULL: whatever the request, the pointers that a mixture hands to
its components contain one that was never set. -/
theorem C77_unset_pointers {dim i : Nat} {values : List Ptr} (hnull : Ptr.null ∈ values.take dim) :
    Ptr.unset ∈ Mixture.columns dim i values :=
  List.mem_map.mpr ⟨Ptr.null, hnull, rfl⟩

/-- A pair of dice, and a mixture of two of them. -/
def exDice : Out (Sampler Nat) := do
  let die ← createUniform exMachine .int 1#64 7#64 false 0#64
  createMultivariate [die, die]

def exMixed : Out (Sampler Nat) := do
  let pair ← exDice
  createMixture exMachine [pair, pair] exHalves

/-- What a call leaves in some cells. -/
def peek (x : Out (Sampler Nat)) (call : Sampler Nat → Act Nat) (cells : List Nat) : Option (Out (List (BitVec 64))) :=
  match x with
  | .ok d => match call d ⟨0, fun _ => 99#64⟩ with
    | none => none
    | some (.ok s) => some (.ok (cells.map s.mem))
    | some (.err e) => some (.err e)
    | some .ub => some .ub
  | .err e => some (.err e)
  | .ub => some .ub

/-- **C77** fails: the mixture of two pairs of dice, asked for the second column only, uses a pointer that was never
set. -/
theorem C77_null_column : peek exMixed (·.callSoa 1 [.null, .cell 0]) [0] = some .ub ∧
    peek exMixed (·.callSoa 1 [.cell 10, .cell 0]) [10, 0] = some (.ok [2#64, 3#64]) ∧
    peek exDice (·.callSoa 1 [.null, .cell 0]) [0] = some (.ok [1#64]) := by decide +kernel

example : peek exDice (·.callSamples 2 (some 0)) [0, 1, 2, 3, 4] = some (.ok [1#64, 3#64, 2#64, 4#64, 99#64]) := by
  decide +kernel
example : peek exDice (·.callStrided 2 3 (some 0)) [0, 1, 2, 3, 4, 5] =
    some (.ok [1#64, 3#64, 99#64, 2#64, 4#64, 99#64]) := by decide +kernel
example : peek exDice (·.callSoa 2 [.cell 10, .cell 0]) [0, 1, 10, 11] = some (.ok [3#64, 4#64, 1#64, 2#64]) := by
  decide +kernel

theorem exDice_made : ∃ d, exDice = .ok d ∧ Made exMachine d := by
  obtain ⟨die, h1⟩ := exists_of_isOk (x := createUniform exMachine .int 1#64 7#64 false 0#64) (by decide +kernel)
  have h2 : exDice = createMultivariate [die, die] := by
    unfold exDice; rw [h1]; rfl
  obtain ⟨d, hd⟩ := exists_of_isOk (x := exDice) (by decide +kernel)
  refine ⟨d, hd, .multivariate (ds := [die, die]) ?_ (h2 ▸ hd)⟩
  intro x hx
  simp only [List.mem_cons, List.not_mem_nil, or_false, or_self] at hx
  subst hx
  exact .uniform h1

/-- The hypotheses of the theorems above are met by a mixture of pairs of dice. -/
example : ∃ d, exMixed = .ok d ∧ Made exMachine d := by
  obtain ⟨p, h1, hp⟩ := exDice_made
  have h2 : exMixed = createMixture exMachine [p, p] exHalves := by
    unfold exMixed; rw [h1]; rfl
  obtain ⟨d, hd⟩ := exists_of_isOk (x := exMixed) (by decide +kernel)
  refine ⟨d, hd, .mixture (ds := [p, p]) ?_ (h2 ▸ hd)⟩
  intro x hx
  simp only [List.mem_cons, List.not_mem_nil, or_false, or_self] at hx
  subst hx
  exact hp

/-! ## C75 -/

theorem intRange_ok {i : Int} {v : BitVec 64} (h : intRange i = .ok v) : v.toInt = i := by
  unfold intRange at h
  split at h
  · next hi =>
    obtain rfl := Out.ok.inj h
    rw [BitVec.toInt_ofInt]
    exact Int.bmod_eq_of_le (by omega) (by omega)
  · cases h

theorem intRange_of {i : Int} (h1 : -2 ^ 63 ≤ i) (h2 : i < 2 ^ 63) : intRange i = .ok (BitVec.ofInt 64 i) :=
  if_pos ⟨h1, h2⟩

theorem toInt_ofInt64 {i : Int} (h1 : -2 ^ 63 ≤ i) (h2 : i < 2 ^ 63) : (BitVec.ofInt 64 i).toInt = i := by
  rw [BitVec.toInt_ofInt]
  exact Int.bmod_eq_of_le (by omega) (by omega)

/-- What an accepted linear uniform integer distribution is. -/
theorem uniform_int_ok {M : Machine σ} {lower upper q : BitVec 64} {d : Sampler σ}
    (h : createUniform M .int lower upper false q = .ok d) :
    lower.toInt < upper.toInt ∧ 0 ≤ q.toInt ∧ upper.toInt - lower.toInt < 2 ^ 63 ∧ q.toInt ≤ upper.toInt - lower.toInt ∧
      ∃ k : BitVec 64, k.toInt = steps lower upper q ∧ ∃ u : Uniform,
        u = ⟨.int, lower, upper, false, q, 0#64, k, decide (q ≠ 0#64)⟩ ∧
        d = ⟨1, [.int], [u.bounds], u.samples M, u.strided M, soaOne (u.samples M)⟩ := by
  unfold createUniform at h
  obtain ⟨_, h1, h⟩ := bind_ok_split h
  obtain ⟨u, h2, h⟩ := bind_ok_split h
  unfold Uniform.check at h1
  simp only [Bool.false_eq_true, false_and, false_or] at h1
  split at h1
  · cases h1
  · next hc =>
    obtain ⟨w, hw, h1⟩ := bind_ok_split h1
    have hwi := intRange_ok hw
    have hlt : upper.toInt - lower.toInt < 2 ^ 63 := by rw [← hwi]; exact BitVec.toInt_lt
    have hq : ¬ w.toInt < q.toInt := by
      intro hlt; rw [refute_true hlt] at h1; cases h1
    refine ⟨by omega, by omega, hlt, by omega, ?_⟩
    unfold Uniform.fill at h2
    simp only [Bool.false_eq_true, if_false] at h2
    rw [hw] at h2
    simp only [Out.bind_ok] at h2
    unfold steps
    by_cases hq0 : q = 0#64
    · rw [if_pos hq0] at h2 ⊢
      exact ⟨w, hwi, u, (Out.ok.inj h2).symm, (Out.ok.inj h).symm⟩
    · rw [if_neg hq0] at h2 ⊢
      obtain ⟨k, hk, h2⟩ := bind_ok_split h2
      refine ⟨k, ?_, u, (Out.ok.inj h2).symm, (Out.ok.inj h).symm⟩
      rw [intRange_ok hk, hwi, Int.tdiv_eq_ediv_of_nonneg (by omega)]

theorem drawN_all {D : σ → Option (Out (BitVec 64 × σ))} {P : BitVec 64 → Prop}
    (h : ∀ g, ∃ v g', D g = some (.ok (v, g')) ∧ P v) : ∀ n g, ∃ vs g', drawN D n g = some (.ok (vs, g')) ∧ ∀ v ∈ vs, P v := by
  intro n
  induction n with
  | zero => intro g; exact ⟨[], g, rfl, by simp⟩
  | succ n ih =>
    intro g
    obtain ⟨v, g1, h1, hv⟩ := h g
    obtain ⟨vs, g2, h2, hvs⟩ := ih g1
    refine ⟨v :: vs, g2, by simp [drawN, h1, rbind, h2], ?_⟩
    intro x hx
    rcases List.mem_cons.mp hx with rfl | hx
    · exact hv
    · exact hvs x hx

theorem mapOut_all {f : BitVec 64 → Out (BitVec 64)} {P Q : BitVec 64 → Prop} (h : ∀ v, P v → ∃ w, f v = .ok w ∧ Q w) :
    ∀ vs : List (BitVec 64), (∀ v ∈ vs, P v) → ∃ ws, mapOut f vs = .ok ws ∧ ∀ w ∈ ws, Q w := by
  intro vs
  induction vs with
  | nil => intro _; exact ⟨[], rfl, by simp⟩
  | cons v vs ih =>
    intro hv
    obtain ⟨w, h1, hw⟩ := h v (hv v (by simp))
    obtain ⟨ws, h2, hws⟩ := ih fun x hx => hv x (by simp [hx])
    refine ⟨w :: ws, by simp [mapOut, h1, h2], ?_⟩
    intro x hx
    rcases List.mem_cons.mp hx with rfl | hx
    · exact hw
    · exact hws x hx

/-- **C75** Every sample of an accepted linear uniform integer distribution lies in `[lower, upper)`, differs from `lower`
by a multiple of the quantization, with a whole step left below `upper`, and sampling always succeeds, in every layout.  Missing for the full claim: more values
than the generator can choose from (`C75_wide_aborts`), and bounds too far apart (`C75_wide_bounds`). -/
theorem C75_uniform_int_partial {M : Machine σ} {range : Nat} (hM : GslInt M range) {lower upper q : BitVec 64}
    {d : Sampler σ} (hd : createUniform M .int lower upper false q = .ok d) (hr : steps lower upper q ≤ range) (n : Nat)
    (g : σ) : ∃ rows g', Layouts d n g (some (.ok (rows, g'))) ∧
      ∀ row ∈ rows, ∀ v ∈ row, lower.toInt ≤ v.toInt ∧ v.toInt < upper.toInt ∧ v.toInt + q.toInt ≤ upper.toInt ∧
        (q ≠ 0#64 → q.toInt ∣ v.toInt - lower.toInt) := by
  obtain ⟨hlt, hq, hw, hqw, k, hk, u, rfl, rfl⟩ := uniform_int_ok hd
  have hlo := BitVec.le_toInt lower
  have hhi := BitVec.toInt_lt (x := upper)
  have hk1 : 1 ≤ k.toInt := by
    rw [hk]; unfold steps
    split
    · omega
    · next h0 =>
      have : 0 < q.toInt := by
        rcases Int.lt_or_eq_of_le hq with h | h
        · exact h
        · exact absurd (BitVec.eq_of_toInt_eq (by rw [← h]; rfl)) h0
      rw [Int.le_ediv_iff_mul_le this]; omega
  have hkn : (k.toNat : Int) = k.toInt := by
    rw [BitVec.toInt_eq_toNat_cond] at hk1 ⊢
    split <;> split at hk1 <;> have := k.isLt <;> omega
  generalize hu : Uniform.mk .int lower upper false q 0#64 k (decide (q ≠ 0#64)) = u at hd ⊢
  -- the raw draws
  have hraw : ∀ g, ∃ v g', u.rawInt M g = some (.ok (v, g')) ∧ 0 ≤ v.toInt ∧ v.toInt < k.toInt := by
    intro g
    obtain ⟨v, g', h1, h2⟩ := (hM g k).1 (by omega) (by omega)
    have hkl := BitVec.toInt_lt (x := k)
    refine ⟨v, g', by subst hu; simp [Uniform.rawInt, h1], ?_⟩
    have : v.toInt = v.toNat := BitVec.toInt_eq_toNat_of_lt (by omega)
    omega
  let Q : BitVec 64 → Prop := fun v => lower.toInt ≤ v.toInt ∧ v.toInt < upper.toInt ∧ v.toInt + q.toInt ≤ upper.toInt ∧
    (q ≠ 0#64 → q.toInt ∣ v.toInt - lower.toInt)
  obtain ⟨f, hbody, hf⟩ : ∃ f : BitVec 64 → Out (BitVec 64), (∀ n addr, uniformBody M u n addr =
      .seq (.loop (fun i => .put (addr i) (u.rawInt M)) n 0) (.loop (fun i => .update (addr i) f) n 0)) ∧
      ∀ v, 0 ≤ v.toInt ∧ v.toInt < k.toInt → ∃ w, f v = .ok w ∧ Q w := by
    by_cases h0 : q = 0#64
    · refine ⟨u.shiftInt, fun n addr => by subst hu; simp [uniformBody, h0], fun v hv => ?_⟩
      have hsteps : k.toInt = upper.toInt - lower.toInt := by rw [hk, steps, if_pos h0]
      have h1 : -2 ^ 63 ≤ v.toInt + lower.toInt := by omega
      have h2 : v.toInt + lower.toInt < 2 ^ 63 := by omega
      refine ⟨_, by subst hu; exact intRange_of h1 h2, ?_⟩
      simp only [Q, toInt_ofInt64 h1 h2]
      exact ⟨by omega, by omega, by subst h0; simp; omega, fun h => absurd h0 h⟩
    · have hqp : 0 < q.toInt := by
        rcases Int.lt_or_eq_of_le hq with h | h
        · exact h
        · exact absurd (BitVec.eq_of_toInt_eq (by rw [← h]; rfl)) h0
      refine ⟨u.stepInt, fun n addr => by subst hu; simp [uniformBody, h0], fun v hv => ?_⟩
      have hsteps : k.toInt = (upper.toInt - lower.toInt) / q.toInt := by rw [hk, steps, if_neg h0]
      have hmul : k.toInt * q.toInt ≤ upper.toInt - lower.toInt := by
        rw [hsteps]; exact Int.ediv_mul_le _ (by omega)
      have hvq : (v.toInt + 1) * q.toInt ≤ k.toInt * q.toInt := Int.mul_le_mul_of_nonneg_right (by omega) (by omega)
      have hv0 : 0 ≤ v.toInt * q.toInt := Int.mul_nonneg hv.1 (by omega)
      rw [Int.add_mul, Int.one_mul] at hvq
      have h1 : -2 ^ 63 ≤ v.toInt * q.toInt := by omega
      have h2 : v.toInt * q.toInt < 2 ^ 63 := by omega
      have h3 : -2 ^ 63 ≤ v.toInt * q.toInt + lower.toInt := by omega
      have h4 : v.toInt * q.toInt + lower.toInt < 2 ^ 63 := by omega
      refine ⟨BitVec.ofInt 64 (v.toInt * q.toInt + lower.toInt), ?_, ?_⟩
      · subst hu
        simp only [Uniform.stepInt, intRange_of h1 h2, Out.bind_ok, toInt_ofInt64 h1 h2]
        exact intRange_of h3 h4
      · simp only [Q, toInt_ofInt64 h3 h4]
        refine ⟨by omega, by omega, by omega, fun _ => ?_⟩
        rw [Int.add_sub_cancel]
        exact Int.dvd_mul_left _ _
  have hgood := good_column (V := fun n g => thenMap (drawN (u.rawInt M) n g) f)
    (fun n addr hi g => by rw [hbody]; exact fills1_update hi (fills1_put addr _ n g hi) f) (fun g => rfl)
    [.int] [u.bounds] (uniform_samples M u) (uniform_strided M u)
  have hlay := layouts_of_good hgood n g
  obtain ⟨vs, g1, h1, hvs⟩ := drawN_all hraw n g
  obtain ⟨ws, h2, hws⟩ := mapOut_all hf vs hvs
  simp only [h1, thenMap, rbind, h2, single] at hlay
  refine ⟨_, _, hlay, ?_⟩
  intro row hrow v hv
  obtain ⟨w, hw', rfl⟩ := List.mem_map.mp hrow
  simp only [List.mem_cons, List.not_mem_nil, or_false] at hv
  subst hv
  exact hws v hw'

/-- **C75** Every value of the grid with a whole step left below `upper` can be drawn: there is a number of `[0, steps)` such that the
sample is that value whenever the generator answers that number. -/
theorem C75_every_value_partial {M : Machine σ} {lower upper q : BitVec 64} {d : Sampler σ}
    (hd : createUniform M .int lower upper false q = .ok d) (x : BitVec 64) (hl : lower.toInt ≤ x.toInt)
    (hu : x.toInt < upper.toInt) (hlast : x.toInt + q.toInt ≤ upper.toInt)
    (hgrid : q ≠ 0#64 → q.toInt ∣ x.toInt - lower.toInt) :
    ∃ j : BitVec 64, (j.toNat : Int) < steps lower upper q ∧ x.toInt = lower.toInt + j.toNat * (if q = 0#64 then 1 else q.toInt) ∧
      ∀ g g', M.uniformInt g (BitVec.ofInt 64 (steps lower upper q)) = some (j, g') → Layouts d 1 g (some (.ok ([[x]], g'))) := by
  obtain ⟨hlt, hq, hw, hqw, k, hk, u, rfl, rfl⟩ := uniform_int_ok hd
  have hlo := BitVec.le_toInt lower
  have hhi := BitVec.toInt_lt (x := upper)
  have hk' : BitVec.ofInt 64 (steps lower upper q) = k := by rw [← hk, BitVec.ofInt_toInt]
  rw [hk']
  generalize hu' : Uniform.mk .int lower upper false q 0#64 k (decide (q ≠ 0#64)) = u at hd ⊢
  obtain ⟨f, j, hbody, hj, hf⟩ : ∃ (f : BitVec 64 → Out (BitVec 64)) (j : BitVec 64), (∀ n addr, uniformBody M u n addr =
      .seq (.loop (fun i => .put (addr i) (u.rawInt M)) n 0) (.loop (fun i => .update (addr i) f) n 0)) ∧
      ((j.toNat : Int) < steps lower upper q ∧ x.toInt = lower.toInt + j.toNat * (if q = 0#64 then 1 else q.toInt)) ∧ f j = .ok x := by
    by_cases h0 : q = 0#64
    · have h1 : -2 ^ 63 ≤ x.toInt - lower.toInt := by omega
      have h2 : x.toInt - lower.toInt < 2 ^ 63 := by omega
      have h3 : (BitVec.ofInt 64 (x.toInt - lower.toInt)).toInt = x.toInt - lower.toInt := toInt_ofInt64 h1 h2
      refine ⟨u.shiftInt, BitVec.ofInt 64 (x.toInt - lower.toInt), fun n addr => by subst hu'; simp [uniformBody, h0], ?_, ?_⟩
      · rw [steps, if_pos h0, if_pos h0, BitVec.toNat_ofInt]; omega
      · subst hu'
        unfold Uniform.shiftInt
        simp only
        rw [h3, intRange_of (by omega) (by omega), Int.sub_add_cancel, BitVec.ofInt_toInt]
    · have hqp : 0 < q.toInt := by
        rcases Int.lt_or_eq_of_le hq with h | h
        · exact h
        · exact absurd (BitVec.eq_of_toInt_eq (by rw [← h]; rfl)) h0
      obtain ⟨c, hc⟩ := hgrid h0
      have hc0 : 0 ≤ c := by
        rcases Int.lt_or_le c 0 with h | h
        · have := Int.mul_neg_of_pos_of_neg hqp h
          omega
        · exact h
      have hcq : c * q.toInt = x.toInt - lower.toInt := by rw [Int.mul_comm, ← hc]
      have hck : c < steps lower upper q := by
        rw [steps, if_neg h0]
        have : c + 1 ≤ (upper.toInt - lower.toInt) / q.toInt := by
          rw [Int.le_ediv_iff_mul_le hqp, Int.add_mul, Int.one_mul]; omega
        omega
      have hc1 : c ≤ c * q.toInt := by
        have := Int.mul_le_mul_of_nonneg_left (show (1 : Int) ≤ q.toInt by omega) hc0
        omega
      have h3 : (BitVec.ofInt 64 c).toInt = c := toInt_ofInt64 (by omega) (by omega)
      refine ⟨u.stepInt, BitVec.ofInt 64 c, fun n addr => by subst hu'; simp [uniformBody, h0], ?_, ?_⟩
      · have h4 : ((BitVec.ofInt 64 c).toNat : Int) = c := by rw [BitVec.toNat_ofInt]; omega
        rw [if_neg h0, h4, hcq]
        omega
      · subst hu'
        unfold Uniform.stepInt
        simp only
        rw [h3, hcq, intRange_of (by omega) (by omega)]
        simp only [Out.bind_ok]
        rw [toInt_ofInt64 (by omega) (by omega), intRange_of (by omega) (by omega), Int.sub_add_cancel, BitVec.ofInt_toInt]
  refine ⟨j, hj.1, hj.2, fun g g' hg => ?_⟩
  have hgood := good_column (V := fun n g => thenMap (drawN (u.rawInt M) n g) f)
    (fun n addr hi g => by rw [hbody]; exact fills1_update hi (fills1_put addr _ n g hi) f) (fun g => rfl)
    [.int] [u.bounds] (uniform_samples M u) (uniform_strided M u)
  have hlay := layouts_of_good hgood 1 g
  have hraw : u.rawInt M g = some (.ok (j, g')) := by subst hu'; simp [Uniform.rawInt, hg]
  simpa [drawN, hraw, thenMap, rbind, mapOut, hf, single] using hlay

/-- **C75** The choice is fair: the numbers `[0, steps)`, between which the generator chooses, and the values of the grid with a whole step
left below `upper` correspond to each other one to one, whatever the state of the generator. -/
theorem C75_fair {M : Machine σ} {lower upper q : BitVec 64} {d : Sampler σ} (hd : createUniform M .int lower upper false q = .ok d) :
    ∃ f : Nat → BitVec 64,
      (∀ j g g', M.uniformInt g (BitVec.ofInt 64 (steps lower upper q)) = some (j, g') → (j.toNat : Int) < steps lower upper q →
        Layouts d 1 g (some (.ok ([[f j.toNat]], g')))) ∧
      (∀ i j : Nat, (i : Int) < steps lower upper q → (j : Int) < steps lower upper q → f i = f j → i = j) ∧
      ∀ x : BitVec 64, (∃ j : Nat, (j : Int) < steps lower upper q ∧ f j = x) ↔
        lower.toInt ≤ x.toInt ∧ x.toInt < upper.toInt ∧ x.toInt + q.toInt ≤ upper.toInt ∧ (q ≠ 0#64 → q.toInt ∣ x.toInt - lower.toInt) := by
  obtain ⟨hlt, hq, hw, hqw, -⟩ := uniform_int_ok hd
  have hlo := BitVec.le_toInt lower
  have hhi := BitVec.toInt_lt (x := upper)
  have hqp : q ≠ 0#64 → 0 < q.toInt := by
    intro h0
    rcases Int.lt_or_eq_of_le hq with h | h
    · exact h
    · exact absurd (BitVec.eq_of_toInt_eq (by rw [← h]; rfl)) h0
  let st : Int := if q = 0#64 then 1 else q.toInt
  have hst : 0 < st := by
    show 0 < (if q = 0#64 then 1 else q.toInt)
    split
    · exact Int.one_pos
    · next h0 => exact hqp h0
  have hle : ∀ j : Nat, (j : Int) < steps lower upper q → lower.toInt + (j : Int) * st + st ≤ upper.toInt := by
    intro j hj
    have h1 : ((j : Int) + 1) * st ≤ steps lower upper q * st := Int.mul_le_mul_of_nonneg_right (by omega) (by omega)
    have h2 : steps lower upper q * st ≤ upper.toInt - lower.toInt := by
      show steps lower upper q * (if q = 0#64 then 1 else q.toInt) ≤ _
      unfold steps
      split
      · omega
      · next h0 => exact Int.ediv_mul_le _ (by have := hqp h0; omega)
    rw [Int.add_mul, Int.one_mul] at h1
    omega
  have hnn : ∀ j : Nat, 0 ≤ (j : Int) * st := fun j => Int.mul_nonneg (Int.natCast_nonneg j) (by omega)
  have hval : ∀ j : Nat, (j : Int) < steps lower upper q →
      (BitVec.ofInt 64 (lower.toInt + (j : Int) * st)).toInt = lower.toInt + (j : Int) * st := by
    intro j hj
    have h1 := hle j hj
    have h2 := hnn j
    exact toInt_ofInt64 (by omega) (by omega)
  have hgrid : ∀ j : Nat, (j : Int) < steps lower upper q → ∀ x : BitVec 64, x.toInt = lower.toInt + (j : Int) * st →
      lower.toInt ≤ x.toInt ∧ x.toInt < upper.toInt ∧ x.toInt + q.toInt ≤ upper.toInt ∧ (q ≠ 0#64 → q.toInt ∣ x.toInt - lower.toInt) := by
    intro j hj x hx
    have h1 := hle j hj
    have h2 := hnn j
    have h3 : q.toInt ≤ st := by
      show q.toInt ≤ (if q = 0#64 then 1 else q.toInt)
      split
      · next h0 => subst h0; decide
      · exact Int.le_refl _
    refine ⟨by omega, by omega, by omega, fun h0 => ⟨j, ?_⟩⟩
    have h4 : st = q.toInt := if_neg h0
    rw [hx, h4, Int.mul_comm]
    omega
  have hinj : ∀ i j : Nat, (i : Int) * st = (j : Int) * st → i = j := fun i j h => by
    have := Int.eq_of_mul_eq_mul_right (by omega) h
    omega
  refine ⟨fun j => BitVec.ofInt 64 (lower.toInt + (j : Int) * st), fun j g g' hg hj => ?_, fun i j hi hj h => ?_, fun x => ⟨?_, ?_⟩⟩
  · have hx := hval j.toNat hj
    obtain ⟨a1, a2, a3, a4⟩ := hgrid j.toNat hj _ hx
    obtain ⟨j', -, h1, h2⟩ := C75_every_value_partial hd _ a1 a2 a3 a4
    rw [hx] at h1
    have h3 : j.toNat = j'.toNat := hinj _ _ (by show (j.toNat : Int) * st = (j'.toNat : Int) * (if q = 0#64 then 1 else q.toInt); omega)
    have h4 : j = j' := BitVec.eq_of_toNat_eq h3
    subst h4
    exact h2 g g' hg
  · have h1 := congrArg BitVec.toInt h
    simp only [hval i hi, hval j hj] at h1
    exact hinj i j (by omega)
  · rintro ⟨j, hj, rfl⟩
    exact hgrid j hj _ (hval j hj)
  · rintro ⟨a1, a2, a3, a4⟩
    obtain ⟨j, hj, h1, -⟩ := C75_every_value_partial hd x a1 a2 a3 a4
    refine ⟨j.toNat, hj, ?_⟩
    show BitVec.ofInt 64 (lower.toInt + (j.toNat : Int) * (if q = 0#64 then 1 else q.toInt)) = x
    rw [← h1, BitVec.ofInt_toInt]

/-- **C75** fails: bounds at least `2^63` apart overflow the check of the quantization, whatever it is. -/
theorem C75_wide_bounds (M : Machine σ) {lower upper q : BitVec 64} (hw : 2 ^ 63 ≤ upper.toInt - lower.toInt)
    (hq : 0 ≤ q.toInt) : createUniform M .int lower upper false q = .ub := by
  unfold createUniform Uniform.check
  simp only [Bool.false_eq_true, false_and, false_or]
  rw [if_neg (by omega)]
  have : intRange (upper.toInt - lower.toInt) = .ub := if_neg (by omega)
  rw [this]; rfl

/-- **C75** fails: a distribution on more values than the generator can choose from is accepted, and sampling it ends the
program. -/
theorem C75_wide_aborts {M : Machine σ} {range : Nat} (hM : GslInt M range) {lower upper q : BitVec 64} {d : Sampler σ}
    (hd : createUniform M .int lower upper false q = .ok d) (hr : range < steps lower upper q) {n : Nat} (hn : 0 < n)
    (g : σ) (m : Nat → BitVec 64) (base : Nat) : d.callSamples n (some base) ⟨g, m⟩ = none := by
  obtain ⟨hlt, hq, hw, hqw, k, hk, u, rfl, rfl⟩ := uniform_int_ok hd
  obtain ⟨n, rfl⟩ : ∃ j, n = j + 1 := ⟨n - 1, by omega⟩
  have hkn : (k.toNat : Int) = k.toInt := by
    have hk1 : 0 ≤ k.toInt := by omega
    rw [BitVec.toInt_eq_toNat_cond] at hk1 ⊢
    split <;> split at hk1 <;> have := k.isLt <;> omega
  have h1 := (hM g k).2 (Or.inr (by omega))
  simp [Sampler.callSamples, Uniform.samples, Act.seq, Act.loop, Act.put, Uniform.rawInt, h1]

/-- With the default generator (`gsl_rng_mt19937`, of range `2^32 - 1`): the integers of `[0, 2^33)` are accepted. -/
example : isOk (createUniform exMachine .int 0#64 0x200000000#64 false 0#64) = true ∧
    steps 0#64 0x200000000#64 0#64 = 2 ^ 33 := by decide +kernel
example : isOk (createUniform exMachine .int 5#64 50#64 false 10#64) = true ∧ steps 5#64 50#64 10#64 = 4 := by
  decide +kernel
/-- The last value of `5, 15, 25, 35` that is drawn has a whole step left below 50. -/
example : (35#64).toInt + (10#64).toInt ≤ (50#64).toInt ∧ (10#64).toInt ∣ (35#64).toInt - (5#64).toInt := by decide +kernel
example : (2 : Int) ^ 63 ≤ (0x7fffffffffffffff#64).toInt - (0xffffffffffffffff#64).toInt := by decide +kernel

/-! ## C76 -/

/-- **C76** The bounds of a mixture hold every value within the bounds of a component, column by column, except a bound
that one component includes and another, with the same bound, does not.  Missing for the full claim: those values
(`C76_loses_largest`), and bounds that are NaN. -/
theorem C76_bounds_partial {M : Machine σ} {ds : List (Sampler σ)} {ws : List F64} {d : Sampler σ}
    (hds : ∀ x ∈ ds, Made M x) (hd : createMixture M ds ws = .ok d) {c : Nat} {t : NumType} (ht : d.types[c]? = some t)
    (hp : ∀ x ∈ ds, ∀ b, x.bounds[c]? = some b → Proper b) {x : Sampler σ} (hx : x ∈ ds) {b : Interval}
    (hb : x.bounds[c]? = some b) {v : BitVec 64} (hv : Mem b v) :
    ∃ r, d.bounds[c]? = some r ∧ (Mem r v ∨ Disputed t (ds.filterMap (fun x => x.bounds[c]?)) v) := by
  unfold createMixture at hd
  cases ds with
  | nil => cases hd
  | cons d0 others =>
    simp only at hd
    split at hd
    · cases hd
    · split at hd
      · cases hd
      · obtain ⟨_, h1, hd⟩ := bind_ok_split hd
        obtain ⟨_, _, hd⟩ := bind_ok_split hd
        obtain ⟨_, _, hd⟩ := bind_ok_split hd
        obtain ⟨_, _, hd⟩ := bind_ok_split hd
        obtain ⟨_, h5, hd⟩ := bind_ok_split hd
        obtain ⟨B, h6, hd⟩ := bind_ok_split hd
        obtain ⟨_, _, hd⟩ := bind_ok_split hd
        obtain rfl := Out.ok.inj hd
        have hshape := fun y (hy : y ∈ d0 :: others) => made_shape (hds y hy)
        have htypes : ∀ y ∈ d0 :: others, y.types = d0.types := by
          have : ∀ (l : List (Sampler σ)), Mixture.sameTypes d0.types l = .ok () → ∀ y ∈ l, y.types = d0.types := by
            intro l
            induction l with
            | nil => simp
            | cons e l ih =>
              intro h y hy
              unfold Mixture.sameTypes at h
              split at h
              · cases h
              · next he =>
                rcases List.mem_cons.mp hy with rfl | hy
                · exact (Decidable.not_not.mp he).symm
                · exact ih h y hy
          intro y hy
          rcases List.mem_cons.mp hy with rfl | hy
          · rfl
          · exact this others h5 y hy
        have hdim : ∀ y ∈ d0 :: others, y.dim = d0.dim := by
          intro y hy
          rcases List.mem_cons.mp hy with rfl | hy
          · rfl
          · exact sameDim_ok h1 y hy
        obtain ⟨hB, hcol⟩ := allBounds_ok (hshape d0 (by simp)).1 (fun y hy => by
          rw [(hshape y (by simp [hy])).1, hdim y (by simp [hy])]) h6
        have hc : c < d0.dim := by
          rw [← hdim x hx, ← (hshape x hx).1]; exact (List.getElem?_eq_some_iff.mp hb).1
        have ha : d0.bounds[c]? = some (d0.bounds[c]'(by rw [(hshape d0 (by simp)).1]; exact hc)) :=
          List.getElem?_eq_getElem _
        obtain ⟨col, r, e1, e2, e3⟩ := hcol c _ ha
        generalize d0.bounds[c]'(by rw [(hshape d0 (by simp)).1]; exact hc) = a at ha e3
        refine ⟨r, e2, ?_⟩
        have hall : (d0 :: others).filterMap (fun x => x.bounds[c]?) = a :: col := by
          rw [List.filterMap_cons, ha]
          simp only [List.cons.injEq, true_and]
          have : others.filterMap (fun x => x.bounds[c]?) = (others.map (fun x => x.bounds[c]?)).filterMap id := by
            rw [List.filterMap_map]; rfl
          rw [this, e1, List.filterMap_map]
          simp
        have htype : ∀ y ∈ d0 :: others, ∀ b, y.bounds[c]? = some b → b.type = t := by
          intro y hy b hb
          have h1 : (y.bounds.map (·.type))[c]? = some b.type := by rw [List.getElem?_map, hb]; rfl
          rw [(hshape y hy).2, htypes y hy] at h1
          have ht' : d0.types[c]? = some t := ht
          exact Option.some.inj (h1.symm.trans ht')
        rw [hall]
        have hmem : ∀ y ∈ a :: col, y.type = t ∧ Proper y := by
          intro y hy
          rw [← hall] at hy
          obtain ⟨z, hz, hzb⟩ := List.mem_filterMap.mp hy
          exact ⟨htype z hz y hzb, hp z hz y hzb⟩
        refine unions_cover hmem col a r (fun b hb => by simp [hb]) (hmem a (by simp)).1 ⟨a, by simp, rfl, rfl⟩
          ⟨a, by simp, rfl, rfl⟩ e3 ?_
        have hbm : b ∈ a :: col := by
          rw [← hall]; exact List.mem_filterMap.mpr ⟨x, hx, hb⟩
        rcases List.mem_cons.mp hbm with rfl | hbm
        · exact Or.inl hv
        · exact Or.inr ⟨b, hbm, hv⟩

/-- The bounds of one column. -/
def exLimits (x : Out (Sampler Nat)) : Option (List Interval) :=
  match x with
  | .ok d => some d.bounds
  | _ => none

/-- A normal integer distribution, mixed with a uniform one on `[0, INT_MAX)`. -/
def exNormal : Out (Sampler Nat) := createNormal exMachine .int F64.zero F64.one false 0#64
def exUniform : Out (Sampler Nat) := createUniform exMachine .int 0#64 intMax false 0#64
def exTied : Out (Sampler Nat) := do
  let a ← exNormal
  let b ← exUniform
  createMixture exMachine [a, b] exHalves

/-- **C76** fails: a normal integer distribution can give the largest integer; mixed with a uniform distribution on
`[0, INT_MAX)` it gives a mixture whose bounds do not hold it. -/
theorem C76_loses_largest : exLimits exNormal = some [⟨.int, intMin, intMax, 1#32, 1#32⟩] ∧
    exLimits exTied = some [⟨.int, intMin, intMax, 1#32, 0#32⟩] ∧ Mem ⟨.int, intMin, intMax, 1#32, 1#32⟩ intMax ∧
    ¬ Mem ⟨.int, intMin, intMax, 1#32, 0#32⟩ intMax := by
  refine ⟨by decide +kernel, by decide +kernel, ?_, ?_⟩
  · exact ⟨_, _, _, rfl, rfl, rfl, Or.inl (by decide), Or.inr ⟨by decide, rfl⟩⟩
  · rintro ⟨l, x, u, h1, h2, h3, h4, h5⟩
    have : x = u := Option.some.inj (h2.symm.trans h3)
    rcases h5 with h5 | h5
    · omega
    · exact absurd rfl h5.1

theorem refute_ne_ub {c : Prop} [Decidable c] (e : Err) : refute c e ≠ .ub := by
  unfold refute; split <;> simp

theorem bind_ne_ub {α β : Type} {x : Out α} {f : α → Out β} (h : x ≠ .ub) (h' : ∀ a, x = .ok a → f a ≠ .ub) :
    (x >>= f) ≠ .ub := by
  cases x with
  | ok a => exact h' a rfl
  | err e => simp
  | ub => exact absurd rfl h

/-- **C76** (memory, partial) Building a mixture of one distribution, or of enough of them for their dimension, never writes
outside of its memory.  Missing for the full claim: `C76_heap_overflow`. -/
theorem C76_memory_partial (M : Machine σ) {ds : List (Sampler σ)} {ws : List F64} (hw : ws.length = ds.length)
    (hsize : ds.length ≤ 1 ∨ ∀ d ∈ ds, 7 * d.dim ≤ 8 * ds.length) : createMixture M ds ws ≠ .ub := by
  unfold createMixture
  cases ds with
  | nil => simp
  | cons d0 others =>
    simp only
    split
    · simp
    · rw [if_neg (by omega)]
      have hdim : ∀ (l : List (Sampler σ)), Mixture.sameDim d0.dim l ≠ .ub := by
        intro l
        induction l with
        | nil => simp [Mixture.sameDim]
        | cons e l ih => unfold Mixture.sameDim; split <;> simp_all
      have htypes : ∀ (l : List (Sampler σ)), Mixture.sameTypes d0.types l ≠ .ub := by
        intro l
        induction l with
        | nil => simp [Mixture.sameTypes]
        | cons e l ih => unfold Mixture.sameTypes; split <;> simp_all
      have hsum : ∀ (l : List F64) (acc : F64), sumAreas M.ops acc l ≠ .ub := by
        intro l
        induction l with
        | nil => intro acc; simp [sumAreas]
        | cons e l ih => intro acc; unfold sumAreas; split <;> simp_all
      have hjoin : ∀ (as bs : List Interval), Mixture.joinBounds as bs ≠ .ub := by
        intro as
        induction as with
        | nil => intro bs; simp [Mixture.joinBounds]
        | cons a as ih =>
          intro bs
          cases bs with
          | nil => simp [Mixture.joinBounds]
          | cons b bs =>
            simp only [Mixture.joinBounds]
            refine bind_ne_ub ?_ fun c _ => bind_ne_ub (ih bs) fun cs _ => by simp
            unfold Interval.union; split <;> simp
      have hall : ∀ (room : Nat) (l : List (Sampler σ)) (acc : List Interval),
          (l = [] ∨ Mixture.sizeofInterval * d0.dim ≤ room) → Mixture.allBounds room d0.dim acc l ≠ .ub := by
        intro room l
        induction l with
        | nil => intro acc _; simp [Mixture.allBounds]
        | cons e l ih =>
          intro acc h
          have h : Mixture.sizeofInterval * d0.dim ≤ room := by simpa using h
          unfold Mixture.allBounds
          rw [if_neg (by omega)]
          exact bind_ne_ub (hjoin _ _) fun acc' _ => ih acc' (Or.inr h)
      refine bind_ne_ub (hdim _) fun _ _ => bind_ne_ub (hsum _ _) fun _ _ => bind_ne_ub (refute_ne_ub _) fun _ _ =>
        bind_ne_ub (refute_ne_ub _) fun _ _ => bind_ne_ub (htypes _) fun _ _ => bind_ne_ub (hall _ _ _ ?_) fun _ _ =>
        bind_ne_ub (refute_ne_ub _) fun _ _ => by simp
      rcases hsize with h | h
      · left; simpa using h
      · right
        have := h d0 (by simp)
        simp only [Mixture.sizeofInterval, Mixture.sizeofType]
        omega

/-- **C76** fails: with two distributions or more, too few for their dimension, a mixture is never built: the bounds of the
second one are written past the end of the memory, unless an error comes first. -/
theorem C76_heap_overflow (M : Machine σ) {d0 d1 : Sampler σ} {others : List (Sampler σ)} {ws : List F64}
    (hsize : 8 * (d0 :: d1 :: others).length < 7 * d0.dim) :
    ∀ d, createMixture M (d0 :: d1 :: others) ws ≠ .ok d := by
  intro d h
  unfold createMixture at h
  simp only at h
  split at h
  · cases h
  · split at h
    · cases h
    · obtain ⟨_, _, h⟩ := bind_ok_split h
      obtain ⟨_, _, h⟩ := bind_ok_split h
      obtain ⟨_, _, h⟩ := bind_ok_split h
      obtain ⟨_, _, h⟩ := bind_ok_split h
      obtain ⟨_, _, h⟩ := bind_ok_split h
      obtain ⟨_, h6, h⟩ := bind_ok_split h
      unfold Mixture.allBounds at h6
      rw [if_pos (by simp only [Mixture.sizeofInterval, Mixture.sizeofType]; omega)] at h6
      cases h6

/-- Three dice, and a mixture of two such triples. -/
def exTriple : Out (Sampler Nat) := do
  let die ← createUniform exMachine .int 1#64 7#64 false 0#64
  createMultivariate [die, die, die]

/-- **C76** fails on a mixture that every check accepts: two triples of dice with equal weights overflow the memory. -/
theorem C76_heap_overflow_witness : isOk exTriple = true ∧
    (match exTriple with
      | .ok d => match createMixture exMachine [d, d] exHalves with
        | .ub => true
        | _ => false
      | _ => false) = true := by decide +kernel

example : isOk exMixed = true := by decide +kernel

/-! ## C83 -/

/-- **C83** Samples of a linear uniform integer distribution are within the bounds it reports. -/
theorem C83_uniform_int_partial {M : Machine σ} {range : Nat} (hM : GslInt M range) {lower upper q : BitVec 64}
    {d : Sampler σ} (hd : createUniform M .int lower upper false q = .ok d) : KeepsBounds d := by
  intro n g rows g' hlay
  by_cases hr : steps lower upper q ≤ range
  · obtain ⟨rows', g1, h1, h2⟩ := C75_uniform_int_partial hM hd hr n g
    have := C77_outcome_unique hlay h1
    simp only [Option.some.injEq, Out.ok.injEq, Prod.mk.injEq] at this
    obtain ⟨rfl, rfl⟩ := this
    intro row hrow c v b hv hb
    obtain ⟨_, _, _, _, k, hk, u, rfl, rfl⟩ := uniform_int_ok hd
    obtain ⟨h3, h4, _⟩ := h2 row hrow v (List.mem_of_getElem? hv)
    cases c with
    | zero =>
      simp only [List.getElem?_cons_zero, Option.some.injEq] at hb
      subst hb
      refine ⟨_, _, _, rfl, rfl, rfl, ?_, Or.inl h4⟩
      rcases Int.lt_or_eq_of_le h3 with h | h
      · exact Or.inl h
      · exact Or.inr ⟨by simp [Uniform.bounds], h⟩
    | succ c => simp at hb
  · rcases Nat.eq_zero_or_pos n with rfl | hn
    · have hl := (hlay.contiguous 0).1
      obtain rfl := List.length_eq_zero_iff.mp hl
      intro row hrow
      simp at hrow
    · obtain ⟨m', h1, -⟩ := (hlay.contiguous 0).2.2 (fun _ => 0)
      rw [C75_wide_aborts hM hd (by omega) hn] at h1
      cases h1

theorem searchLoop_index {values : List F64} {t : F64} : ∀ {fuel : Nat} {lower upper index i : Int},
    searchLoop values t fuel lower upper index = some (.ok i) → 0 ≤ i ∧ i + 1 < values.length := by
  intro fuel
  induction fuel with
  | zero => intro _ _ _ _ h; cases h
  | succ fuel ih =>
    intro lower upper index i h
    unfold searchLoop at h
    split at h
    · cases h
    · next hneg =>
      rcases ha : values[index.toNat]? with _ | a
      · simp [ha] at h
      · rcases hb : values[index.toNat + 1]? with _ | b
        · simp only [ha, hb] at h
          split at h
          · exact ih h
          · cases h
        · simp only [ha, hb] at h
          split at h
          · exact ih h
          · split at h
            · exact ih h
            · simp only [Option.some.injEq, Out.ok.injEq] at h
              subst h
              have := (List.getElem?_eq_some_iff.mp hb).1
              omega

theorem drawN_inv {D : σ → Option (Out (BitVec 64 × σ))} {P : BitVec 64 → Prop}
    (h : ∀ g v g', D g = some (.ok (v, g')) → P v) : ∀ n g vs g', drawN D n g = some (.ok (vs, g')) → ∀ v ∈ vs, P v := by
  intro n
  induction n with
  | zero =>
    intro g vs g' hd
    simp only [drawN, Option.some.injEq, Out.ok.injEq, Prod.mk.injEq] at hd
    simp [← hd.1]
  | succ n ih =>
    intro g vs g' hd
    obtain ⟨⟨v, g1⟩, h1, hd⟩ := rbind_ok hd
    obtain ⟨⟨ws, g2⟩, h2, hd⟩ := rbind_ok hd
    simp only [Option.some.injEq, Out.ok.injEq, Prod.mk.injEq] at hd
    obtain ⟨rfl, rfl⟩ := hd
    intro x hx
    rcases List.mem_cons.mp hx with rfl | hx
    · exact h _ _ _ h1
    · exact ih _ _ _ h2 x hx

/-- **C83** Samples of a roulette distribution are within the bounds it reports, whatever the arithmetic and the draws. -/
theorem C83_roulette_partial {M : Machine σ} {areas : List F64} {d : Sampler σ}
    (hd : createRouletteDistribution M areas = .ok d) : KeepsBounds d := by
  intro n g rows g' hlay
  unfold createRouletteDistribution at hd
  obtain ⟨r, hr, hd⟩ := bind_ok_split hd
  obtain rfl := Out.ok.inj hd
  obtain ⟨h1, hmax, -, -, -, rfl⟩ := createRoulette_ok hr
  obtain ⟨hl, -, -⟩ := normalizeAreas_shape M.ops (inv := M.ops.div F64.one (M.ops.total areas)) h1
  generalize normalizeAreas M.ops areas (M.ops.div F64.one (M.ops.total areas)) = values at hl hlay hr
  have hgood := good_column (body := rouletteBody M ⟨areas.length, values⟩)
    (V := fun n g => drawN (Roulette.raw M ⟨areas.length, values⟩) n g)
    (fun n addr hi g => fills1_put addr _ n g hi) (fun g => rfl) [.int] [Roulette.bounds ⟨areas.length, values⟩]
    (samples := Roulette.fillSamples M ⟨areas.length, values⟩) (strided := Roulette.fillStrided M ⟨areas.length, values⟩)
    (fun _ _ => rfl) (fun _ _ _ => rfl)
  have hu := C77_outcome_unique hlay (layouts_of_good hgood n g)
  obtain ⟨⟨vs, g1⟩, h2, h3⟩ := rbind_ok hu.symm
  simp only [Option.some.injEq, Out.ok.injEq, Prod.mk.injEq] at h3
  obtain ⟨rfl, rfl⟩ := h3
  have hvs := drawN_inv (P := fun v => Mem (Roulette.bounds ⟨areas.length, values⟩) v) (fun g v g' h => by
    unfold Roulette.raw Roulette.pick at h
    rcases hs : search M.guess M.turns areas.length values (M.uniform g).1 with _ | (i | e | _)
    · simp [hs] at h
    · simp only [hs, Option.some.injEq, Out.ok.injEq, Prod.mk.injEq] at h
      obtain ⟨rfl, rfl⟩ := h
      obtain ⟨h4, h5⟩ := searchLoop_index hs
      refine ⟨0, i, areas.length, rfl, ?_, ?_, ?_, .inl (by omega)⟩
      · show some (BitVec.ofInt 64 i).toInt = some i
        rw [toInt_ofInt64 (by omega) (by omega)]
      · show some (BitVec.ofNat 64 areas.length).toInt = some (areas.length : Int)
        rw [BitVec.toInt_eq_toNat_of_lt (by rw [BitVec.toNat_ofNat, Nat.mod_eq_of_lt (by omega)]; omega),
          BitVec.toNat_ofNat, Nat.mod_eq_of_lt (by omega)]
      · rcases Int.lt_or_eq_of_le h4 with h | h
        · exact .inl h
        · exact .inr ⟨by simp [Roulette.bounds], h⟩
    · simp [hs] at h
    · simp [hs] at h) n g vs g1 h2
  intro row hrow c v b hv hb
  obtain ⟨w, hw, rfl⟩ := List.mem_map.mp hrow
  cases c with
  | zero =>
    simp only [List.getElem?_cons_zero, Option.some.injEq] at hv hb
    subst hv; subst hb
    exact hvs w hw
  | succ c => simp at hv

/-- **C83** When the samples of every component of a multivariate distribution are within their bounds, so are those of the
distribution. -/
theorem C83_multivariate {M : Machine σ} {ds : List (Sampler σ)} {d : Sampler σ} (h : ∀ x ∈ ds, Made M x)
    (hf : ∀ x ∈ ds, KeepsBounds x) (hd : createMultivariate ds = .ok d) : KeepsBounds d := by
  intro n g rows g' hlay
  obtain ⟨out, h1, h2⟩ := C77_multivariate_partial h hd n g
  have hu := C77_outcome_unique hlay h1
  subst hu
  have hb : d.bounds = ds.flatMap (·.bounds) := by
    unfold createMultivariate at hd
    split at hd
    · cases hd
    · rw [← Out.ok.inj hd]
  rw [hb]
  clear hlay h1 hd hb
  generalize ho : some (Out.ok (rows, g')) = o at h2
  induction h2 generalizing rows g' with
  | nil =>
    simp only [Option.some.injEq, Out.ok.injEq, Prod.mk.injEq] at ho
    obtain ⟨rfl, rfl⟩ := ho
    intro row hrow c v b hv
    rw [List.eq_of_mem_replicate hrow] at hv
    simp at hv
  | @cons e es g1 rows1 g2 rest g3 hl _ ih =>
    simp only [Option.some.injEq, Out.ok.injEq, Prod.mk.injEq] at ho
    obtain ⟨rfl, rfl⟩ := ho
    have hw1 := hf e (by simp) n g1 rows1 g2 hl
    have hw2 := ih (fun x hx => h x (by simp [hx])) (fun x hx => hf x (by simp [hx])) rest _ rfl
    have hdim := (hl.contiguous 0).2.1
    have hbl := (made_shape (h e (by simp))).1
    intro row hrow c v b hv hb
    rw [List.flatMap_cons] at hb
    obtain ⟨k, hk, rfl⟩ := List.mem_iff_getElem.mp hrow
    rw [List.getElem_zipWith] at hv
    have hlen := hdim _ (List.getElem_mem (l := rows1) (n := k) (by simp at hk; omega))
    by_cases hc : c < e.dim
    · rw [List.getElem?_append_left (by omega)] at hv hb
      exact hw1 _ (List.getElem_mem _) c v b hv hb
    · rw [List.getElem?_append_right (by omega)] at hv hb
      rw [hlen] at hv
      rw [hbl] at hb
      exact hw2 _ (List.getElem_mem _) _ v b hv hb
  | stop _ hn => exact absurd ho.symm (hn _)
  | later _ _ hn => exact absurd ho.symm (hn _)

/-- **C83** (mixtures) When the samples of every component of a mixture are within their bounds, so are those of the mixture,
unless a bound is disputed between components. -/
theorem C83_mixture_partial {M : Machine σ} {ds : List (Sampler σ)} {ws : List F64} {d : Sampler σ}
    (h : ∀ x ∈ ds, Made M x) (hf : ∀ x ∈ ds, KeepsBounds x) (hp : ∀ x ∈ ds, ∀ b ∈ x.bounds, Proper b)
    (hno : ∀ (c : Nat) t v, d.types[c]? = some t → ¬ Disputed t (ds.filterMap (fun x => x.bounds[c]?)) v)
    (hd : createMixture M ds ws = .ok d) : KeepsBounds d := by
  intro n g rows g' hlay
  obtain ⟨out, h1, h2⟩ := C77_mixture_partial h hd n g
  have hu := C77_outcome_unique hlay h1
  subst hu
  have hpk := h2 rows g' rfl
  have hmade : Made M d := .mixture h hd
  obtain ⟨hbl, hbt⟩ := made_shape hmade
  obtain ⟨d0, others, areas, bounds, hds, hdim, hdd⟩ := mixture_ok hd
  have hdd0 : d.dim = d0.dim := by rw [hdd]
  clear hlay h1 h2
  induction hpk with
  | nil => intro row hrow; simp at hrow
  | @cons k g e row g1 rest g2 he hl _ ih =>
    intro x hx c v b hv hb
    rcases List.mem_cons.mp hx with rfl | hx
    · have hwe := hf e he 1 _ _ _ hl
      have hlen := (hl.contiguous 0).2.1 x (by simp)
      have hc : c < e.bounds.length := by
        rw [(made_shape (h e he)).1, ← hlen]; exact (List.getElem?_eq_some_iff.mp hv).1
      have heb : e.bounds[c]? = some e.bounds[c] := List.getElem?_eq_getElem hc
      have ht : d.types[c]? = some b.type := by rw [← hbt, List.getElem?_map, hb]; rfl
      obtain ⟨r, hr, hcov⟩ := C76_bounds_partial h hd ht
        (fun y hy b' hb' => hp y hy b' (List.mem_of_getElem? hb')) he heb (hwe x (by simp) c v _ hv heb)
      rw [hb] at hr
      obtain rfl := Option.some.inj hr
      exact hcov.resolve_right (hno c _ v ht)
    · exact ih x hx c v b hv hb

/-- IEEE arithmetic and the formula of `gsl_ran_flat`, `a * (1 - u) + b * u`, for a generator that draws `u = 0.75`. -/
def exFlat : Machine Nat :=
  { exMachine with
    flat := fun g a b => (Ieee.add (Ieee.mul a (ieee.sub F64.one 0x3fe8000000000000#64)) (Ieee.mul b 0x3fe8000000000000#64), g + 1)
    toInt := fun x => match realValue x with
      | none => none
      | some r => let i := Int.tdiv r (2 ^ 1074)
        if -2 ^ 63 ≤ i ∧ i < 2 ^ 63 then some (BitVec.ofInt 64 i) else none }

/-- **C83** fails: a uniform distribution on the doubles from 1 to the next one, excluded, gives the excluded bound. -/
theorem C83_float_upper :
    exLimits (createUniform exFlat .float F64.one 0x3ff0000000000001#64 false 0#64) =
      some [⟨.float, F64.one, 0x3ff0000000000001#64, 1#32, 0#32⟩] ∧
    peek (createUniform exFlat .float F64.one 0x3ff0000000000001#64 false 0#64) (·.callSamples 1 (some 0)) [0] =
      some (.ok [0x3ff0000000000001#64]) ∧
    ¬ Mem ⟨.float, F64.one, 0x3ff0000000000001#64, 1#32, 0#32⟩ 0x3ff0000000000001#64 := by
  refine ⟨by decide +kernel, by decide +kernel, ?_⟩
  rintro ⟨l, x, u, h1, h2, h3, h4, h5⟩
  have : x = u := Option.some.inj (h2.symm.trans h3)
  rcases h5 with h5 | h5
  · omega
  · exact absurd rfl h5.1

/-- **C83** fails: a normal integer distribution accepts the draw `2^63`, whose conversion to an integer is undefined. -/
theorem C83_normal_int_overflow :
    isOk (createNormal exFlat .int 0x43e0000000000000#64 F64.zero false 0#64) = true ∧
    peek (createNormal exFlat .int 0x43e0000000000000#64 F64.zero false 0#64) (·.callSamples 1 (some 0)) [0] = some .ub ∧
    peek (createNormal exFlat .int 0x4340000000000000#64 F64.zero false 0#64) (·.callSamples 1 (some 0)) [0] =
      some (.ok [0x20000000000000#64]) := by decide +kernel

/-- A mixture of pairs of dice meets the hypotheses of the theorems above. -/
example : ∃ d, exMixed = .ok d ∧ KeepsBounds d := by
  obtain ⟨die, h1⟩ := exists_of_isOk (x := createUniform exMachine .int 1#64 7#64 false 0#64) (by decide +kernel)
  have hdf := C83_uniform_int_partial exMachine_int h1
  have hdm : Made exMachine die := .uniform h1
  have hdb : die.bounds = [⟨.int, 1#64, 7#64, 1#32, 0#32⟩] := by
    obtain ⟨_, _, _, _, k, _, u, rfl, rfl⟩ := uniform_int_ok h1
    rfl
  have hp2 : exDice = createMultivariate [die, die] := by unfold exDice; rw [h1]; rfl
  obtain ⟨p, hp⟩ := exists_of_isOk (x := createMultivariate [die, die]) (by rw [← hp2]; decide +kernel)
  have hone : ∀ x ∈ [die, die], x = die := by simp
  have hpm : Made exMachine p := .multivariate (fun x hx => hone x hx ▸ hdm) hp
  have hpf : KeepsBounds p := C83_multivariate (fun x hx => hone x hx ▸ hdm) (fun x hx => hone x hx ▸ hdf) hp
  have hpb : p.bounds = [⟨.int, 1#64, 7#64, 1#32, 0#32⟩, ⟨.int, 1#64, 7#64, 1#32, 0#32⟩] := by
    unfold createMultivariate at hp
    split at hp
    · cases hp
    · rw [← Out.ok.inj hp]; simp [hdb]
  have hm2 : exMixed = createMixture exMachine [p, p] exHalves := by unfold exMixed; rw [hp2, hp]; rfl
  obtain ⟨d, hd⟩ := exists_of_isOk (x := exMixed) (by decide +kernel)
  have honep : ∀ x ∈ [p, p], x = p := by simp
  refine ⟨d, hd, C83_mixture_partial (fun x hx => honep x hx ▸ hpm) (fun x hx => honep x hx ▸ hpf) ?_ ?_ (hm2 ▸ hd)⟩
  · intro x hx b hb
    rw [honep x hx, hpb] at hb
    simp only [List.mem_cons, List.not_mem_nil, or_false, or_self] at hb
    subst hb
    exact ⟨fun h => Option.some_ne_none _ h, fun h => Option.some_ne_none _ h⟩
  · rintro c t v _ ⟨x, hx, y, hy, h⟩
    have hall : ∀ z ∈ [p, p].filterMap (fun x => x.bounds[c]?), z = ⟨.int, 1#64, 7#64, 1#32, 0#32⟩ := by
      intro z hz
      obtain ⟨w, hw, hz⟩ := List.mem_filterMap.mp hz
      rw [honep w hw, hpb] at hz
      have := List.mem_of_getElem? hz
      simpa using this
    rw [hall x hx, hall y hy] at h
    simp at h

end CCS.Props
