import Verif.Lemmas.Mix
import Verif.Props.Chance
import Verif.Props.Distribution

/-!
# Probabilities of the components of mixtures

Property C141.
-/

namespace CCS.Props

open CCS CCS.Spec

theorem loop_shift {σ : Type} {body body' : Nat → Act σ} : ∀ (n i j : Nat), (∀ k, k < n → body (i + k) = body' (j + k)) →
    Act.loop body n i = Act.loop body' n j := by
  intro n
  induction n with
  | zero => intro i j _; rfl
  | succ n ih =>
    intro i j h
    simp only [Act.loop]
    rw [show body i = body' j from h 0 (by omega), ih (i + 1) (j + 1)]
    intro k hk
    have := h (k + 1) (by omega)
    rwa [← Nat.add_assoc, ← Nat.add_assoc, Nat.add_right_comm i, Nat.add_right_comm j] at this

/-- A search among bounds that grow from 0 to 1 finds the interval of the draw. -/
theorem search_interval {values : List F64} {n : Nat} (hn : 0 < n) (hmax : n ≤ 2 ^ 49) (hl : values.length = n + 1)
    (h0 : values[0]? = some F64.zero) (h1 : values[n]? = some F64.one)
    (hnum : ∀ v ∈ values, F64.isNaN v = false)
    (hmono : ∀ i < n, toRat (values.getD i F64.zero) ≤ toRat (values.getD (i + 1) F64.zero))
    {t : F64} (ht : UnitDraw t) {fuel : Nat} (hf : n ≤ fuel) {i : Nat} (hi : i < n)
    (hlo : toRat (values.getD i F64.zero) ≤ toRat t) (hhi : toRat t < toRat (values.getD (i + 1) F64.zero)) :
    search Ieee.guess fuel n values t = some (.ok (i : Int)) := by
  obtain ⟨ht1, ht2, ht3⟩ := IeeeLemmas.unit_rat ht
  obtain ⟨u1, u2⟩ := areaHolds_lt ht
  obtain ⟨j, s1, s2, s3, s4⟩ := search_spec hn hl h0 h1 u1 u2 (IeeeLemmas.guess_good hn (by omega) ht)
  have get : ∀ {k}, k ≤ n → values[k]? = some (values.getD k F64.zero) := by
    intro k hk
    rw [List.getD_eq_getElem?_getD, List.getElem?_eq_getElem (by omega)]
    rfl
  have hlo' : toRat (values.getD j F64.zero) ≤ toRat t :=
    IeeeLemmas.toRat_le.mpr (not_nan_lt (IeeeLemmas.realValue_signed ht1)
      (IeeeLemmas.realValue_signed (hnum _ (List.mem_of_getElem? (get (by omega))))) (s3 _ (get (by omega))))
  have hhi' : toRat t < toRat (values.getD (j + 1) F64.zero) :=
    IeeeLemmas.toRat_lt.mpr (not_nan_le (IeeeLemmas.realValue_signed ht1)
      (IeeeLemmas.realValue_signed (hnum _ (List.mem_of_getElem? (get (by omega))))) (s4 _ (get (by omega))))
  have mono : ∀ {a b}, a ≤ b → b ≤ n → toRat (values.getD a F64.zero) ≤ toRat (values.getD b F64.zero) := by
    intro a b hab hb
    induction b with
    | zero => rw [Nat.le_zero.mp hab]
    | succ b ih =>
      rcases Nat.lt_or_ge a (b + 1) with h | h
      · exact (ih (by omega) (by omega)).trans (hmono b (by omega))
      · rw [show a = b + 1 by omega]
  rw [s1 fuel hf]
  rcases Nat.lt_trichotomy i j with hij | hij | hij
  · exact absurd (hhi.trans_le ((mono hij (by omega)).trans hlo')) (lt_irrefl _)
  · rw [hij]
  · exact absurd (hhi'.trans_le ((mono hij (by omega)).trans hlo)) (lt_irrefl _)

theorem refuted_bool {b : Bool} {e : Err} {u : Unit} (h : refute (b = true) e = .ok u) : b = false := by
  cases b with
  | false => rfl
  | true => simp [refute] at h

theorem mixture_areas {σ : Type} {M : Machine σ} {ds : List (Sampler σ)} {weights : List F64} {d : Sampler σ}
    (h : createMixture M ds weights = .ok d) (hl : weights.length = ds.length) :
    0 < ds.length ∧ (∀ a ∈ weights, F64.lt a F64.zero = false) ∧
    F64.feq (M.ops.total weights) F64.zero = false ∧ F64.isFinite (M.ops.div F64.one (M.ops.total weights)) = true ∧
    F64.lt F64.one ((Mixture.areas M (M.ops.div F64.one (M.ops.total weights)) weights).getD (ds.length - 1) F64.zero) = false ∧
    d.samples = Mixture.samples M d.dim ds (Mixture.areas M (M.ops.div F64.one (M.ops.total weights)) weights) ∧
    d.strided = Mixture.strided M ds (Mixture.areas M (M.ops.div F64.one (M.ops.total weights)) weights) := by
  unfold createMixture at h
  cases ds with
  | nil => cases h
  | cons d0 others =>
    simp only at h
    split at h
    · cases h
    · split at h
      · cases h
      · obtain ⟨u, h1, h⟩ := Distribution.bind_ok_split h
        obtain ⟨sum, h2, h⟩ := Distribution.bind_ok_split h
        obtain ⟨_, h3, h⟩ := Distribution.bind_ok_split h
        obtain ⟨_, h4, h⟩ := Distribution.bind_ok_split h
        obtain ⟨_, h5, h⟩ := Distribution.bind_ok_split h
        obtain ⟨bounds, h6, h⟩ := Distribution.bind_ok_split h
        obtain ⟨_, h7, h⟩ := Distribution.bind_ok_split h
        rw [List.take_of_length_le (by rw [hl])] at h2 h7 h
        obtain ⟨h8, h9⟩ := sumAreas_ok h2
        change sum = M.ops.total weights at h8
        subst h8
        have e := (Out.ok.inj h).symm
        refine ⟨by simp, h9, ?_, ?_, ?_, ?_, ?_⟩
        · exact refuted_bool h3
        · have := refuted_bool h4
          simp only [Bool.or_eq_false_iff, Bool.not_eq_false'] at this
          exact this.2
        · exact refuted_bool h7
        · rw [e]
        · rw [e]

/-- The components of a mixture have consecutive intervals of draws.  With a draw in the interval of a component, the next sample is taken from
that component, with what follows from the generator, in every layout.  The width of the interval differs from the weight of the
component divided by the sum of the weights by at most `n / 2^47`, `n` being the number of components. -/
theorem C141_shares {σ : Type} {M : Machine σ} (hops : M.ops = ieee) (hguess : M.guess = Ieee.guess) {ds : List (Sampler σ)} {ws : List F64}
    {d : Sampler σ} (hd : createMixture M ds ws = .ok d) (hl : ws.length = ds.length) (hturns : ds.length ≤ M.turns)
    (hsize : ds.length ≤ 2 ^ 49) (hfin : F64.isFinite (ieee.total ws) = true) :
    ∃ b : Nat → ℚ, b 0 = 0 ∧ b ds.length = 1 ∧ (∀ i < ds.length, b i ≤ b (i + 1)) ∧
      (∀ i w, ws[i]? = some w → |b (i + 1) - b i - toRat w / (ws.map toRat).sum| ≤ ds.length / 2 ^ 47) ∧
      ∀ i c, ds[i]? = some c → ∀ s : Store σ, UnitDraw (M.uniform s.rng).1 →
        b i ≤ toRat (M.uniform s.rng).1 → toRat (M.uniform s.rng).1 < b (i + 1) → ∀ n stride values,
        d.samples (n + 1) values s =
          Act.seq (c.samples 1 values) (d.samples n (values + d.dim)) { s with rng := (M.uniform s.rng).2 } ∧
        d.strided (n + 1) stride values s =
          Act.seq (c.samples 1 values) (d.strided n stride (values + stride)) { s with rng := (M.uniform s.rng).2 } := by
  obtain ⟨h1, hnn, hz, hinv, hone, hs1, hs2⟩ := mixture_areas hd hl
  rw [hops] at hz hinv hone hs1 hs2
  have hws : ∀ w ∈ ws, 0 ≤ Ieee.signed w := fun w hw =>
    IeeeLemmas.nonneg_signed (IeeeLemmas.mem_finite hfin hw) (hnn w hw)
  have hnum := (IeeeLemmas.finite_num hfin).1
  have hsp : 0 < Ieee.signed (ieee.total ws) := by
    have hns : NonNeg (ieee.total ws) := IeeeLemmas.foldl_nonNeg (by unfold NonNeg; decide) hnn
    rcases Int.lt_or_eq_of_le (IeeeLemmas.nonneg_signed hfin hns) with h | h
    · exact h
    · exfalso
      have : F64.feq (ieee.total ws) F64.zero = true := (feq_iff _ _).mpr
        ⟨0, by show realValue (ieee.total ws) = some 0; rw [IeeeLemmas.realValue_signed hnum, ← h], IeeeLemmas.realValue_zero⟩
      rw [hz] at this; cases this
  have hu : IeeeLemmas.Usable ws := ⟨hws, by omega, by omega, hfin, hsp, hinv⟩
  change F64.isFinite (Ieee.div F64.one (ieee.total ws)) = true at hinv
  change F64.lt F64.one ((Mixture.areas M (Ieee.div F64.one (ieee.total ws)) ws).getD _ _) = false at hone
  change _ = Mixture.samples M d.dim ds (Mixture.areas M (Ieee.div F64.one (ieee.total ws)) ws) at hs1
  change _ = Mixture.strided M ds (Mixture.areas M (Ieee.div F64.one (ieee.total ws)) ws) at hs2
  obtain ⟨hal, halast, haget⟩ := IeeeLemmas.mix_shape M hops (inv := Ieee.div F64.one (ieee.total ws)) (ws := ws)
  have hnear := IeeeLemmas.mix_near hu
  obtain ⟨hS, -, -⟩ := IeeeLemmas.areas_near hu.nonneg hu.len hu.size hu.fin hu.pos hu.inv
  generalize hA : Mixture.areas M (Ieee.div F64.one (ieee.total ws)) ws = A at *
  have getA : ∀ i, i < ws.length → A.getD i F64.zero =
      ((ws.map (Ieee.mul · (Ieee.div F64.one (ieee.total ws)))).take i).foldl Ieee.add F64.zero := by
    intro i hi
    rw [List.getD_eq_getElem?_getD, haget i hi]; rfl
  have getL : A.getD ws.length F64.zero = F64.one := by
    rw [List.getD_eq_getElem?_getD, halast]; rfl
  have hmono : ∀ i < ds.length, toRat (A.getD i F64.zero) ≤ toRat (A.getD (i + 1) F64.zero) := by
    intro i hi
    rcases Nat.lt_or_ge (i + 1) ws.length with h | h
    · rw [getA i (by omega), getA (i + 1) h]
      exact IeeeLemmas.toRat_le.mpr ((hnear i (by omega)).2.2.2 (by omega))
    · have e : i + 1 = ws.length := by omega
      rw [e, getL]
      have e2 : ds.length - 1 = i := by omega
      rw [e2] at hone
      rw [getA i (by omega)] at hone ⊢
      have hf := (hnear i (by omega)).1
      exact IeeeLemmas.toRat_le.mpr (not_nan_lt (IeeeLemmas.realValue_signed (by decide))
        (IeeeLemmas.realValue_signed (IeeeLemmas.finite_num hf).1) hone)
  have hnan : ∀ v ∈ A, F64.isNaN v = false := by
    intro v hv
    obtain ⟨i, hi, rfl⟩ := List.getElem_of_mem hv
    rcases Nat.lt_or_ge i ws.length with h | h
    · have := haget i h
      rw [List.getElem?_eq_getElem hi] at this
      rw [Option.some.inj this]
      exact (IeeeLemmas.finite_num (hnear i (by omega)).1).1
    · have e : i = ws.length := by omega
      subst e
      rw [List.getElem?_eq_getElem hi] at halast
      rw [Option.some.inj halast]
      decide
  have hfirst : A[0]? = some F64.zero := haget 0 (by omega)
  have near : ∀ i, i ≤ ws.length → |toRat (A.getD i F64.zero) - IeeeLemmas.sumRat (ws.take i) / IeeeLemmas.sumRat ws| ≤ 9 * (ws.length / 2 ^ 52) := by
    intro i hi
    rcases Nat.lt_or_ge i ws.length with h | h
    · rw [getA i h]; exact (hnear i hi).2.2.1
    · have e : i = ws.length := by omega
      rw [e, getL, IeeeLemmas.toRat_one, List.take_length, div_self hS.ne', sub_self, abs_zero]
      positivity
  have hpick : ∀ i, i < ds.length → ∀ s : Store σ, UnitDraw (M.uniform s.rng).1 → toRat (A.getD i F64.zero) ≤ toRat (M.uniform s.rng).1 →
      toRat (M.uniform s.rng).1 < toRat (A.getD (i + 1) F64.zero) →
      Roulette.pick M ds.length A s.rng = some (.ok ((i : Int), (M.uniform s.rng).2)) := by
    intro i hi s hu h2 h3
    unfold Roulette.pick
    rw [hguess, search_interval (by omega) hsize (by rw [hal, hl]) hfirst (hl ▸ halast) hnan hmono hu hturns hi h2 h3]
  refine ⟨fun i => toRat (A.getD i F64.zero), ?_, ?_, hmono, ?_, ?_⟩
  · show toRat (A.getD 0 F64.zero) = 0
    rw [getA 0 (by omega)]; exact IeeeLemmas.toRat_zero
  · show toRat (A.getD ds.length F64.zero) = 1
    rw [← hl, getL, IeeeLemmas.toRat_one]
  · intro i w hw
    have hi : i < ws.length := (List.getElem?_eq_some_iff.mp hw).1
    have n1 := near i (by omega)
    have n2 := near (i + 1) (by omega)
    have e : IeeeLemmas.sumRat (ws.take (i + 1)) / IeeeLemmas.sumRat ws =
        IeeeLemmas.sumRat (ws.take i) / IeeeLemmas.sumRat ws + toRat w / (ws.map toRat).sum := by
      rw [List.take_add_one, hw, IeeeLemmas.sumRat_append, add_div]
      simp [IeeeLemmas.sumRat]
    rw [e] at n2
    rw [← hl]
    have h0 : (0 : ℚ) ≤ ws.length := by positivity
    rw [abs_le] at *
    constructor <;> linarith
  · intro i c hc s hud h2 h3 n stride values
    have hi : i < ds.length := (List.getElem?_eq_some_iff.mp hc).1
    have hp := hpick i hi s hud h2 h3
    have hch : ∀ body : Sampler σ → Act σ, Mixture.choose M ds A body s = body c { s with rng := (M.uniform s.rng).2 } := by
      intro body
      unfold Mixture.choose
      rw [hp]
      simp only
      rw [if_neg (by omega), Int.toNat_natCast, hc]
    rw [hs1, hs2]
    constructor
    · unfold Mixture.samples
      rw [Act.loop, loop_shift n (0 + 1) 0 (body' := fun i => Mixture.choose M ds A fun e => e.samples 1 (values + d.dim + i * d.dim))]
      · simp only [Act.seq, hch, Nat.zero_mul, Nat.add_zero]
      · intro k _
        rw [Nat.zero_add, Nat.zero_add, Nat.add_mul, Nat.one_mul, Nat.add_assoc]
    · unfold Mixture.strided
      rw [Act.loop, loop_shift n (0 + 1) 0 (body' := fun i => Mixture.choose M ds A fun e => e.samples 1 (values + stride + i * stride))]
      · simp only [Act.seq, hch, Nat.zero_mul, Nat.add_zero]
      · intro k _
        rw [Nat.zero_add, Nat.zero_add, Nat.add_mul, Nat.one_mul, Nat.add_assoc]

/-- A mixture of two dice with weights 1 and 3; the machine draws 1/2, then 0. -/
def exMixMachine : Machine Nat := { exMachine with guess := Ieee.guess, uniform := fun g => (if g = 0 then dHalf else F64.zero, g + 1) }

def exMixture : Out (Sampler Nat) := do
  let a ← createUniform exMixMachine .int 1#64 7#64 false 0#64
  let b ← createUniform exMixMachine .int 10#64 11#64 false 0#64
  createMixture exMixMachine [a, b] [F64.one, dThree]

example : ∃ ds d, ds.length = 2 ∧ createMixture exMixMachine ds [F64.one, dThree] = .ok d ∧ exMixMachine.ops = ieee ∧
    exMixMachine.guess = Ieee.guess ∧ F64.isFinite (ieee.total [F64.one, dThree]) = true ∧ UnitDraw (exMixMachine.uniform 0).1 ∧
    toRat (exMixMachine.uniform 0).1 = 1 / 2 ∧ UnitDraw (exMixMachine.uniform 1).1 := by
  obtain ⟨a, ha⟩ := exists_of_isOk (x := createUniform exMixMachine .int 1#64 7#64 false 0#64) (by decide +kernel)
  obtain ⟨b, hb⟩ := exists_of_isOk (x := createUniform exMixMachine .int 10#64 11#64 false 0#64) (by decide +kernel)
  have h : exMixture = createMixture exMixMachine [a, b] [F64.one, dThree] := by
    unfold exMixture; rw [ha, hb]; rfl
  obtain ⟨d, hd⟩ := exists_of_isOk (x := exMixture) (by decide +kernel)
  exact ⟨[a, b], d, rfl, h ▸ hd, rfl, rfl, by decide +kernel, ⟨_, _, _, rfl, rfl, rfl, by decide +kernel, by decide +kernel⟩,
    by decide +kernel, ⟨_, _, _, rfl, rfl, rfl, by decide +kernel, by decide +kernel⟩⟩

/-- The first draw, 1/2, chooses the second component; the second, 0, the first one. -/
example : peek exMixture (·.callSamples 2 (some 0)) [0, 1, 2] = some (.ok [10#64, 4#64, 99#64]) := by decide +kernel

end CCS.Props
