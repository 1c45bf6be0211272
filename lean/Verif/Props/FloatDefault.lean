import Verif.Props.FloatUniform
import Verif.Props.Default

/-! # C113 (continued): the default distribution of a parameter of doubles -/

namespace CCS.Props

open CCS Spec IeeeLemmas CCS.Distribution

variable {σ : Type}

/-- **C113** (partial) The default distribution of a parameter of doubles can be sampled in every layout, and every sample stands for a legal value
or for the excluded upper bound (`C113_float_sample_illegal`).  The bounds, the width of the domain and the number of steps are finite. -/
theorem C113_float_closed_partial {M : Machine σ} (hM : GslFlat M) {name : Bytes} {lower upper q dflt : F64} {p : Param}
    (hp : createNumerical M.ops name .float lower upper q dflt = .ok p)
    (hl : F64.isFinite lower = true) (hu : F64.isFinite upper = true) (hw : F64.isFinite (ieee.sub upper lower) = true)
    (hq : F64.feq q F64.zero = true ∨ (F64.isFinite q = true ∧ F64.isFinite (ieee.div (ieee.sub upper lower) q) = true))
    {d : Sampler σ} (hd : defaultDistribution M p = .ok d) (n : Nat) (g : σ) :
    ∃ rows g', Layouts d n g (some (.ok (rows, g'))) ∧ rows.length = n ∧
      ∀ row ∈ rows, ∃ v, row = [v] ∧ p.convert v = .ok (.float v) ∧ (Legal p (.float v) ∨ realValue v = realValue upper) := by
  obtain rfl := createNumerical_ok hp
  obtain ⟨rows, g', h1, h2, h3⟩ := C83_float_closed_partial hM hd hl hu hw hq n g
  refine ⟨rows, g', h1, h2, fun row hrow => ?_⟩
  have hdim : d.dim = 1 := by
    have hd' : createUniform M .float lower upper false q = .ok d := hd
    unfold createUniform at hd'
    obtain ⟨_, -, hd'⟩ := bind_ok_split hd'
    obtain ⟨u, -, hd'⟩ := bind_ok_split hd'
    rw [← Out.ok.inj hd']
  have hlen : row.length = 1 := hdim ▸ (h1.contiguous 0).2.1 row hrow
  obtain ⟨v, rfl⟩ : ∃ v, row = [v] := List.length_eq_one_iff.mp hlen
  refine ⟨v, rfl, rfl, ?_⟩
  obtain ⟨l, x, u, e1, e2, e3, e4, e5⟩ := h3 [v] hrow 0 v _ rfl rfl
  rcases e5 with e5 | e5
  · exact Or.inl ⟨v, rfl, l, x, u, e1, e2, e3, e4, Or.inl e5⟩
  · exact Or.inr (by rw [show realValue v = some x from e2, show realValue upper = some u from e3, e5.2])

/-- Doubles from 0 to 10 by steps of 0.1 meet the hypotheses. -/
example : isOk (createNumerical exGsl.ops [65#8] .float 0#64 0x4024000000000000#64 0x3fb999999999999a#64 0#64) = true ∧
    F64.isFinite (ieee.div (ieee.sub 0x4024000000000000#64 0#64) 0x3fb999999999999a#64) = true := by decide +kernel

end CCS.Props
