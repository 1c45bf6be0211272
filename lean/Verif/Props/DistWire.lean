import Verif.Lemmas.DistRestore
import Verif.Props.Roulette
import Verif.Props.Distribution

/-!
# C84, C85, C86: distributions on the wire

`Spec.recreate M d`: create the distribution again with the creation functions, from the properties, areas, weights and
components that it reports, and attach the same user data.  `Spec.BuiltDist M d`: made by the creation functions, to any
depth.
-/

namespace CCS.Props

open CCS Spec

variable {σ : Type}

/-! ## C84 -/

/-- **C84** Any distribution that fits in memory, nested in any way, with any arithmetic, written on a host of any byte order
and read on a host of any byte order: the announced size is exact, writing fits exactly, and reading has the outcome of
creating the distribution again from what it reports: the same refusals, or the same distribution, with the same user
data and nothing more consumed. -/
theorem C84_reads_as_recreated (M : Machine σ) (little little' : Bool) (addr : List Nat → BitVec 64) {d : DistObj}
    (hs : StorableDist d) :
    ∃ bs, WritesBytes (DistObj.write M.ops little addr d) bs ∧ bs.length = DistObj.size M.ops addr d ∧
      ReadsAs (DistObj.read M little') bs (recreate M d) := by
  refine ⟨DistObj.bytes M.ops addr d, DistObj.writes_dist M.ops little d addr, DistObj.length_dist M.ops d addr, fun tail => ?_⟩
  exact DistObj.readsAs_dist M little' d addr _ hs (by rw [List.length_append]; omega) tail

/-- **C84 (partial)** With IEEE arithmetic, every distribution made by the creation functions comes back identical, down to
every internal bound, when the bounds of its roulettes are multiples of `2^-52` in order and those of its mixtures are
numbers.

Missing: other roulettes, which may come back different or not at all (`C84_roulette_changes`,
`C84_not_a_number_refused`), and mixtures with infinite weights, which cannot be read back (same). -/
theorem C84_round_trip_partial {M : Machine σ} (hM : M.ops = ieee) (little little' : Bool) (addr : List Nat → BitVec 64) {d : DistObj}
    (hb : BuiltDist M d) (hd : SteadyDist d) (hs : StorableDist d) :
    RoundTrips (DistObj.write M.ops little addr d) (DistObj.size M.ops addr d) (DistObj.read M little') d := by
  obtain ⟨bs, h1, h2, h3⟩ := C84_reads_as_recreated M little little' addr hs
  rw [DistObj.recreate_same hM hb hd] at h3
  exact ⟨bs, h1, h2, h3⟩

/-- **C84** A mixture of components that come back identical: it comes back identical, weights and bounds included, when all
its bounds are numbers. -/
theorem C84_mixture {M : Machine σ} (hM : M.ops = ieee) {ds : List DistObj} {ws : List F64} {m : MixtureData} {data : Bytes}
    (h : DistObj.newMixture M ds ws = .ok (.mixture m ds [])) (hn : ∀ b ∈ m.weights, ¬ NotANumber b)
    (hc : ∀ c ∈ ds, recreate M c = .ok c) : recreate M (.mixture m ds data) = .ok (.mixture m ds data) := by
  rw [recreate, DistObj.recreateAll_same hc, Out.bind_ok, DistObj.mixture_back hM h hn, Out.bind_ok]
  rfl

/-- **C84** fails: a roulette or mixture with a bound that is not a number (which creation accepts, see below) is written, and
what is written is refused. -/
theorem C84_not_a_number_refused {M : Machine σ} (hM : M.ops = ieee) (little little' : Bool) (addr : List Nat → BitVec 64) :
    (∀ {areas : List F64} {r : Roulette} {data : Bytes}, DistObj.newRoulette M.ops areas = .ok (.roulette r []) →
      (∃ b ∈ r.areas, NotANumber b) → StorableDist (.roulette r data) →
      ∃ bs, WritesBytes (DistObj.write M.ops little addr (.roulette r data)) bs ∧
        ∀ tail, DistObj.read M little' (bs ++ tail) = .err .invalidValue) ∧
    (∀ {ds : List DistObj} {ws : List F64} {m : MixtureData} {data : Bytes},
      DistObj.newMixture M ds ws = .ok (.mixture m ds []) → (∀ c ∈ ds, BuiltDist M c ∧ SteadyDist c) →
      (∃ b ∈ m.weights, NotANumber b) → StorableDist (.mixture m ds data) →
      ∃ bs, WritesBytes (DistObj.write M.ops little addr (.mixture m ds data)) bs ∧
        ∀ tail, DistObj.read M little' (bs ++ tail) = .err .invalidValue) := by
  constructor
  · intro areas r data h ⟨b, hb, hn⟩ hs
    obtain ⟨bs, h1, -, h3⟩ := C84_reads_as_recreated M little little' addr hs
    refine ⟨bs, h1, fun tail => ?_⟩
    obtain ⟨r', k1, k2⟩ := DistObj.newRoulette_iff.mp h
    cases k2
    rw [hM] at k1
    have := DistObj.roulette_nan k1 ⟨b, hb, (realValue_none b).mp hn⟩
    have he : recreate M (.roulette r data) = .err .invalidValue := by
      rw [recreate, DistObj.newRoulette, hM, this]; rfl
    rw [h3 tail, he]
  · intro ds ws m data h hc ⟨b, hb, hn⟩ hs
    obtain ⟨bs, h1, -, h3⟩ := C84_reads_as_recreated M little little' addr hs
    refine ⟨bs, h1, fun tail => ?_⟩
    have := DistObj.mixture_nan hM h ⟨b, hb, (realValue_none b).mp hn⟩
    have he : recreate M (.mixture m ds data) = .err .invalidValue := by
      rw [recreate, DistObj.recreateAll_same fun c k => DistObj.recreate_same hM (hc c k).1 (hc c k).2, Out.bind_ok, this]; rfl
    rw [h3 tail, he]

/-- 5.0 -/
def dFive : F64 := 0x4014000000000000#64

/-- The bounds of the roulette of areas 1, 5, 1. -/
def exOneFiveOne : Roulette := ⟨3, [F64.zero, 0x3fc2492492492492#64, 0x3feb6db6db6db6db#64, F64.one]⟩
/-- Its bounds after writing and reading. -/
def exReread : Roulette := ⟨3, [F64.zero, 0x3fc2492492492493#64, 0x3feb6db6db6db6dc#64, F64.one]⟩

/-- **C84** fails: the roulette with areas 1, 5, 1 comes back with other bounds, and a same draw selects another area. -/
theorem C84_roulette_changes {M : Machine σ} (hM : M.ops = ieee) (little little' : Bool) (addr : List Nat → BitVec 64) (data : Bytes)
    (hd : data.length < 2 ^ 64) :
    DistObj.newRoulette M.ops [F64.one, dFive, F64.one] = .ok (.roulette exOneFiveOne []) ∧
    (∃ bs, WritesBytes (DistObj.write M.ops little addr (.roulette exOneFiveOne data)) bs ∧
      ReadsBack (DistObj.read M little') bs (.roulette exReread data)) ∧
    UnitDraw 0x3fc2492492492492#64 ∧
    exOneFiveOne.samples Ieee.guess 3 [0x3fc2492492492492#64] = some (.ok [1]) ∧
    exReread.samples Ieee.guess 3 [0x3fc2492492492492#64] = some (.ok [0]) := by
  have h1 : createRoulette ieee [F64.one, dFive, F64.one] = .ok exOneFiveOne := by decide +kernel
  have h2 : createRoulette ieee (DistObj.widths ieee exOneFiveOne.numAreas exOneFiveOne.areas) = .ok exReread := by decide +kernel
  refine ⟨?_, ?_, areaHolds_of (by decide +kernel) (by decide +kernel), by decide +kernel, by decide +kernel⟩
  · rw [hM]
    exact DistObj.newRoulette_iff.mpr ⟨_, h1, rfl⟩
  · obtain ⟨bs, k1, -, k3⟩ := C84_reads_as_recreated M little little' addr (d := .roulette exOneFiveOne data)
      (.roulette (by decide) hd)
    refine ⟨bs, k1, ?_⟩
    have he : recreate M (.roulette exOneFiveOne data) = .ok (.roulette exReread data) := by
      rw [recreate, hM, DistObj.newRoulette_iff.mpr ⟨_, h2, rfl⟩, Out.bind_ok]
      rfl
    rw [he] at k3
    exact k3

/-- 1e308 -/
def dHuge : F64 := 0x7fe1ccf385ebc8a0#64
/-- About 1.64e308: a number whose inverse is subnormal. -/
def dLarge : F64 := 0x7fed3f1d8d398d6e#64

/-- Three finite areas whose sum overflows: creation accepts them, and the last of the inner bounds is not a number, so that
the roulette cannot be read back (`C84_not_a_number_refused`).  An infinite weight does the same to a mixture. -/
theorem C84_not_a_number_reachable {M : Machine σ} (hM : M.ops = ieee) :
    (∃ r b, DistObj.newRoulette M.ops [dHuge, dHuge, dHuge] = .ok (.roulette r []) ∧ b ∈ r.areas ∧ NotANumber b ∧
      ∀ data : Bytes, data.length < 2 ^ 64 → StorableDist (.roulette r data)) ∧
    (∃ b, b ∈ Mixture.areas M (M.ops.div F64.one (M.ops.total [F64.inf, F64.one])) [F64.inf, F64.one] ∧ NotANumber b ∧
      F64.isFinite (M.ops.div F64.one (M.ops.total [F64.inf, F64.one])) = true) := by
  constructor
  · have h1 : createRoulette ieee [dHuge, dHuge, dHuge] = .ok ⟨3, [F64.zero, F64.zero, Ieee.nan, F64.one]⟩ := by decide +kernel
    refine ⟨⟨3, [F64.zero, F64.zero, Ieee.nan, F64.one]⟩, Ieee.nan, ?_, by simp, by unfold NotANumber; decide +kernel,
      fun data hd => .roulette (by decide) hd⟩
    rw [hM]
    exact DistObj.newRoulette_iff.mpr ⟨_, h1, rfl⟩
  · refine ⟨Ieee.nan, ?_, by unfold NotANumber; decide +kernel, by rw [hM]; decide +kernel⟩
    simp only [Mixture.areas, Mixture.partialWeights, hM]
    decide +kernel

/-- **C84** fails: two areas, one huge and one empty, give an inner bound above 1.  The width of the last area is then
negative, so that the areas that the roulette reports are not areas, and what is written is refused. -/
theorem C84_negative_area {M : Machine σ} (hM : M.ops = ieee) (little little' : Bool) (addr : List Nat → BitVec 64) (data : Bytes)
    (hd : data.length < 2 ^ 64) :
    ∃ r, DistObj.newRoulette M.ops [dLarge, F64.zero] = .ok (.roulette r []) ∧
      (∃ b, r.areas[1]? = some b ∧ F64.lt F64.one b = true) ∧
      (∃ a b, r.getAreas M.ops (some 2) = .ok [a, b] ∧ F64.lt b F64.zero = true) ∧
      ∃ bs, WritesBytes (DistObj.write M.ops little addr (.roulette r data)) bs ∧
        ∀ tail, DistObj.read M little' (bs ++ tail) = .err .invalidValue := by
  have h1 : createRoulette ieee [dLarge, F64.zero] = .ok ⟨2, [F64.zero, 0x3ff0000000000001#64, F64.one]⟩ := by decide +kernel
  refine ⟨⟨2, [F64.zero, 0x3ff0000000000001#64, F64.one]⟩, ?_, ⟨_, rfl, by decide +kernel⟩, ?_, ?_⟩
  · rw [hM]
    exact DistObj.newRoulette_iff.mpr ⟨_, h1, rfl⟩
  · rw [hM]
    exact ⟨0x3ff0000000000001#64, 0xbcb0000000000000#64, by decide +kernel, by decide +kernel⟩
  · obtain ⟨bs, k1, -, k3⟩ := C84_reads_as_recreated M little little' addr
      (d := .roulette ⟨2, [F64.zero, 0x3ff0000000000001#64, F64.one]⟩ data) (.roulette (by decide) hd)
    refine ⟨bs, k1, fun tail => ?_⟩
    have h2 : createRoulette ieee (DistObj.widths ieee 2 [F64.zero, 0x3ff0000000000001#64, F64.one]) = .err .invalidValue := by
      decide +kernel
    have he : recreate M (.roulette ⟨2, [F64.zero, 0x3ff0000000000001#64, F64.one]⟩ data) = .err .invalidValue := by
      rw [recreate, DistObj.newRoulette, hM, h2]
      rfl
    rw [k3 tail, he]

/-! ### Roulettes of reasonable total -/

/-- The bounds of a roulette whose total is at most 2^1022 go up from 0 to 1 (as multiples of 2^-1074), with IEEE
arithmetic.  Missing for all roulettes: larger totals (`C84_negative_area`, `C84_not_a_number_reachable`). -/
theorem C74_sorted_partial {ws : List F64} {r : Roulette} (hr : createRoulette ieee ws = .ok r) {s : Nat}
    (hs : realValue (ieee.total ws) = some (s : Int)) (hmax : s ≤ 2 ^ 1022 * 2 ^ 1074) {i : Nat} (hi : i < ws.length) :
    ∃ lo hi x y, r.areas[i]? = some lo ∧ r.areas[i + 1]? = some hi ∧ realValue lo = some x ∧ realValue hi = some y ∧
      0 ≤ x ∧ x ≤ y ∧ y ≤ 2 ^ 1074 := by
  obtain ⟨f, h1, h2, h3, h4⟩ := DistObj.roulette_sorted hr hs hmax
  obtain ⟨a1, a2⟩ := h1 i (by omega)
  obtain ⟨b1, b2⟩ := h1 (i + 1) (by omega)
  have ia : f i ≤ Ieee.infBits := Nat.le_trans a2 (by decide)
  have ib : f (i + 1) ≤ Ieee.infBits := Nat.le_trans b2 (by decide)
  have va : realValue (Ieee.pack false (f i)) = some ((IeeeLemmas.uval (f i) : Nat) : Int) := by
    rw [IeeeLemmas.realValue_signed (IeeeLemmas.isNaN_pack ia), IeeeLemmas.signed_pack ia]; rfl
  have vb : realValue (Ieee.pack false (f (i + 1))) = some ((IeeeLemmas.uval (f (i + 1)) : Nat) : Int) := by
    rw [IeeeLemmas.realValue_signed (IeeeLemmas.isNaN_pack ib), IeeeLemmas.signed_pack ib]; rfl
  refine ⟨_, _, _, _, a1, b1, va, vb, Int.natCast_nonneg _, Int.ofNat_le.mpr (IeeeLemmas.uval_le_iff.mpr (h4 i hi)), ?_⟩
  have := IeeeLemmas.uval_le_iff.mpr b2
  rw [IeeeLemmas.uval_one] at this
  have h5 : ((2 : Int) ^ 1074) = ((2 ^ 1074 : Nat) : Int) := (Int.natCast_pow 2 1074).symm
  rw [h5]
  exact Int.ofNat_le.mpr this

theorem sorted_to {ws : List F64} {r : Roulette} (hr : createRoulette ieee ws = .ok r) {s : Nat}
    (hs : realValue (ieee.total ws) = some (s : Int)) (hmax : s ≤ 2 ^ 1022 * 2 ^ 1074) {i : Nat} : ∀ {k : Nat},
    i + k ≤ ws.length → 0 < ws.length →
    ∃ lo hi x y, r.areas[i]? = some lo ∧ r.areas[i + k]? = some hi ∧ realValue lo = some x ∧ realValue hi = some y ∧ x ≤ y
  | 0, h, h0 => by
    rcases Nat.lt_or_ge i ws.length with hi | hi
    · obtain ⟨lo, -, x, -, h1, -, h3, -⟩ := C74_sorted_partial hr hs hmax hi
      exact ⟨lo, lo, x, x, h1, h1, h3, h3, Int.le_refl _⟩
    · obtain ⟨-, lo, -, x, -, h1, -, h3, -⟩ := C74_sorted_partial hr hs hmax (i := i - 1) (by omega)
      rw [show i - 1 + 1 = i by omega] at h1
      exact ⟨lo, lo, x, x, h1, h1, h3, h3, Int.le_refl _⟩
  | k + 1, h, h0 => by
    obtain ⟨lo, m, x, y, h1, h2, h3, h4, h5⟩ := sorted_to hr hs hmax (i := i) (k := k) (by omega) h0
    obtain ⟨m', hi, y', z, k1, k2, k3, k4, -, k5, -⟩ := C74_sorted_partial hr hs hmax (i := i + k) (by omega)
    rw [h2] at k1; cases k1
    rw [h4] at k3; cases k3
    exact ⟨lo, hi, x, z, h1, k2, h3, k4, Int.le_trans h5 k5⟩

/-- A draw lies in one area only: the area that selection returns (`C74_roulette_partial`) is the area of the draw. -/
theorem C74_unique_partial {ws : List F64} {r : Roulette} (hr : createRoulette ieee ws = .ok r) {s : Nat}
    (hs : realValue (ieee.total ws) = some (s : Int)) (hmax : s ≤ 2 ^ 1022 * 2 ^ 1074) {i j : Nat} {t : F64}
    (hi : i < ws.length) (hj : j < ws.length) (h1 : AreaOf r.areas i t) (h2 : AreaOf r.areas j t) : i = j := by
  have key : ∀ {i j : Nat}, j < ws.length → AreaOf r.areas i t → AreaOf r.areas j t → ¬ i < j := by
    rintro i j hj ⟨-, b, -, b1, -, y, u, -, b2, b3, -, b4⟩ ⟨c, -, c1, -, z, -, u', c2, -, c3, c4, -⟩ hlt
    rw [b3] at c3; cases c3
    obtain ⟨b', c', y', z', k1, k2, k3, k4, k5⟩ := sorted_to hr hs hmax (i := i + 1) (k := j - (i + 1)) (by omega) (by omega)
    rw [show i + 1 + (j - (i + 1)) = j by omega] at k2
    rw [b1] at k1; cases k1
    rw [c1] at k2; cases k2
    rw [b2] at k3; cases k3
    rw [c2] at k4; cases k4
    omega
  have := key hj h1 h2
  have := key hi h2 h1
  omega

/-- The hypotheses are met by the areas 1, 5, 1, whose total is 7. -/
example : createRoulette ieee [F64.one, dFive, F64.one] = .ok exOneFiveOne ∧
    realValue (ieee.total [F64.one, dFive, F64.one]) = some ((7 * 2 ^ 1074 : Nat) : Int) ∧ 7 * 2 ^ 1074 ≤ 2 ^ 1022 * 2 ^ 1074 ∧
    AreaOf exOneFiveOne.areas 1 0x3fe0000000000000#64 := by
  refine ⟨by decide +kernel, by decide +kernel, by decide +kernel, 0x3fc2492492492492#64, 0x3feb6db6db6db6db#64, rfl, rfl,
    0x3fc2492492492492 % 2 ^ 52 * 2 ^ (1020 - 1) + 2 ^ 52 * 2 ^ 1019, 0x3feb6db6db6db6db % 2 ^ 52 * 2 ^ 1021 + 2 ^ 52 * 2 ^ 1021,
    2 ^ 1073, by decide +kernel, by decide +kernel, by decide +kernel, by decide +kernel, by decide +kernel⟩

/-- A roulette whose total is at most 2^1022, written and read back, is not refused and has as many areas, although their
bounds may differ (`C84_roulette_changes`). -/
theorem C84_roulette_accepted_partial {M : Machine σ} (hM : M.ops = ieee) (little little' : Bool) (addr : List Nat → BitVec 64)
    {ws : List F64} {r : Roulette} (hr : createRoulette ieee ws = .ok r) {s : Nat}
    (hs : realValue (ieee.total ws) = some (s : Int)) (hmax : s ≤ 2 ^ 1022 * 2 ^ 1074) (hn : r.numAreas < 2 ^ 61)
    {data : Bytes} (hd : data.length < 2 ^ 64) :
    ∃ bs r', WritesBytes (DistObj.write M.ops little addr (.roulette r data)) bs ∧ r'.numAreas = r.numAreas ∧
      ∀ tail, DistObj.read M little' (bs ++ tail) = .ok (.roulette r' data, tail) := by
  obtain ⟨r', h1, h2⟩ := DistObj.roulette_accepted hr hs hmax
  obtain ⟨bs, k1, -, k3⟩ := C84_reads_as_recreated M little little' addr (d := .roulette r data) (.roulette hn hd)
  have he : recreate M (.roulette r data) = .ok (.roulette r' data) := by
    rw [recreate, DistObj.newRoulette_iff.mpr ⟨r', by rw [hM]; exact h1, rfl⟩]
    rfl
  refine ⟨bs, r', k1, h2, fun tail => ?_⟩
  have := k3 tail
  rw [he] at this
  exact this

/-! The hypotheses of `C84_round_trip_partial` are met by a mixture of a roulette and a uniform distribution, with uneven
weights. -/

/-- A die, as a distribution with data. -/
def exDie : DistObj := .uniform ⟨.int, 1#64, 7#64, false, 0#64, 0#64, 6#64, false⟩ [1#8, 2#8]
/-- A fair coin. -/
def exCoin : DistObj := .roulette ⟨2, [F64.zero, 0x3fe0000000000000#64, F64.one]⟩ []

theorem exDie_built : BuiltDist exMachine exDie :=
  .uniform (type := .int) (lower := 1#64) (upper := 7#64) (log := false) (quantization := 0#64)
    (d := .uniform ⟨.int, 1#64, 7#64, false, 0#64, 0#64, 6#64, false⟩ []) (by
      have h1 : Uniform.check exMachine .int 1#64 7#64 false 0#64 = .ok () := by decide +kernel
      have h2 : Uniform.fill exMachine .int 1#64 7#64 false 0#64 = .ok ⟨.int, 1#64, 7#64, false, 0#64, 0#64, 6#64, false⟩ := by
        decide +kernel
      rw [DistObj.newUniform, h1, Out.bind_ok, h2, Out.bind_ok]) [1#8, 2#8]

theorem exCoin_built : BuiltDist exMachine exCoin :=
  .roulette (areas := exHalves) (d := .roulette ⟨2, [F64.zero, 0x3fe0000000000000#64, F64.one]⟩ []) (by
    have h1 : createRoulette ieee exHalves = .ok ⟨2, [F64.zero, 0x3fe0000000000000#64, F64.one]⟩ := by decide +kernel
    exact DistObj.newRoulette_iff.mpr ⟨_, h1, rfl⟩) []

theorem exCoin_steady : SteadyDist exCoin := by
  refine .roulette fun i hi => ?_
  simp only at hi
  have : i = 0 ∨ i = 1 := by omega
  rcases this with rfl | rfl
  · exact ⟨F64.zero, 0x3fe0000000000000#64, 0, 2 ^ 51, rfl, rfl, by decide +kernel, by decide +kernel, by decide, by decide⟩
  · exact ⟨0x3fe0000000000000#64, F64.one, 2 ^ 51, 2 ^ 52, rfl, rfl, by decide +kernel, by decide +kernel, by decide, by decide⟩

/-- A roulette and a die, mixed with weights 1 and 5. -/
example : ∃ d, DistObj.newMixture exMachine [exCoin, exDie] [F64.one, dFive] = .ok d ∧ BuiltDist exMachine d ∧ SteadyDist d ∧
    StorableDist d ∧ (∃ m, d = .mixture m [exCoin, exDie] [] ∧
      m.weights = [F64.zero, 0x3fc5555555555555#64, F64.one]) := by
  obtain ⟨d, hd⟩ := exists_of_isOk (x := DistObj.newMixture exMachine [exCoin, exDie] [F64.one, dFive]) (by decide +kernel)
  obtain ⟨dim, types, bounds, inv, h1, h2, h3, h4, rfl⟩ := DistObj.newMixture_iff.mp hd
  have hi : inv = ieee.div F64.one (ieee.total [F64.one, dFive]) := (DistObj.inverse_parts h3).2.1
  have hw : Mixture.areas exMachine inv ([F64.one, dFive].take [exCoin, exDie].length) =
      [F64.zero, 0x3fc5555555555555#64, F64.one] := by
    rw [hi]; decide +kernel
  refine ⟨_, hd, .mixture (fun c hc => ?_) hd [], .mixture ?_ fun c hc => ?_, .mixture (by decide) (fun c hc => ?_) (by simp),
    _, rfl, hw⟩
  · simp only [List.mem_cons, List.not_mem_nil, or_false] at hc
    rcases hc with rfl | rfl
    · exact exCoin_built
    · exact exDie_built
  · rw [hw]
    intro b hb
    simp only [List.mem_cons, List.not_mem_nil, or_false] at hb
    rcases hb with rfl | rfl | rfl
    · exact fun h => absurd ((realValue_none _).mp h) (by decide)
    · exact fun h => absurd ((realValue_none _).mp h) (by decide)
    · exact fun h => absurd ((realValue_none _).mp h) (by decide)
  · simp only [List.mem_cons, List.not_mem_nil, or_false] at hc
    rcases hc with rfl | rfl
    · exact exCoin_steady
    · exact .uniform
  · simp only [List.mem_cons, List.not_mem_nil, or_false] at hc
    rcases hc with rfl | rfl
    · exact .roulette (by decide) (by decide)
    · exact .uniform (by decide)

/-! ## C85 -/

/-- 19.0, 11.0 and 7.0 -/
def dNineteen : F64 := 0x4033000000000000#64
def dEleven : F64 := 0x4026000000000000#64
def dSeven : F64 := 0x401c000000000000#64

/-- The error of an outcome. -/
def errorOf {α : Type} : Out α → Option Err
  | .err e => some e
  | _ => none

theorem err_of {α : Type} {x : Out α} {e : Err} (h : errorOf x = some e) : x = .err e := by
  cases x with
  | err e' => cases h; rfl
  | ok a => cases h
  | ub => cases h

/-- **C85** fails: four equal components with the weights 19, 11, 7 and 0, all of them numbers that are not negative and whose
sum is 37, are refused: the rounded partial sums go above 1.  With the same weights in the opposite order they are
accepted. -/
theorem C85_weights_refused :
    (∀ w ∈ [dNineteen, dEleven, dSeven, F64.zero], F64.lt w F64.zero = false ∧ F64.isFinite w = true) ∧
    ieee.total [dNineteen, dEleven, dSeven, F64.zero] = 0x4042800000000000#64 ∧
    DistObj.newMixture exMachine [exDie, exDie, exDie, exDie] [dNineteen, dEleven, dSeven, F64.zero] = .err .invalidValue ∧
    isOk (DistObj.newMixture exMachine [exDie, exDie, exDie, exDie] [F64.zero, dSeven, dEleven, dNineteen]) = true := by
  refine ⟨?_, by decide +kernel, ?_, by decide +kernel⟩
  · intro w hw
    simp only [List.mem_cons, List.not_mem_nil, or_false] at hw
    rcases hw with rfl | rfl | rfl | rfl <;> decide +kernel
  · exact err_of (by decide +kernel)

/-- Two components that can be mixed with some weights can be mixed with any two weights that are numbers, not negative, and
whose sum is between 2^-1022 and 2^1022.  Missing for **C85**: other sums, and more than two components, for which it is
false (`C85_weights_refused`). -/
theorem C85_two_components_partial {M : Machine σ} (hM : M.ops = ieee) {a b : DistObj} {ws : List F64} {d : DistObj}
    (hd : DistObj.newMixture M [a, b] ws = .ok d) {v w : F64} (hv : F64.lt v F64.zero = false) (hw : F64.lt w F64.zero = false)
    {s : Nat} (hs : realValue (ieee.total [v, w]) = some (s : Int)) (hmin : 2 ^ 52 ≤ s) (hmax : s ≤ 2 ^ 1022 * 2 ^ 1074) :
    ∃ d', DistObj.newMixture M [a, b] [v, w] = .ok d' := by
  obtain ⟨dim, types, bounds, -, h1, -, -, -, -⟩ := DistObj.newMixture_iff.mp hd
  obtain ⟨inv, h2, h3⟩ := DistObj.first_weight hM hv hw hs hmin hmax
  exact ⟨_, DistObj.newMixture_iff.mpr ⟨dim, types, bounds, inv, h1, Nat.le_refl _, h2, h3, rfl⟩⟩

/-- The hypotheses are met by a coin and a die, which can be mixed evenly, with the weights 19 and 11. -/
example : isOk (DistObj.newMixture exMachine [exCoin, exDie] [F64.one, F64.one]) = true ∧
    F64.lt dNineteen F64.zero = false ∧ F64.lt dEleven F64.zero = false ∧
    realValue (ieee.total [dNineteen, dEleven]) = some ((30 * 2 ^ 1074 : Nat) : Int) ∧ 2 ^ 52 ≤ 30 * 2 ^ 1074 ∧
    30 * 2 ^ 1074 ≤ 2 ^ 1022 * 2 ^ 1074 := by
  refine ⟨by decide +kernel, by decide +kernel, by decide +kernel, by decide +kernel, by decide +kernel, by decide +kernel⟩

/-! ## C86 -/

/-- **C86** Whatever the bytes, with any arithmetic: a distribution read from them is one that the creation functions make. -/
theorem C86_read_distribution {M : Machine σ} {little : Bool} {bs rest : Bytes} {d : DistObj}
    (h : DistObj.read M little bs = .ok (d, rest)) : BuiltDist M d :=
  DistObj.read_built M little _ bs d rest h

/-- **C86** So that what is known of created distributions holds of it: it samples as one of them. -/
theorem C86_read_samples {M : Machine σ} {little : Bool} {bs rest : Bytes} {d : DistObj}
    (h : DistObj.read M little bs = .ok (d, rest)) : Made M (d.sampler M) :=
  DistObj.built_made (C86_read_distribution h)

example : isOk (DistObj.read exMachine true (DistObj.bytes ieee (fun _ => 7#64) exDie)) = true := by decide +kernel

/-! ## C09 -/

/-- **C09** fails for distributions: a roulette announced with `2^61 + k` areas gets a block for `k` of them, because the size
of the block wraps around, and the next one is written past its end. -/
theorem C09_roulette_overflow (M : Machine σ) (little : Bool) {k : Nat} (hk : k < 2 ^ 61) {areas : List F64}
    (hl : areas.length = k + 1) (handle : BitVec 64) (tail : Bytes) :
    DistObj.read M little (objBytes distributionType handle ++ (lebBytes 2#32 ++ (lebBytes (BitVec.ofNat 64 (2 ^ 61 + k)) ++
      ((areas.flatMap fun x => leBytes 8 x.toNat) ++ tail)))) = .ub := by
  unfold DistObj.read
  rw [DistObj.readFuel, Rd.bind_eq, (decodes_obj _ _).1, Out.bind_ok]
  simp only
  rw [refute_false (by simp), Rd.bind_eq, Rd.lift_ok, Out.bind_ok, Rd.bind_eq]
  unfold Rd.peek
  simp only
  rw [(decodes_enum 2#32).1]
  show (DistObj.deRoulette M.ops little >>= fun d => deUserData >>= fun data => pure (DistObj.withData data d))
    (lebBytes 2#32 ++ (lebBytes (BitVec.ofNat 64 (2 ^ 61 + k)) ++ ((areas.flatMap fun x => leBytes 8 x.toNat) ++ tail))) = _
  rw [Rd.bind_eq]
  have h : DistObj.deRoulette M.ops little (lebBytes 2#32 ++ (lebBytes (BitVec.ofNat 64 (2 ^ 61 + k)) ++
      ((areas.flatMap fun x => leBytes 8 x.toNat) ++ tail))) = .ub := by
    unfold DistObj.deRoulette
    rw [Rd.bind_eq, (decodes_enum 2#32).1, Out.bind_ok]
    simp only
    rw [Rd.bind_eq, (decodes_size (n := 2 ^ 61 + k) (by omega)).1, Out.bind_ok]
    simp only
    rw [Rd.bind_eq, DistObj.areas_ub little areas (2 ^ 61 + k) 0 (by omega) (by omega) (by omega)]
    rfl
  rw [h]
  rfl

/-- The hypotheses are met: two areas announced as `2^61 + 1`. -/
example : (1 : Nat) < 2 ^ 61 ∧ [F64.one, F64.one].length = 1 + 1 := by decide

end CCS.Props
