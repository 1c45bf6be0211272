import Verif.Model.DistWire
import Verif.Spec.Wire
import Verif.Spec.Num

/-!
# Specification of the serialization of distributions

What the library can build, what can be stored, and what "creating the distribution again" means, in terms of the creation
functions only.
-/

namespace CCS.Spec

open CCS

/-- What the creation functions give, with any user data attached. -/
inductive BuiltDist {σ : Type} (M : Machine σ) : DistObj → Prop
  | uniform {type lower upper log quantization d} (h : DistObj.newUniform M type lower upper log quantization = .ok d)
      (data : Bytes) : BuiltDist M (d.withData data)
  | normal {type mu sigma log quantization d} (h : DistObj.newNormal type mu sigma log quantization = .ok d)
      (data : Bytes) : BuiltDist M (d.withData data)
  | roulette {areas d} (h : DistObj.newRoulette M.ops areas = .ok d) (data : Bytes) : BuiltDist M (d.withData data)
  | mixture {ds weights d} (hc : ∀ c ∈ ds, BuiltDist M c) (h : DistObj.newMixture M ds weights = .ok d) (data : Bytes) :
      BuiltDist M (d.withData data)
  | multivariate {ds d} (hc : ∀ c ∈ ds, BuiltDist M c) (h : DistObj.newMultivariate M ds = .ok d) (data : Bytes) :
      BuiltDist M (d.withData data)

/-- What fits in memory: sizes of user data are 64-bit, and arrays of 8-byte elements are smaller than `2^64` bytes. -/
inductive StorableDist : DistObj → Prop
  | uniform {u data} (h : data.length < 2 ^ 64) : StorableDist (.uniform u data)
  | normal {d data} (h : data.length < 2 ^ 64) : StorableDist (.normal d data)
  | roulette {r data} (hn : r.numAreas < 2 ^ 61) (h : data.length < 2 ^ 64) : StorableDist (.roulette r data)
  | mixture {m ds data} (hn : ds.length < 2 ^ 61) (hc : ∀ c ∈ ds, StorableDist c) (h : data.length < 2 ^ 64) :
      StorableDist (.mixture m ds data)
  | multivariate {ds data} (hn : ds.length < 2 ^ 61) (hc : ∀ c ∈ ds, StorableDist c) (h : data.length < 2 ^ 64) :
      StorableDist (.multivariate ds data)

mutual

/-- Create the distribution again, from what it reports: its properties, its areas or weights, and its components, created
again first; then attach the same user data. -/
def recreate {σ : Type} (M : Machine σ) : DistObj → Out DistObj
  | .uniform u data => do
    let d ← DistObj.newUniform M u.type u.lower u.upper u.log u.quantization
    .ok (d.withData data)
  | .normal n data => do
    let d ← DistObj.newNormal n.type n.mu n.sigma n.log n.quantization
    .ok (d.withData data)
  | .roulette r data => do
    let d ← DistObj.newRoulette M.ops (DistObj.widths M.ops r.numAreas r.areas)
    .ok (d.withData data)
  | .mixture m ds data => do
    let cs ← recreateAll M ds
    let d ← DistObj.newMixture M cs (DistObj.widths M.ops ds.length m.weights)
    .ok (d.withData data)
  | .multivariate ds data => do
    let cs ← recreateAll M ds
    let d ← DistObj.newMultivariate M cs
    .ok (d.withData data)

/-- Same, for each component in order. -/
def recreateAll {σ : Type} (M : Machine σ) : List DistObj → Out (List DistObj)
  | [] => .ok []
  | d :: ds => do
    let c ← recreate M d
    let cs ← recreateAll M ds
    .ok (c :: cs)

end

/-- Reading input that starts with `bs` has the given outcome; on success exactly what follows `bs` is left. -/
def ReadsAs {α : Type} (r : Bytes → Out (α × Bytes)) (bs : Bytes) (o : Out α) : Prop :=
  ∀ tail, r (bs ++ tail) = match o with
    | .ok x => .ok (x, tail)
    | .err e => .err e
    | .ub => .ub

/-- Every roulette in the distribution has bounds that are multiples of `2^-52` (so in units of `2^-1074`, multiples of
`2^1022`) in increasing order, none above 1, and no mixture has a bound that is not a number (as an infinite weight leads
to). -/
inductive SteadyDist : DistObj → Prop
  | uniform {u data} : SteadyDist (.uniform u data)
  | normal {d data} : SteadyDist (.normal d data)
  | roulette {r data}
      (h : ∀ i, i < r.numAreas → ∃ (a b : F64) (j k : Nat), r.areas[i]? = some a ∧ r.areas[i + 1]? = some b ∧
        realValue a = some ((j * 2 ^ 1022 : Nat) : Int) ∧ realValue b = some ((k * 2 ^ 1022 : Nat) : Int) ∧
        j ≤ k ∧ k ≤ 2 ^ 52) : SteadyDist (.roulette r data)
  | mixture {m ds data} (h : ∀ b ∈ m.weights, realValue b ≠ none) (hc : ∀ c ∈ ds, SteadyDist c) :
      SteadyDist (.mixture m ds data)
  | multivariate {ds data} (hc : ∀ c ∈ ds, SteadyDist c) : SteadyDist (.multivariate ds data)

end CCS.Spec
