import Verif.Model.BoundDist
import Verif.Spec.BoundInterval

/-! # Specification: distributions of a program in Python or Ruby -/

namespace CCS.BoundDist.Spec

open CCS CCS.BoundInterval CCS.BoundInterval.Spec CCS.BoundDist

variable {σ : Type} (M : Machine σ) (lang : Lang) (toDouble : Int → Out F64)

/-- The class of uniform distributions of each type. -/
def uniformClass : NumType → Class
  | .float => .uniformFloat
  | .int => .uniformInt

/-- The class of normal distributions of each type. -/
def normalClass : NumType → Class
  | .float => .normalFloat
  | .int => .normalInt

/-- The distributions that a program makes by calling the constructors. -/
inductive Made : DistObj → Prop
  | uniform {t lower upper log quantization d} (h : BoundDist.createUniform M lang toDouble t lower upper log quantization = .ok d) : Made d
  | normal {t mu sigma log quantization d} (h : BoundDist.createNormal lang toDouble t mu sigma log quantization = .ok d) : Made d
  | roulette {areas d} (h : BoundDist.createRoulette M.ops lang toDouble areas = .ok d) : Made d
  | mixture {ds weights d} (hc : ∀ c ∈ ds, Made c) (h : BoundDist.createMixture M lang toDouble ds weights = .ok d) : Made d
  | multivariate {ds weights d} (hc : ∀ c ∈ ds, Made c) (h : BoundDist.createMultivariate M lang ds weights = .ok d) : Made d

/-- A program does something with each component. -/
def each (f : DistObj → Out DistObj) : List (Class × DistObj) → Out (List DistObj)
  | [] => .ok []
  | (_, d) :: ds => do
    let c ← f d
    let cs ← each f ds
    .ok (c :: cs)

/-- A program copies a uniform distribution of type `t`: it asks for the four properties, and calls the constructor with the answers. -/
def copyUniform (t : NumType) (d : DistObj) : Out DistObj := do
  let l ← lowerOf M d
  let u ← upperOf M d
  let s ← scaleOf d
  let q ← quantizationOf M d
  BoundDist.createUniform M lang toDouble t (some l) (some u) (some s) (some q)

/-- Same, for a normal distribution. -/
def copyNormal (t : NumType) (d : DistObj) : Out DistObj := do
  let m ← muOf d
  let s ← sigmaOf d
  let g ← normalScaleOf d
  let q ← normalQuantizationOf M d
  BoundDist.createNormal lang toDouble t (some m) (some s) (some g) (some q)

/-- A program copies a distribution, down to a depth: it looks at the class, asks for the properties of that class, copies the components, and calls
the constructor. -/
def copy : Nat → DistObj → Out DistObj
  | 0, _ => .err .external
  | n + 1, d => do
    let c ← fromHandle M d
    match c with
    | .uniformFloat => copyUniform M lang toDouble .float d
    | .uniformInt => copyUniform M lang toDouble .int d
    | .normalFloat => copyNormal M lang toDouble .float d
    | .normalInt => copyNormal M lang toDouble .int d
    | .roulette => do
      let xs ← areasOf M.ops d
      BoundDist.createRoulette M.ops lang toDouble xs
    | .mixture => do
      let ws ← weightsOf M.ops d
      let cs ← componentsOf M d.getMixture
      let ds ← each (copy n) cs
      BoundDist.createMixture M lang toDouble ds (some ws)
    | .multivariate => do
      let cs ← componentsOf M d.getMultivariate
      let ds ← each (copy n) cs
      BoundDist.createMultivariate M lang ds none

end CCS.BoundDist.Spec
