import Verif.Model.BoundInterval
import Verif.Model.DistWire
import Verif.Model.Getters

/-!
# Distributions made and questioned from Python and Ruby

The constructors and the properties of `bindings/python/cconfigspace/distribution.py` and `bindings/ruby/lib/cconfigspace/distribution.rb`, on top of
`src/distribution_*.c` (`Model/DistWire`, `Model/Getters`).  Sampling is in `Model/BoundDraws`.

Simplifications: exceptions of the languages are the code EXTERNAL; what they make of an integer given where a float is expected is a parameter,
`toDouble`; scales are one of the two valid ones; the handles given are those of distributions.  Both languages keep the answers to most
questions (`hasattr`, `@x ||=`); distributions do not change, so that this is not represented.
-/

namespace CCS.BoundDist

open CCS CCS.BoundInterval

variable {σ : Type}

/-- The classes of the two languages. -/
inductive Class
  | uniformFloat | uniformInt | normalFloat | normalInt | roulette | mixture | multivariate
  deriving DecidableEq, Repr

/-- `ccs_distribution_get_type`, `src/distribution.c:10-20`, with the values of `ccs_distribution_type_t`. -/
def typeOf : DistObj → Nat
  | .uniform .. => 0
  | .normal .. => 1
  | .roulette .. => 2
  | .mixture .. => 3
  | .multivariate .. => 4

/-- `Distribution.from_handle`, `distribution.py:29-46`, `:137-148` and `:251-262`, `distribution.rb:38-55`, `:133-144` and `:233-244`: the
class of the object made for a handle.  The data types are written to room for one: more is undefined. -/
def fromHandle (M : Machine σ) (d : DistObj) : Out Class :=
  match typeOf d with
  | 0 =>
    match (d.sampler M).types with
    | [.float] => .ok .uniformFloat
    | [.int] => .ok .uniformInt
    | [] => .err .invalidDistribution
    | _ => .ub
  | 1 =>
    match (d.sampler M).types with
    | [.float] => .ok .normalFloat
    | [.int] => .ok .normalInt
    | [] => .err .invalidDistribution
    | _ => .ub
  | 2 => .ok .roulette
  | 3 => .ok .mixture
  | 4 => .ok .multivariate
  | _ => .err .invalidDistribution

/-! ## Creation -/

/-- The zero of each type, the default of bounds and quantization. -/
def zeroOf : NumType → Number
  | .float => .float 0#64
  | .int => .int 0

/-- The default upper bound of uniform distributions, `distribution.py:221` and `:234`, `distribution.rb:149` and `:164`. -/
def topOf : NumType → Number
  | .float => .float F64.one
  | .int => .int 100

/-- `UniformFloatDistribution(...)` and `UniformIntDistribution(...)`, `distribution.py:219-243`, `distribution.rb:146-174`.  `none` is an argument not
given; `log`: the scale is logarithmic. -/
def createUniform (M : Machine σ) (lang : Lang) (toDouble : Int → Out F64) (t : NumType) (lower upper : Option Number) (log : Option Bool)
    (quantization : Option Number) : Out DistObj := do
  let l ← lang.numeric toDouble t (lower.getD (zeroOf t))
  let u ← lang.numeric toDouble t (upper.getD (topOf t))
  let q ← lang.numeric toDouble t (quantization.getD (zeroOf t))
  DistObj.newUniform M t l u (log.getD false) q

/-- `NormalFloatDistribution(...)` and `NormalIntDistribution(...)`, `distribution.py:321-347`, `distribution.rb:246-274`. -/
def createNormal (lang : Lang) (toDouble : Int → Out F64) (t : NumType) (mu sigma : Option Number) (log : Option Bool)
    (quantization : Option Number) : Out DistObj := do
  let m ← lang.numeric toDouble .float (mu.getD (.float 0#64))
  let s ← lang.numeric toDouble .float (sigma.getD (.float F64.one))
  let q ← lang.numeric toDouble t (quantization.getD (zeroOf t))
  DistObj.newNormal t m s (log.getD false) q

/-- An array of doubles filled with the numbers of a list: `(ccs_float * n)(*list)`, `p.write_array_of_ccs_float_t(list)`. -/
def doubles (lang : Lang) (toDouble : Int → Out F64) : List Number → Out (List F64)
  | [] => .ok []
  | n :: ns => do
    let x ← lang.numeric toDouble .float n
    let xs ← doubles lang toDouble ns
    .ok (x :: xs)

/-- `RouletteDistribution(...)`, `distribution.py:353-363`, `distribution.rb:324-335`. -/
def createRoulette (ops : FloatOps) (lang : Lang) (toDouble : Int → Out F64) (areas : List Number) : Out DistObj := do
  let xs ← doubles lang toDouble areas
  DistObj.newRoulette ops xs

/-- The weights of a mixture of `n` distributions, `distribution.py:401-403`, `distribution.rb:364-371`.  In Python an array made with fewer values than
its length has zeros after them, and one made with more raises an exception. -/
def weightsGiven (lang : Lang) (toDouble : Int → Out F64) (n : Nat) : Option (List Number) → Out (List F64)
  | none => .ok (List.replicate n F64.one)
  | some ws =>
    match lang with
    | .python =>
      if n < ws.length then .err .external
      else do
        let xs ← doubles lang toDouble ws
        .ok (xs ++ List.replicate (n - ws.length) 0#64)
    | .ruby => if n ≠ ws.length then .err .invalidValue else doubles lang toDouble ws

/-- `MixtureDistribution(...)`, `distribution.py:397-409`, `distribution.rb:357-375`. -/
def createMixture (M : Machine σ) (lang : Lang) (toDouble : Int → Out F64) (ds : List DistObj) (weights : Option (List Number)) : Out DistObj := do
  let ws ← weightsGiven lang toDouble ds.length weights
  DistObj.newMixture M ds ws

/-- `MultivariateDistribution(...)`, `distribution.py:448-457`, `distribution.rb:403-414`: the class of Python takes weights and does not look at them, that
of Ruby does not take any. -/
def createMultivariate (M : Machine σ) (lang : Lang) (ds : List DistObj) (weights : Option (List Number)) : Out DistObj :=
  if lang = .ruby ∧ weights ≠ none then .err .external else DistObj.newMultivariate M ds

/-! ## Questions -/

/-- `data_type`, `distribution.py:150-155`, `distribution.rb:176-178`: the first of `data_types`. -/
def dataType (M : Machine σ) (d : DistObj) : Out NumType :=
  match (d.sampler M).types with
  | t :: _ => .ok t
  | [] => .err .external

/-- A number of the type of the distribution, from the `ccs_numeric_t` that a call wrote. -/
def shown (M : Machine σ) (d : DistObj) (x : Option (BitVec 64)) : Out Number := do
  let t ← dataType M d
  .ok (read t (x.getD 0#64))

/-- `lower` of a uniform distribution, `distribution.py:157-171`, `distribution.rb:180-190`. -/
def lowerOf (M : Machine σ) (d : DistObj) : Out Number := do
  let p ← d.getUniform true false false false
  shown M d p.1

/-- `upper`, `distribution.py:173-187`, `distribution.rb:192-202`. -/
def upperOf (M : Machine σ) (d : DistObj) : Out Number := do
  let p ← d.getUniform false true false false
  shown M d p.2.1

/-- `scale`, `distribution.py:189-199`, `distribution.rb:204-210`: whether it is logarithmic. -/
def scaleOf (d : DistObj) : Out Bool := do
  let p ← d.getUniform false false true false
  .ok (p.2.2.1.getD false)

/-- `quantization`, `distribution.py:201-215`, `distribution.rb:212-222`. -/
def quantizationOf (M : Machine σ) (d : DistObj) : Out Number := do
  let p ← d.getUniform false false false true
  shown M d p.2.2.2

/-- `mu` of a normal distribution, `distribution.py:271-279`, `distribution.rb:280-286`. -/
def muOf (d : DistObj) : Out Number := do
  let p ← d.getNormal true false false false
  .ok (.float (p.1.getD 0#64))

/-- `sigma`, `distribution.py:281-289`, `distribution.rb:288-294`. -/
def sigmaOf (d : DistObj) : Out Number := do
  let p ← d.getNormal false true false false
  .ok (.float (p.2.1.getD 0#64))

/-- `scale` of a normal distribution, `distribution.py:291-301`, `distribution.rb:296-302`. -/
def normalScaleOf (d : DistObj) : Out Bool := do
  let p ← d.getNormal false false true false
  .ok (p.2.2.1.getD false)

/-- `quantization` of a normal distribution, `distribution.py:303-317`, `distribution.rb:304-314`. -/
def normalQuantizationOf (M : Machine σ) (d : DistObj) : Out Number := do
  let p ← d.getNormal false false false true
  shown M d p.2.2.2

/-- `num_areas`, `distribution.py:372-380`, `distribution.rb:323`; `ccs_roulette_distribution_get_num_areas`, `src/distribution_roulette.c:279-290`. -/
def numAreas : DistObj → Out Nat
  | .roulette r _ => .ok r.numAreas
  | _ => .err .invalidDistribution

/-- `areas`, `distribution.py:382-387`, `distribution.rb:341-346`. -/
def areasOf (ops : FloatOps) (d : DistObj) : Out (List Number) := do
  let n ← numAreas d
  match d with
  | .roulette r _ =>
    let xs ← r.getAreas ops (some n)
    .ok (xs.map .float)
  | _ => .err .invalidDistribution

/-- `num_distributions`, `distribution.py:411-419` and `:459-467`, `distribution.rb:356` and `:402`, with the call of the library that the class uses. -/
def numDistributions (get : Asked (Option DistObj) → Out (Option (List (Option DistObj)) × Option Nat)) : Out Nat := do
  let p ← get ⟨0, none, true⟩
  .ok (p.2.getD 0)

/-- `weights`, `distribution.py:421-429`, `distribution.rb:377-384`. -/
def weightsOf (ops : FloatOps) (d : DistObj) : Out (List Number) := do
  let n ← numDistributions d.getMixture
  let ws ← d.getWeights ops n
  .ok (ws.map .float)

/-- `Distribution.from_handle` on each handle of an array. -/
def eachFromHandle (M : Machine σ) : List (Option DistObj) → Out (List (Class × DistObj))
  | [] => .ok []
  | none :: _ => .err .invalidObject
  | some d :: ds => do
    let c ← fromHandle M d
    let cs ← eachFromHandle M ds
    .ok ((c, d) :: cs)

/-- `distributions`, `distribution.py:431-439` and `:469-477`, `distribution.rb:386-393` and `:416-423`: each component and the class of the
object that stands for it. -/
def componentsOf (M : Machine σ) (get : Asked (Option DistObj) → Out (Option (List (Option DistObj)) × Option Nat)) :
    Out (List (Class × DistObj)) := do
  let n ← numDistributions get
  let p ← get ⟨n, some (List.replicate n none), false⟩
  eachFromHandle M (p.1.getD [])

end CCS.BoundDist
