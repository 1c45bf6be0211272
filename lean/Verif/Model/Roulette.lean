import Verif.Model.Param

/-!
# Roulette selection

Models the part of `src/distribution_internal.h` shared by roulette distributions and trees, and
`src/distribution_roulette.c`.  Arithmetic on doubles is an abstract `FloatOps`; comparisons are exact.
-/

namespace CCS

/-- The constant `0.0`. -/
def F64.zero : F64 := 0x0000000000000000#64
/-- The constant `1.0`. -/
def F64.one : F64 := 0x3ff0000000000000#64

/-- The sum `0.0 + a + b + ...`, from left to right: `src/distribution_internal.h:111-115`, `src/tree.c:226-229`. -/
def FloatOps.total (ops : FloatOps) (l : List F64) : F64 := l.foldl ops.add F64.zero

/-- The partial sums of `src/distribution_internal.h:133-134`: `acc + a`, `acc + a + b`, ... -/
def FloatOps.partials (ops : FloatOps) (acc : F64) : List F64 → List F64
  | [] => []
  | a :: l => ops.add acc a :: FloatOps.partials ops (ops.add acc a) l

/-- `_ccs_distribution_roulette_normalize_areas`, `src/distribution_internal.h:125-138`: the bounds of the areas.
The first is `0.0` and the last is `1.0`. -/
def normalizeAreas (ops : FloatOps) (areas : List F64) (inverse : F64) : List F64 :=
  F64.zero :: (((FloatOps.partials ops F64.zero areas).map (ops.mul · inverse)).dropLast ++ [F64.one])

/-- `isfinite`: exponent not all ones. -/
def F64.isFinite (x : F64) : Bool := decide (x.toNat % 2 ^ 63 < 0x7ff0000000000000)

/-- The loop of `_ccs_distribution_roulette_validate_areas`, `src/distribution_internal.h:112-115`. -/
def sumAreas (ops : FloatOps) (acc : F64) : List F64 → Out F64
  | [] => .ok acc
  | a :: l => if F64.lt a F64.zero then .err .invalidValue else sumAreas ops (ops.add acc a) l

/-- `_ccs_distribution_roulette_validate_areas`, `src/distribution_internal.h:105-123`. -/
def validateAreas (ops : FloatOps) (areas : List F64) : Out F64 := do
  let sum ← sumAreas ops F64.zero areas
  refute (F64.feq sum F64.zero) .invalidValue
  refute (F64.isNaN (ops.div F64.one sum) || !F64.isFinite (ops.div F64.one sum)) .invalidValue
  .ok (ops.div F64.one sum)

/-- The loop of `_ccs_dichotomic_search`, `src/distribution_internal.h:63-72`.  `none`: the loop has not ended after
`fuel` turns.  Reading outside of the `size + 1` bounds is undefined behaviour.  Simplification: `lower + upper`
is not reduced modulo `2^64` (it stays below `2 * size`). -/
def searchLoop (values : List F64) (target : F64) : Nat → (lower upper index : Int) → Option (Out Int)
  | 0, _, _, _ => none
  | fuel + 1, lower, upper, index =>
    if index < 0 then some .ub else
    match values[index.toNat]?, values[index.toNat + 1]? with
    | some a, some b =>
      if F64.lt target a then searchLoop values target fuel lower (index - 1) (Int.tdiv (lower + (index - 1)) 2)
      else if F64.le b target then searchLoop values target fuel (index + 1) upper (Int.tdiv (index + 1 + upper) 2)
      else some (.ok index)
    | some a, none =>
      if F64.lt target a then searchLoop values target fuel lower (index - 1) (Int.tdiv (lower + (index - 1)) 2)
      else some .ub
    | none, _ => some .ub

/-- `_ccs_dichotomic_search`, `src/distribution_internal.h:56-74`, on `size + 1` bounds.  `guess` is the conversion to an
integer of `upper * target`. -/
def search (guess : Int → F64 → Int) (fuel : Nat) (size : Nat) (values : List F64) (target : F64) :
    Option (Out Int) :=
  searchLoop values target fuel 0 ((size : Int) - 1) (guess ((size : Int) - 1) target)

/-- The data of a roulette distribution, `src/distribution_roulette.c:259-273`: the number of areas and their
bounds. -/
structure Roulette where
  numAreas : Nat
  areas : List F64
  deriving DecidableEq

/-- `ccs_create_roulette_distribution`, `src/distribution_roulette.c:233-277`. -/
def createRoulette (ops : FloatOps) (areas : List F64) : Out Roulette := do
  refute (areas.length = 0 ∨ 2 ^ 63 - 1 < areas.length) .invalidValue
  let inverse ← validateAreas ops areas
  .ok ⟨areas.length, normalizeAreas ops areas inverse⟩

/-- `_ccs_distribution_roulette_get_bounds`, `src/distribution_roulette.c:159-173`. -/
def Roulette.bounds (r : Roulette) : Interval :=
  ⟨.int, 0#64, BitVec.ofNat 64 r.numAreas, 1#32, 0#32⟩

/-- `_ccs_distribution_roulette_samples`, `src/distribution_roulette.c:175-195`: one index for each draw of
`gsl_rng_uniform`. -/
def Roulette.samples (guess : Int → F64 → Int) (fuel : Nat) (r : Roulette) : List F64 → Option (Out (List Int))
  | [] => some (.ok [])
  | rnd :: rnds =>
    match search guess fuel r.numAreas r.areas rnd with
    | none => none
    | some .ub => some .ub
    | some (.err e) => some (.err e)
    | some (.ok i) =>
      match Roulette.samples guess fuel r rnds with
      | none => none
      | some .ub => some .ub
      | some (.err e) => some (.err e)
      | some (.ok is) => some (.ok (i :: is))

/-- The areas written by `ccs_roulette_distribution_get_areas`, `src/distribution_roulette.c:292-316`, into a buffer of
`room` doubles (`none` for a NULL buffer). -/
def Roulette.getAreas (ops : FloatOps) (r : Roulette) (room : Option Nat) : Out (List F64) :=
  match room with
  | none => .ok []
  | some n =>
    if n < r.numAreas then .err .invalidValue
    else .ok ((List.range r.numAreas).map (fun i => ops.sub (r.areas.getD (i + 1) F64.zero) (r.areas.getD i F64.zero)) ++
      List.replicate (n - r.numAreas) F64.zero)

end CCS
