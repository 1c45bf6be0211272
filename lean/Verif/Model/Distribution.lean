import Verif.Model.Roulette
import Verif.Model.Expr

/-!
# Distributions

Models `src/distribution_uniform.c`, `src/distribution_normal.c`, `src/distribution_roulette.c`,
`src/distribution_mixture.c`, `src/distribution_multivariate.c` and the dispatch of `src/distribution.c`.

A distribution is immutable once created: it is represented by its table of operations, as in the code
(`_ccs_distribution_ops_s`, `src/distribution_internal.h:16-42`).  The memory that samples are written to is explicit.
Invalid type and scale codes (`CCS_RESULT_ERROR_INVALID_TYPE`, `CCS_RESULT_ERROR_INVALID_SCALE`) are not represented.
-/

namespace CCS

/-- What the distributions call in libm and in the GSL, with generators of states `σ`.  All are arbitrary functions.

`uniformInt` answers `none` when the GSL reports an error: the default error handler ends the program.  `toInt` is the
conversion of a double to a `ccs_int_t`: `none` when the double has no such value (undefined behaviour). -/
structure Machine (σ : Type) where
  ops : FloatOps
  exp : F64 → F64
  log : F64 → F64
  floor : F64 → F64
  round : F64 → F64
  toInt : F64 → Option (BitVec 64)
  /-- The conversion to an integer of `upper * target` in `_ccs_dichotomic_search`. -/
  guess : Int → F64 → Int
  /-- `gsl_rng_uniform` -/
  uniform : σ → F64 × σ
  /-- `gsl_rng_uniform_int` -/
  uniformInt : σ → BitVec 64 → Option (BitVec 64 × σ)
  /-- `gsl_ran_flat` -/
  flat : σ → F64 → F64 → F64 × σ
  /-- `gsl_ran_gaussian` -/
  gaussian : σ → F64 → F64 × σ
  /-- `gsl_ran_gaussian_tail` -/
  tail : σ → F64 → F64 → F64 × σ
  /-- How many turns of an unbounded loop are followed. -/
  turns : Nat

/-- The generator and the memory cells (of 8 bytes) that samples are written to. -/
structure Store (σ : Type) where
  rng : σ
  mem : Nat → BitVec 64

/-- A pointer: NULL, the address of a cell, or the contents of a variable that was never set. -/
inductive Ptr
  | null
  | cell (a : Nat)
  | unset
  deriving DecidableEq

/-- The effect of a sampling call.  `none`: the call does not return (the GSL ended the program, or a loop goes on). -/
abbrev Act (σ : Type) := Store σ → Option (Out (Store σ))

namespace Act

variable {σ : Type}

/-- Nothing. -/
def skip : Act σ := fun s => some (.ok s)

/-- `CCS_VALIDATE(a); b`. -/
def seq (a b : Act σ) : Act σ := fun s =>
  match a s with
  | none => none
  | some .ub => some .ub
  | some (.err e) => some (.err e)
  | some (.ok s') => b s'

/-- `for (; todo > 0; i++, todo--) body(i)`. -/
def loop (body : Nat → Act σ) : (todo i : Nat) → Act σ
  | 0, _ => skip
  | todo + 1, i => seq (body i) (loop body todo (i + 1))

/-- Write one cell. -/
def write (s : Store σ) (a : Nat) (v : BitVec 64) : Store σ :=
  { s with mem := fun x => if x = a then v else s.mem x }

/-- `values[..] = draw(rng)`. -/
def put (a : Nat) (draw : σ → Option (Out (BitVec 64 × σ))) : Act σ := fun s =>
  match draw s.rng with
  | none => none
  | some .ub => some .ub
  | some (.err e) => some (.err e)
  | some (.ok (v, g)) => some (.ok (write { s with rng := g } a v))

/-- `values[..] = f(values[..])`. -/
def update (a : Nat) (f : BitVec 64 → Out (BitVec 64)) : Act σ := fun s =>
  match f (s.mem a) with
  | .ub => some .ub
  | .err e => some (.err e)
  | .ok v => some (.ok (write s a v))

end Act

/-- A 64-bit signed result; overflow is undefined behaviour. -/
def intRange (i : Int) : Out (BitVec 64) :=
  if -2 ^ 63 ≤ i ∧ i < 2 ^ 63 then .ok (BitVec.ofInt 64 i) else .ub

/-- A distribution: its dimension, data types and bounds (`ccs_distribution_get_dimension`, `_get_data_types`,
`_get_bounds`, `src/distribution.c:22-59`) and its operations (`_ccs_distribution_ops_s`,
`src/distribution_internal.h:16-42`). -/
structure Sampler (σ : Type) where
  dim : Nat
  types : List NumType
  bounds : List Interval
  samples : (num values : Nat) → Act σ
  strided : (num stride values : Nat) → Act σ
  soa : (num : Nat) → List Ptr → Act σ

namespace Machine

variable {σ : Type} (M : Machine σ)

/-- A draw that always succeeds. -/
def sure (d : σ → F64 × σ) : σ → Option (Out (BitVec 64 × σ)) := fun g => some (.ok (d g))

/-- Conversion of a double to a `ccs_int_t`, undefined when out of range. -/
def cast (x : F64) : Out (BitVec 64) :=
  match M.toInt x with
  | none => .ub
  | some i => .ok i

end Machine

/-! ## Uniform distributions -/

/-- `_ccs_distribution_uniform_data_t`, `src/distribution_uniform.c:7-18`.  `log`: `scale_type` is
`CCS_SCALE_TYPE_LOGARITHMIC`. -/
structure Uniform where
  type : NumType
  lower : BitVec 64
  upper : BitVec 64
  log : Bool
  quantization : BitVec 64
  internalLower : BitVec 64
  internalUpper : BitVec 64
  quantize : Bool
  deriving DecidableEq

namespace Uniform

variable {σ : Type} (M : Machine σ)

/-- The checks of `ccs_create_uniform_distribution`, `src/distribution_uniform.c:394-409`. -/
def check (type : NumType) (lower upper : BitVec 64) (log : Bool) (quantization : BitVec 64) : Out Unit :=
  match type with
  | .int =>
    if upper.toInt ≤ lower.toInt ∨ (log = true ∧ lower.toInt ≤ 0) ∨ quantization.toInt < 0 then .err .invalidValue
    else do
      let width ← intRange (upper.toInt - lower.toInt)
      refute (width.toInt < quantization.toInt) .invalidValue
  | .float =>
    refute (F64.le upper lower ∨ (log = true ∧ F64.le lower F64.zero = true) ∨ F64.lt quantization F64.zero ∨
      F64.lt (M.ops.sub upper lower) quantization) .invalidValue

/-- The data filled by `ccs_create_uniform_distribution`, `src/distribution_uniform.c:425-459`. -/
def fill (type : NumType) (lower upper : BitVec 64) (log : Bool) (quantization : BitVec 64) : Out Uniform :=
  match type with
  | .float =>
    let quantize := !F64.feq quantization F64.zero
    if log then .ok ⟨type, lower, upper, log, quantization, M.log lower, M.log upper, quantize⟩
    else
      let width := M.ops.sub upper lower
      .ok ⟨type, lower, upper, log, quantization, F64.zero, if quantize then M.ops.div width quantization else width, quantize⟩
  | .int =>
    let quantize := decide (quantization ≠ 0#64)
    if log then .ok ⟨type, lower, upper, log, quantization, M.log (F64.ofInt lower), M.log (F64.ofInt upper), quantize⟩
    else do
      let width ← intRange (upper.toInt - lower.toInt)
      let turns ← if quantization = 0#64 then .ok width else intRange (width.toInt.tdiv quantization.toInt)
      .ok ⟨type, lower, upper, log, quantization, 0#64, turns, quantize⟩

/-- `_ccs_distribution_uniform_get_bounds`, `src/distribution_uniform.c:184-206`. -/
def bounds (u : Uniform) : Interval := ⟨u.type, u.lower, u.upper, 1#32, 0#32⟩

/-- `floor((v - lower) / quantization) * quantization + lower`, `src/distribution_uniform.c:241-245,320-323`. -/
def snapFloat (u : Uniform) (v : BitVec 64) : Out (BitVec 64) :=
  .ok (M.ops.add (M.ops.mul (M.floor (M.ops.div (M.ops.sub v u.lower) u.quantization)) u.quantization) u.lower)

/-- `floor(v) * quantization + lower`, `src/distribution_uniform.c:249-251,327-328`. -/
def stepFloat (u : Uniform) (v : BitVec 64) : Out (BitVec 64) :=
  .ok (M.ops.add (M.ops.mul (M.floor v) u.quantization) u.lower)

/-- `v + lower`, `src/distribution_uniform.c:254,331`. -/
def shiftFloat (u : Uniform) (v : BitVec 64) : Out (BitVec 64) := .ok (M.ops.add v u.lower)

/-- `((v - lower) / quantization) * quantization + lower` on integers, `src/distribution_uniform.c:265-269,341-344`. -/
def snapInt (u : Uniform) (v : BitVec 64) : Out (BitVec 64) := do
  let d ← intRange (v.toInt - u.lower.toInt)
  let k ← if u.quantization = 0#64 then .ub else intRange (d.toInt.tdiv u.quantization.toInt)
  let p ← intRange (k.toInt * u.quantization.toInt)
  intRange (p.toInt + u.lower.toInt)

/-- `v * quantization + lower` on integers, `src/distribution_uniform.c:278-280,353-354`. -/
def stepInt (u : Uniform) (v : BitVec 64) : Out (BitVec 64) := do
  let p ← intRange (v.toInt * u.quantization.toInt)
  intRange (p.toInt + u.lower.toInt)

/-- `v + lower` on integers, `src/distribution_uniform.c:283,357`. -/
def shiftInt (u : Uniform) (v : BitVec 64) : Out (BitVec 64) := intRange (v.toInt + u.lower.toInt)

/-- `gsl_ran_flat(grng, internal_lower.f, internal_upper.f)`, `src/distribution_uniform.c:231,311`. -/
def rawFloat (u : Uniform) : σ → Option (Out (BitVec 64 × σ)) :=
  Machine.sure fun g => M.flat g u.internalLower u.internalUpper

/-- `floor(exp(gsl_ran_flat(grng, internal_lower.f, internal_upper.f)))` converted to a `ccs_int_t`,
`src/distribution_uniform.c:258-260,335-337`. -/
def rawLogInt (u : Uniform) : σ → Option (Out (BitVec 64 × σ)) := fun g =>
  let d := M.flat g u.internalLower u.internalUpper
  match M.cast (M.floor (M.exp d.1)) with
  | .ok v => some (.ok (v, d.2))
  | .err e => some (.err e)
  | .ub => some .ub

/-- `gsl_rng_uniform_int(grng, internal_upper.i)`, `src/distribution_uniform.c:272,347`. -/
def rawInt (u : Uniform) : σ → Option (Out (BitVec 64 × σ)) := fun g =>
  match M.uniformInt g u.internalUpper with
  | none => none
  | some d => some (.ok d)

/-- `_ccs_distribution_uniform_samples`, `src/distribution_uniform.c:289-361`. -/
def samples (u : Uniform) (num values : Nat) : Act σ :=
  match u.type with
  | .float =>
    .seq (.loop (fun i => .put (values + i) (u.rawFloat M)) num 0)
      (if u.log then
        .seq (.loop (fun i => .update (values + i) fun v => .ok (M.exp v)) num 0)
          (if u.quantize then .loop (fun i => .update (values + i) (u.snapFloat M)) num 0 else .skip)
      else if u.quantize then .loop (fun i => .update (values + i) (u.stepFloat M)) num 0
      else .loop (fun i => .update (values + i) (u.shiftFloat M)) num 0)
  | .int =>
    if u.log then
      .seq (.loop (fun i => .put (values + i) (u.rawLogInt M)) num 0)
        (if u.quantize then .loop (fun i => .update (values + i) u.snapInt) num 0 else .skip)
    else
      .seq (.loop (fun i => .put (values + i) (u.rawInt M)) num 0)
        (if u.quantize then .loop (fun i => .update (values + i) u.stepInt) num 0
        else .loop (fun i => .update (values + i) u.shiftInt) num 0)

/-- `_ccs_distribution_uniform_strided_samples`, `src/distribution_uniform.c:208-287`. -/
def strided (u : Uniform) (num stride values : Nat) : Act σ :=
  match u.type with
  | .float =>
    .seq (.loop (fun i => .put (values + i * stride) (u.rawFloat M)) num 0)
      (if u.log then
        .seq (.loop (fun i => .update (values + i * stride) fun v => .ok (M.exp v)) num 0)
          (if u.quantize then .loop (fun i => .update (values + i * stride) (u.snapFloat M)) num 0 else .skip)
      else if u.quantize then .loop (fun i => .update (values + i * stride) (u.stepFloat M)) num 0
      else .loop (fun i => .update (values + i * stride) (u.shiftFloat M)) num 0)
  | .int =>
    if u.log then
      .seq (.loop (fun i => .put (values + i * stride) (u.rawLogInt M)) num 0)
        (if u.quantize then .loop (fun i => .update (values + i * stride) u.snapInt) num 0 else .skip)
    else
      .seq (.loop (fun i => .put (values + i * stride) (u.rawInt M)) num 0)
        (if u.quantize then .loop (fun i => .update (values + i * stride) u.stepInt) num 0
        else .loop (fun i => .update (values + i * stride) u.shiftInt) num 0)

end Uniform

/-- The `soa_samples` of distributions of dimension 1: `src/distribution_uniform.c:363-374`,
`src/distribution_normal.c:518-529`, `src/distribution_roulette.c:220-231`.  Nothing for a NULL column; using a pointer
that was never set, or reading past the end of the array of pointers, is undefined. -/
def soaOne {σ : Type} (samples : (num values : Nat) → Act σ) (num : Nat) : List Ptr → Act σ
  | .cell a :: _ => samples num a
  | .null :: _ => .skip
  | _ => fun _ => some .ub

/-- `ccs_create_uniform_distribution`, `src/distribution_uniform.c:376-463`. -/
def createUniform {σ : Type} (M : Machine σ) (type : NumType) (lower upper : BitVec 64) (log : Bool)
    (quantization : BitVec 64) : Out (Sampler σ) := do
  Uniform.check M type lower upper log quantization
  let u ← Uniform.fill M type lower upper log quantization
  .ok ⟨1, [type], [u.bounds], u.samples M, u.strided M, soaOne (u.samples M)⟩

/-! ## Normal distributions -/

/-- The constant `0.5`. -/
def F64.half : F64 := 0x3fe0000000000000#64
/-- `CCS_INFINITY`. -/
def F64.inf : F64 := 0x7ff0000000000000#64
/-- `-CCS_INFINITY`. -/
def F64.negInf : F64 := 0xfff0000000000000#64
/-- `CCS_INT_MAX`. -/
def intMax : BitVec 64 := 0x7fffffffffffffff#64
/-- `CCS_INT_MIN`. -/
def intMin : BitVec 64 := 0x8000000000000000#64

/-- `_ccs_distribution_normal_data_t`, `src/distribution_normal.c:7-15`. -/
structure Normal where
  type : NumType
  mu : F64
  sigma : F64
  log : Bool
  quantization : BitVec 64
  quantize : Bool
  deriving DecidableEq

namespace Normal

variable {σ : Type} (M : Machine σ)

/-- `(x / q) * q` on integers, `src/distribution_normal.c:203-204,220-223`. -/
def multiple (x q : BitVec 64) : BitVec 64 := BitVec.ofInt 64 (x.toInt.tdiv q.toInt * q.toInt)

/-- `_ccs_distribution_normal_get_bounds`, `src/distribution_normal.c:173-238`. -/
def bounds (d : Normal) : Interval :=
  if d.log then
    match d.type with
    | .float =>
      if d.quantize then ⟨.float, d.quantization, F64.inf, 1#32, 0#32⟩ else ⟨.float, F64.zero, F64.inf, 0#32, 0#32⟩
    | .int =>
      if d.quantize then ⟨.int, d.quantization, multiple intMax d.quantization, 1#32, 1#32⟩
      else ⟨.int, 1#64, intMax, 1#32, 1#32⟩
  else
    match d.type with
    | .float => ⟨.float, F64.negInf, F64.inf, 0#32, 0#32⟩
    | .int =>
      if d.quantize then ⟨.int, multiple intMin d.quantization, multiple intMax d.quantization, 1#32, 1#32⟩
      else ⟨.int, intMin, intMax, 1#32, 1#32⟩

/-- `do { v = draw } while (again(v))`, followed for `turns` turns.  Simplification: only the last value is written to
the cell, the others are overwritten at once. -/
def retry (draw : σ → Option (Out (BitVec 64 × σ))) (again : F64 → Bool) : Nat → σ → Option (Out (BitVec 64 × σ))
  | 0, _ => none
  | turns + 1, g =>
    match draw g with
    | some (.ok (v, g')) => if again v then retry draw again turns g' else some (.ok (v, g'))
    | r => r

/-- `gsl_ran_gaussian(grng, sigma) + mu`. -/
def gauss (d : Normal) : σ → Option (Out (BitVec 64 × σ)) :=
  Machine.sure fun g => (M.ops.add (M.gaussian g d.sigma).1 d.mu, (M.gaussian g d.sigma).2)

/-- `gsl_ran_gaussian_tail(grng, lq - mu, sigma) + mu`. -/
def tailed (d : Normal) (lq : F64) : σ → Option (Out (BitVec 64 × σ)) :=
  Machine.sure fun g =>
    (M.ops.add (M.tail g (M.ops.sub lq d.mu) d.sigma).1 d.mu, (M.tail g (M.ops.sub lq d.mu) d.sigma).2)

/-- Apply `exp` to what is drawn. -/
def expOf (draw : σ → Option (Out (BitVec 64 × σ))) : σ → Option (Out (BitVec 64 × σ)) := fun g =>
  match draw g with
  | some (.ok (v, g')) => some (.ok (M.exp v, g'))
  | r => r

/-- The value first stored by `_ccs_distribution_normal_samples_float`, `src/distribution_normal.c:252-270,387-406`. -/
def rawFloat (d : Normal) : σ → Option (Out (BitVec 64 × σ)) :=
  if d.log && d.quantize then
    let lq := M.log (M.ops.mul d.quantization F64.half)
    if F64.le F64.zero (M.ops.sub d.mu lq) then retry (d.gauss M) (fun v => F64.lt v lq) M.turns else d.tailed M lq
  else d.gauss M

/-- `q`, `src/distribution_normal.c:296-299,434-437`. -/
def halfStep (d : Normal) : F64 := if d.quantize then M.ops.mul (F64.ofInt d.quantization) F64.half else F64.half

/-- The value first stored by `_ccs_distribution_normal_samples_int`, `src/distribution_normal.c:296-333,434-475`. -/
def rawInt (d : Normal) : σ → Option (Out (BitVec 64 × σ)) :=
  let q := d.halfStep M
  let big : F64 → Bool := fun v => F64.lt (F64.ofInt intMax) (M.ops.sub v q)
  if d.log then
    let lq := M.log q
    if F64.le F64.zero (M.ops.sub d.mu lq) then
      retry (expOf M (retry (d.gauss M) (fun v => F64.lt v lq) M.turns)) big M.turns
    else retry (expOf M (d.tailed M lq)) big M.turns
  else retry (d.gauss M) (fun v => big v || F64.lt (M.ops.add v q) (F64.ofInt intMin)) M.turns

/-- `round(v * rquantization) * quantization`, `src/distribution_normal.c:275-278,411-415`. -/
def snapFloat (d : Normal) (v : BitVec 64) : Out (BitVec 64) :=
  .ok (M.ops.mul (M.round (M.ops.mul v (M.ops.div F64.one d.quantization))) d.quantization)

/-- `(ccs_int_t)round(v * rquantization) * quantization`, `src/distribution_normal.c:335-339,477-482`. -/
def snapInt (d : Normal) (v : BitVec 64) : Out (BitVec 64) := do
  let k ← M.cast (M.round (M.ops.mul v (M.ops.div F64.one (F64.ofInt d.quantization))))
  intRange (k.toInt * d.quantization.toInt)

/-- `_ccs_distribution_normal_samples`, `src/distribution_normal.c:346-372`, with
`_ccs_distribution_normal_samples_float` (`:240-281`) and `_ccs_distribution_normal_samples_int` (`:283-344`). -/
def samples (d : Normal) (num values : Nat) : Act σ :=
  match d.type with
  | .float =>
    .seq (.loop (fun i => .put (values + i) (d.rawFloat M)) num 0)
      (.seq (if d.log then .loop (fun i => .update (values + i) fun v => .ok (M.exp v)) num 0 else .skip)
        (if d.quantize then .loop (fun i => .update (values + i) (d.snapFloat M)) num 0 else .skip))
  | .int =>
    .seq (.loop (fun i => .put (values + i) (d.rawInt M)) num 0)
      (if d.quantize then .loop (fun i => .update (values + i) (d.snapInt M)) num 0
      else .loop (fun i => .update (values + i) fun v => M.cast (M.round v)) num 0)

/-- `_ccs_distribution_normal_strided_samples`, `src/distribution_normal.c:489-516`, with
`_ccs_distribution_normal_strided_samples_float` (`:374-418`) and `_ccs_distribution_normal_strided_samples_int`
(`:420-487`). -/
def strided (d : Normal) (num stride values : Nat) : Act σ :=
  match d.type with
  | .float =>
    .seq (.loop (fun i => .put (values + i * stride) (d.rawFloat M)) num 0)
      (.seq (if d.log then .loop (fun i => .update (values + i * stride) fun v => .ok (M.exp v)) num 0 else .skip)
        (if d.quantize then .loop (fun i => .update (values + i * stride) (d.snapFloat M)) num 0 else .skip))
  | .int =>
    .seq (.loop (fun i => .put (values + i * stride) (d.rawInt M)) num 0)
      (if d.quantize then .loop (fun i => .update (values + i * stride) (d.snapInt M)) num 0
      else .loop (fun i => .update (values + i * stride) fun v => M.cast (M.round v)) num 0)

end Normal

/-- `ccs_create_normal_distribution`, `src/distribution_normal.c:531-587`. -/
def createNormal {σ : Type} (M : Machine σ) (type : NumType) (mu sigma : F64) (log : Bool) (quantization : BitVec 64) :
    Out (Sampler σ) := do
  refute (type = .int ∧ quantization.toInt < 0) .invalidValue
  refute (type = .float ∧ F64.lt quantization F64.zero = true) .invalidValue
  let quantize := match type with
    | .float => !F64.feq quantization F64.zero
    | .int => decide (quantization ≠ 0#64)
  let d : Normal := ⟨type, mu, sigma, log, quantization, quantize⟩
  .ok ⟨1, [type], [d.bounds], d.samples M, d.strided M, soaOne (d.samples M)⟩

/-! ## Roulette distributions -/

namespace Roulette

variable {σ : Type} (M : Machine σ)

/-- `rnd = gsl_rng_uniform(grng); index = _ccs_dichotomic_search(num, bounds, rnd)`,
`src/distribution_roulette.c:189-191`, `src/distribution_mixture.c:371-373`. -/
def pick (num : Nat) (areas : List F64) (g : σ) : Option (Out (Int × σ)) :=
  match search M.guess M.turns num areas (M.uniform g).1 with
  | none => none
  | some .ub => some .ub
  | some (.err e) => some (.err e)
  | some (.ok i) => some (.ok (i, (M.uniform g).2))

/-- The index as a `ccs_int_t`. -/
def raw (r : Roulette) : σ → Option (Out (BitVec 64 × σ)) := fun g =>
  match pick M r.numAreas r.areas g with
  | none => none
  | some .ub => some .ub
  | some (.err e) => some (.err e)
  | some (.ok (i, g')) => some (.ok (BitVec.ofInt 64 i, g'))

/-- `_ccs_distribution_roulette_samples`, `src/distribution_roulette.c:175-195`. -/
def fillSamples (r : Roulette) (num values : Nat) : Act σ := .loop (fun i => .put (values + i) (r.raw M)) num 0

/-- `_ccs_distribution_roulette_strided_samples`, `src/distribution_roulette.c:197-218`. -/
def fillStrided (r : Roulette) (num stride values : Nat) : Act σ :=
  .loop (fun i => .put (values + i * stride) (r.raw M)) num 0

end Roulette

/-- `ccs_create_roulette_distribution`, `src/distribution_roulette.c:233-277`. -/
def createRouletteDistribution {σ : Type} (M : Machine σ) (areas : List F64) : Out (Sampler σ) := do
  let r ← createRoulette M.ops areas
  .ok ⟨1, [.int], [r.bounds], r.fillSamples M, r.fillStrided M, soaOne (r.fillSamples M)⟩

/-! ## Mixtures -/

namespace Mixture

variable {σ : Type} (M : Machine σ)

/-- `sizeof(ccs_interval_t)`, `include/cconfigspace/interval.h:16-27`, on a platform where `ccs_numeric_t` is aligned on
8 bytes: 4 (and 4 of padding) + 8 + 8 + 4 + 4. -/
def sizeofInterval : Nat := 32
/-- `sizeof(ccs_numeric_type_t)`, `include/cconfigspace/base.h:372-386`. -/
def sizeofType : Nat := 4

/-- The loop `src/distribution_mixture.c:201-208` on the other components. -/
def sameDim (dim : Nat) : List (Sampler σ) → Out Unit
  | [] => .ok ()
  | d :: ds => if dim ≠ d.dim then .err .invalidDistribution else sameDim dim ds

/-- The loop `src/distribution_mixture.c:272-285` on the other components. -/
def sameTypes (types : List NumType) : List (Sampler σ) → Out Unit
  | [] => .ok ()
  | d :: ds => if types ≠ d.types then .err .invalidDistribution else sameTypes types ds

/-- The loop `src/distribution_mixture.c:298-306`. -/
def joinBounds : List Interval → List Interval → Out (List Interval)
  | a :: as, b :: bs => do
    let c ← a.union b
    let cs ← joinBounds as bs
    .ok (c :: cs)
  | as, _ => .ok as

/-- The loop `src/distribution_mixture.c:292-307` on the other components.  `ccs_distribution_get_bounds` writes the
bounds of a component, `dim` intervals, in a block of `room` bytes: writing past its end is undefined. -/
def allBounds (room dim : Nat) (acc : List Interval) : List (Sampler σ) → Out (List Interval)
  | [] => .ok acc
  | d :: ds =>
    if room < sizeofInterval * dim then .ub
    else do
      let acc' ← joinBounds acc d.bounds
      allBounds room dim acc' ds

/-- `weights[i] = weights[i - 1] + w[i - 1] * inverse`, `src/distribution_mixture.c:309-312`: all but the first, `acc`. -/
def partialWeights (acc inverse : F64) : List F64 → List F64
  | [] => []
  | w :: ws => M.ops.add acc (M.ops.mul w inverse) :: partialWeights (M.ops.add acc (M.ops.mul w inverse)) inverse ws

/-- `src/distribution_mixture.c:309-313`. -/
def areas (inverse : F64) (weights : List F64) : List F64 :=
  (F64.zero :: partialWeights M F64.zero inverse weights).dropLast ++ [F64.one]

/-- One turn of `src/distribution_mixture.c:370-378,396-404,433-444`: choose a component, then `body`. -/
def choose (ds : List (Sampler σ)) (areas : List F64) (body : Sampler σ → Act σ) : Act σ := fun s =>
  match Roulette.pick M ds.length areas s.rng with
  | none => none
  | some .ub => some .ub
  | some (.err e) => some (.err e)
  | some (.ok (i, g)) =>
    if i < 0 then some .ub
    else match ds[i.toNat]? with
      | none => some .ub
      | some d => body d { s with rng := g }

/-- `_ccs_distribution_mixture_samples`, `src/distribution_mixture.c:356-380`. -/
def samples (dim : Nat) (ds : List (Sampler σ)) (areas : List F64) (num values : Nat) : Act σ :=
  .loop (fun i => choose M ds areas fun d => d.samples 1 (values + i * dim)) num 0

/-- `_ccs_distribution_mixture_strided_samples`, `src/distribution_mixture.c:382-406`. -/
def strided (ds : List (Sampler σ)) (areas : List F64) (num stride values : Nat) : Act σ :=
  .loop (fun i => choose M ds areas fun d => d.samples 1 (values + i * stride)) num 0

/-- `p_values`, `src/distribution_mixture.c:420-421,437-439`, at turn `i`: a pointer for a NULL column is never set. -/
def columns (dim i : Nat) (values : List Ptr) : List Ptr :=
  (values.take dim).map fun p => match p with
    | .null => .unset
    | .cell a => .cell (a + i)
    | .unset => .unset

/-- `_ccs_distribution_mixture_soa_samples`, `src/distribution_mixture.c:408-446`.  Reading past the end of the array of
pointers, or a pointer that was never set, is undefined. -/
def soa (dim : Nat) (ds : List (Sampler σ)) (areas : List F64) (num : Nat) (values : List Ptr) : Act σ :=
  if values.length < dim ∨ Ptr.unset ∈ values.take dim then fun _ => some .ub
  else if (values.take dim).all (fun p => decide (p = .null)) then .skip
  else .loop (fun i => choose M ds areas fun d => d.soa 1 (columns dim i values)) num 0

end Mixture

/-- `ccs_create_mixture_distribution`, `src/distribution_mixture.c:182-336`.  Simplification: the references taken on the
components are not represented. -/
def createMixture {σ : Type} (M : Machine σ) (ds : List (Sampler σ)) (weights : List F64) : Out (Sampler σ) :=
  match ds with
  | [] => .err .invalidValue
  | d :: others =>
    if 2 ^ 63 - 1 < ds.length then .err .invalidValue
    else if weights.length < ds.length then .ub
    else do
      Mixture.sameDim d.dim others
      let ws := weights.take ds.length
      let sum ← sumAreas M.ops F64.zero ws
      refute (F64.feq sum F64.zero) .invalidValue
      let inverse := M.ops.div F64.one sum
      refute (F64.isNaN inverse || !F64.isFinite inverse) .invalidValue
      Mixture.sameTypes d.types others
      let room := Mixture.sizeofInterval * ds.length + Mixture.sizeofType * d.dim
      let bounds ← Mixture.allBounds room d.dim d.bounds others
      let areas := Mixture.areas M inverse ws
      refute (F64.lt F64.one (areas.getD (ds.length - 1) F64.zero)) .invalidValue
      .ok ⟨d.dim, d.types, bounds, Mixture.samples M d.dim ds areas, Mixture.strided M ds areas,
        Mixture.soa M d.dim ds areas⟩

/-! ## Multivariate distributions -/

namespace Multivariate

variable {σ : Type}

/-- `_ccs_distribution_multivariate_samples`, `src/distribution_multivariate.c:294-313`, from some component on. -/
def samples (dim : Nat) : List (Sampler σ) → (num values : Nat) → Act σ
  | [], _, _ => .skip
  | d :: ds, num, values => .seq (d.strided num dim values) (samples dim ds num (values + d.dim))

/-- `_ccs_distribution_multivariate_strided_samples`, `src/distribution_multivariate.c:315-334`, from some component on. -/
def strided : List (Sampler σ) → (num stride values : Nat) → Act σ
  | [], _, _, _ => .skip
  | d :: ds, num, stride, values => .seq (d.strided num stride values) (strided ds num stride (values + d.dim))

/-- `_ccs_distribution_multivariate_soa_samples`, `src/distribution_multivariate.c:336-354`, from some component on. -/
def soa : List (Sampler σ) → (num : Nat) → List Ptr → Act σ
  | [], _, _ => .skip
  | d :: ds, num, values => .seq (d.soa num values) (soa ds num (values.drop d.dim))

end Multivariate

/-- `ccs_create_multivariate_distribution`, `src/distribution_multivariate.c:177-274`.  Simplification: the references
taken on the components are not represented. -/
def createMultivariate {σ : Type} (ds : List (Sampler σ)) : Out (Sampler σ) :=
  if ds.length = 0 ∨ 2 ^ 63 - 1 < ds.length then .err .invalidValue
  else
    let dim := (ds.map (·.dim)).sum
    .ok ⟨dim, ds.flatMap (·.types), ds.flatMap (·.bounds), Multivariate.samples dim ds, Multivariate.strided ds,
      Multivariate.soa ds⟩

/-! ## The calls of the library -/

/-- `ccs_distribution_sample`, `src/distribution.c:91-103`. -/
def Sampler.sample {σ : Type} (d : Sampler σ) (values : Nat) : Act σ := d.samples 1 values

/-- `ccs_distribution_samples`, `src/distribution.c:105-120`.  `CCS_CHECK_ARY`: a NULL array is refused. -/
def Sampler.callSamples {σ : Type} (d : Sampler σ) (num : Nat) (values : Option Nat) : Act σ :=
  if num = 0 then .skip
  else match values with
    | none => fun _ => some (.err .invalidValue)
    | some a => d.samples num a

/-- `ccs_distribution_strided_samples`, `src/distribution.c:122-144`. -/
def Sampler.callStrided {σ : Type} (d : Sampler σ) (num stride : Nat) (values : Option Nat) : Act σ :=
  if stride < d.dim then fun _ => some (.err .invalidValue)
  else if num = 0 then .skip
  else match values with
    | none => fun _ => some (.err .invalidValue)
    | some a => d.strided num stride a

/-- `ccs_distribution_soa_samples`, `src/distribution.c:146-162`, on a non-NULL array of column pointers. -/
def Sampler.callSoa {σ : Type} (d : Sampler σ) (num : Nat) (values : List Ptr) : Act σ :=
  if num = 0 then .skip else d.soa num values

end CCS
