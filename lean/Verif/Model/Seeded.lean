import Verif.Model.Space

/-!
# Sampling with generators

The functions of `Model/Param`, `Model/Joint` and `Model/Space` that draw numbers, with the generator passed from one draw to the next, and
programs that use several generators (`src/rng.c`, `src/configuration_space.c`).

Simplifications: a distribution is known by its address, and `Source` says what drawing from it does; the GSL is represented by `Gsl`; one draw always
returns.  A failing call of the library leaves the generator as it is at that moment.
-/

namespace CCS.Seeded

open CCS

variable {σ : Type}

/-- `ccs_distribution_soa_samples`, `src/distribution.c:146-162`, on a given distribution: the columns, and the generator afterwards. -/
abbrev Source (σ : Type) := Nat → σ → Out (List (List (BitVec 64))) × σ

/-- Go on if there was no failure. -/
def andThen {α β : Type} (x : Out α × σ) (f : α → σ → Out β × σ) : Out β × σ :=
  match x with
  | (.ok a, g) => f a g
  | (.err e, g) => (.err e, g)
  | (.ub, g) => (.ub, g)

/-- `ccs_distribution_samples` (`src/distribution.c:105-120`) on a distribution of dimension 1: the first column. -/
def firstColumn (src : Source σ) (n : Nat) (g : σ) : Out (List (BitVec 64)) × σ :=
  andThen (src n g) fun cols g =>
    match cols with
    | c :: _ => (.ok c, g)
    | [] => (.ub, g)

/-- The retry loop, `src/parameter_numerical.c:160-198`, `src/parameter_categorical.c:178-208`; see `retryLoop`. -/
def retryLoop (p : Param) (src : Source σ) (n : Nat) : Nat → Nat → List Value → σ → Out (List Value) × σ
  | fuel, coeff, found, g =>
    if n ≤ found.length then (.ok found, g)
    else if 32 < coeff then (.err .samplingUnsuccessful, g)
    else match fuel with
      | 0 => (.ub, g)
      | fuel + 1 =>
        andThen (firstColumn src ((n - found.length) * coeff) g) fun vs g =>
          retryLoop p src n fuel (coeff * 2) (found ++ (vs.filterMap p.keep).take (n - found.length)) g

/-- `ccs_parameter_samples`, `src/parameter.c:134-152`; see `paramSamples`. -/
def paramSamples (p : Param) (bounds : Interval) (src : Source σ) (n : Nat) (g : σ) : Out (List Value) × σ :=
  if n = 0 then (.ok [], g)
  else match p.kind with
    | .string => (.err .unsupportedOperation, g)
    | _ =>
      andThen (checkOversampling bounds p.interval, g) fun over g =>
      andThen (firstColumn src n g) fun vs g =>
        if over then retryLoop p src n 6 2 (vs.filterMap p.keep) g
        else (convertAll p vs, g)

/-- The retry loop, `src/distribution.c:250-306`; see `jointRetry`. -/
def jointRetry (src : Source σ) (dim : Nat) (ps : List Param) (overs : List Bool) (n : Nat) :
    Nat → Nat → Nat → List Value → σ → Out (List Value) × σ
  | fuel, coeff, found, out, g =>
    if n ≤ found then (.ok out, g)
    else if 32 < coeff then (.err .samplingUnsuccessful, g)
    else match fuel with
      | 0 => (.ub, g)
      | fuel + 1 =>
        andThen (src ((n - found) * coeff) g) fun cols g =>
        andThen (convertColumns ps overs cols, g) fun ds g =>
        andThen (copyRows ds dim (some n) ((n - found) * coeff) 0 found out, g) fun r g =>
          jointRetry src dim ps overs n fuel (coeff * 2) r.1 r.2 g

/-- After the first draw, `src/distribution.c:229-307`. -/
def jointFinish (src : Source σ) (dim : Nat) (ps : List Param) (overs : List Bool) (n : Nat) (ds : List (List Value)) (out : List Value) (g : σ) :
    Out (List Value) × σ :=
  if overs.any id then
    andThen (copyRows ds dim none n 0 0 out, g) fun r g => jointRetry src dim ps overs n 6 2 r.1 r.2 g
  else (transposeRows ds dim n 0 out, g)

/-- `ccs_distribution_parameters_samples`, `src/distribution.c:164-311`, `dim > 1`. -/
def jointMany (d : Dist) (src : Source σ) (ps : List Param) (n : Nat) (out : List Value) (g : σ) : Out (List Value) × σ :=
  andThen (checkOversamplings d.bounds (ps.map Param.interval), g) fun overs g =>
  andThen (src n g) fun cols g =>
  andThen (convertColumns ps overs cols, g) fun ds g =>
    jointFinish src d.dim ps overs n ds out g

/-- `ccs_distribution_parameters_samples`, `src/distribution.c:164-311`. -/
def jointSamples (d : Dist) (src : Source σ) (ps : List Param) (n : Nat) (out : List Value) (g : σ) : Out (List Value) × σ :=
  if n = 0 then (.ok out, g)
  else if d.dim = 1 then
    match ps, d.bounds with
    | p :: _, b :: _ => paramSamples p b src n g
    | _, _ => (.ub, g)
  else jointMany d src ps n out g

/-- What is drawn for one distribution of a space, `src/configuration_space.c:1022-1033`. -/
def request (s : Space) (src : BitVec 64 → Source σ) (d : DWrap) (g : σ) : Out (List Value) × σ :=
  if s.params.length < d.indexes.length then (.ub, g)
  else
    andThen (paramsAt s.params d.indexes, g) fun ps g =>
      jointSamples d.dist (src d.dist.handle) ps 1 (List.replicate d.indexes.length .none) g

/-- The loop of `src/configuration_space.c:1020-1038`. -/
def drawAll (s : Space) (src : BitVec 64 → Source σ) : List DWrap → List Value → σ → Out (List Value) × σ
  | [], vals, g => (.ok vals, g)
  | d :: ds, vals, g =>
    andThen (request s src d g) fun vs g =>
    andThen (writeBack d.indexes vs vals, g) fun vals g =>
      drawAll s src ds vals g

section
variable (ops : FloatOps) (jen : Bytes → BitVec 32) (little : Bool)

/-- `_sample`, `src/configuration_space.c:997-1049`. -/
def attempt (s : Space) (src : BitVec 64 → Source σ) (vals : List Value) (g : σ) : Out (Bool × List Value) × σ :=
  andThen (drawAll s src s.dists vals g) fun drawn g =>
  andThen (setActives ops jen little s s.sorted drawn, g) fun active g =>
  andThen (testForbidden ops jen little s active s.clauses, g) fun found g =>
    (.ok (found, active), g)

/-- The loop of `src/configuration_space.c:1065-1073`; `left` more attempts may follow this one. -/
def sampleLoop (s : Space) (src : BitVec 64 → Source σ) : Nat → List Value → σ → Out (List Value) × σ
  | left, vals, g =>
    andThen (attempt ops jen little s src vals g) fun r g =>
      if r.1 then (.ok r.2, g)
      else match left with
        | 0 => (.err .samplingUnsuccessful, g)
        | left + 1 => sampleLoop s src left r.2 g

/-- `ccs_configuration_space_sample`, `src/configuration_space.c:1051-1079`. -/
def sampleOne (s : Space) (src : BitVec 64 → Source σ) (g : σ) : Space × Out (List Value) × σ :=
  match ensureGraph s with
  | (s', .ok _) => (s', sampleLoop ops jen little s' src 99 s'.blank g)
  | (s', .err e) => (s', .err e, g)
  | (s', .ub) => (s', .ub, g)

/-- The loop of `src/configuration_space.c:1101-1117`: the configurations found, the outcome, and the generator. -/
def samplesLoop (s : Space) (src : BitVec 64 → Source σ) (n : Nat) :
    Nat → List Value → List (List Value) → σ → List (List Value) × Out Unit × σ
  | left, cur, found, g =>
    if n ≤ found.length then (found, .ok (), g)
    else match left with
      | 0 => (found, .err .samplingUnsuccessful, g)
      | left + 1 =>
        match attempt ops jen little s src cur g with
        | (.err e, g) => (found, .err e, g)
        | (.ub, g) => (found, .ub, g)
        | (.ok r, g) =>
          if r.1 then samplesLoop s src n left s.blank (found ++ [r.2]) g
          else samplesLoop s src n left r.2 found g

/-- `ccs_configuration_space_samples`, `src/configuration_space.c:1081-1122`. -/
def sampleMany (s : Space) (src : BitVec 64 → Source σ) (n : Nat) (g : σ) : Space × List (List Value) × Out Unit × σ :=
  if n = 0 then (s, [], .ok (), g)
  else match ensureGraph s with
    | (s', .ok _) => (s', samplesLoop ops jen little s' src n (100 * n % 18446744073709551616) s'.blank [] g)
    | (s', .err e) => (s', [], .err e, g)
    | (s', .ub) => (s', [], .ub, g)

end

/-! ## Programs -/

/-- The GSL: the types of generators are numbers. `set` is `gsl_rng_set` of a type: the documentation says that the numbers that follow depend on the
seed only. -/
structure Gsl (σ : Type) where
  fresh : Nat → σ
  set : Nat → BitVec 64 → σ
  get : σ → BitVec 64 × σ
  uniform : σ → F64 × σ

/-- A random generator object, `src/rng_internal.h`: its type and its state. -/
structure Gen (σ : Type) where
  type : Nat
  state : σ

/-- A configuration space with its generator (`configuration_space->data->rng`), by number. -/
structure SpaceObj where
  space : Space
  rng : Nat

/-- The generators and the configuration spaces of a program, by number. -/
structure World (σ : Type) where
  gens : List (Gen σ)
  spaces : List SpaceObj

/-- The calls of a program that concern generators; `draw` samples the distribution at an address. -/
inductive Call
  | create (type : Nat)
  | createSpace
  | edit (sp : Nat) (op : SpaceOp)
  | seed (i : Nat) (s : BitVec 64)
  | get (i : Nat)
  | uniform (i : Nat)
  | draw (d : BitVec 64) (i n : Nat)
  | setRng (sp i : Nat)
  | sample (sp : Nat)
  | samples (sp n : Nat)

/-- The answers. -/
inductive Answer
  | done
  | refused
  | edited (r : Out Unit)
  | number (n : BitVec 64)
  | float (f : F64)
  | columns (c : Out (List (List (BitVec 64))))
  | one (v : Out (List Value))
  | many (vs : List (List Value)) (r : Out Unit)
  deriving DecidableEq

/-- The state of a generator is replaced. -/
def World.put (w : World σ) (i : Nat) (g : σ) : World σ := { w with gens := w.gens.modify i fun x => { x with state := g } }

section
variable (ops : FloatOps) (jen : Bytes → BitVec 32) (little : Bool) (gsl : Gsl σ) (src : BitVec 64 → Source σ)
variable (mem : BitVec 64 → Param) (mk : Nat → Param → Out Dist)

/-- One call.  `ccs_create_rng_with_type`, `src/rng.c:104-129`; `ccs_create_configuration_space`, which creates its generator,
`src/configuration_space.c:330-376`; `ccs_rng_set_seed`, `src/rng.c:145-151`; `ccs_rng_get`, `:153-160`; `ccs_rng_uniform`, `:162-169`;
`ccs_distribution_soa_samples`, `src/distribution.c:146-162`; `ccs_configuration_space_set_rng`, `src/configuration_space.c:389-402`;
`ccs_configuration_space_sample` and `_samples`, `:1051-1122`, which draw from the generator of the space (`:1003`).
`edit` is a call of `Model/Space` that draws nothing: parameters, conditions, distributions and clauses are added and configurations are checked.
The default type of generators is type 0 (`gsl_rng_default`, `src/rng.c:131-135`). -/
def step (w : World σ) : Call → World σ × Answer
  | .create t => ({ w with gens := w.gens ++ [⟨t, gsl.fresh t⟩] }, .done)
  | .createSpace => (⟨w.gens ++ [⟨0, gsl.fresh 0⟩], w.spaces ++ [⟨Space.empty, w.gens.length⟩]⟩, .done)
  | .edit sp op =>
    match w.spaces[sp]?, op with
    | none, _ | _, .sample _ | _, .samples _ _ => (w, .refused)
    | some o, op =>
      let r := o.space.step ops jen little mem mk op
      ({ w with spaces := w.spaces.set sp { o with space := r.1 } }, .edited r.2)
  | .seed i s =>
    match w.gens[i]? with
    | none => (w, .refused)
    | some g => (w.put i (gsl.set g.type s), .done)
  | .get i =>
    match w.gens[i]? with
    | none => (w, .refused)
    | some g => (w.put i (gsl.get g.state).2, .number (gsl.get g.state).1)
  | .uniform i =>
    match w.gens[i]? with
    | none => (w, .refused)
    | some g => (w.put i (gsl.uniform g.state).2, .float (gsl.uniform g.state).1)
  | .draw d i n =>
    match w.gens[i]? with
    | none => (w, .refused)
    | some g => (w.put i (src d n g.state).2, .columns (src d n g.state).1)
  | .setRng sp i =>
    match w.spaces[sp]?, w.gens[i]? with
    | some o, some _ => ({ w with spaces := w.spaces.set sp { o with rng := i } }, .done)
    | _, _ => (w, .refused)
  | .sample sp =>
    match w.spaces[sp]? with
    | none => (w, .refused)
    | some o =>
      match w.gens[o.rng]? with
      | none => (w, .refused)
      | some g =>
        let r := sampleOne ops jen little o.space src g.state
        ({ w.put o.rng r.2.2 with spaces := w.spaces.set sp { o with space := r.1 } }, .one r.2.1)
  | .samples sp n =>
    match w.spaces[sp]? with
    | none => (w, .refused)
    | some o =>
      match w.gens[o.rng]? with
      | none => (w, .refused)
      | some g =>
        let r := sampleMany ops jen little o.space src n g.state
        ({ w.put o.rng r.2.2.2 with spaces := w.spaces.set sp { o with space := r.1 } }, .many r.2.1 r.2.2.1)

/-- The world after a program, and the answers to its calls. -/
def run (w : World σ) : List Call → World σ × List Answer
  | [] => (w, [])
  | c :: p =>
    let a := step ops jen little gsl src mem mk w c
    let r := run a.1 p
    (r.1, a.2 :: r.2)

end

end CCS.Seeded
