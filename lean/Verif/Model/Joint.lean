import Verif.Model.Param

/-!
# Distributions as seen by parameters, and joint sampling

Models `src/distribution.c`: sampling several parameters from one distribution.
-/

namespace CCS

/-- A distribution as its users see it: its address, `ccs_distribution_get_dimension`
(`src/distribution.c:36-47`), `ccs_distribution_get_bounds` (`:49-59`, which succeeds for every kind of
distribution) and `ccs_distribution_soa_samples` (`:146-162`), which fills one column per dimension.

`soa t k n` is the answer to the `k`-th draw of `n` rows made on behalf of the `t`-th sampling request.
The random generator is thus represented by what it makes the distribution answer, call after call: any
answers are possible, and numbers `k` that a request does not reach are ignored. -/
structure Dist where
  handle : BitVec 64
  dim : Nat
  bounds : List Interval
  soa : Nat → Nat → Nat → Out (List (List (BitVec 64)))

/-- `ccs_distribution_samples` (`src/distribution.c:105-120`) on a distribution of dimension 1: the first
column. -/
def Dist.draws (d : Dist) (t : Nat) : Draws := fun k n => do
  let cols ← d.soa t k n
  match cols with
  | c :: _ => .ok c
  | [] => .ub

/-- `ccs_parameter_convert_samples`, `src/parameter.c:154-171`, with the `convert_samples` operation of the
parameter (`src/parameter_numerical.c:225-264`, `src/parameter_categorical.c:232-257`,
`src/parameter_string.c:208-224`). -/
def convertSamples (p : Param) (over : Bool) (xs : List (BitVec 64)) : Out (List Value) :=
  if xs.length = 0 then .ok []
  else match p.kind with
    | .string => .err .unsupportedOperation
    | _ => if over then .ok (xs.map fun x => (p.keep x).getD .inactive) else convertAll p xs

/-- The loops `for (i < dim) ccs_parameter_convert_samples(…)`, `src/distribution.c:221-227,279-287`: one
column of datums per dimension (`ds + i * num_values`). -/
def convertColumns : List Param → List Bool → List (List (BitVec 64)) → Out (List (List Value))
  | p :: ps, o :: os, c :: cs => do
    let vs ← convertSamples p o c
    let vss ← convertColumns ps os cs
    .ok (vs :: vss)
  | _, _, _ => .ok []

/-- `ds[i * num_values + j]`: row `j` of column `i`. -/
def cell (ds : List (List Value)) (i j : Nat) : Option Value :=
  match ds[i]? with
  | some c => c[j]?
  | none => none

/-- The inner loop of `src/distribution.c:237-246` and `:292-301`: copy row `j` to row `found` of the
output until a rejected cell; `false` when the row is discarded.  Accesses outside the arrays are
undefined. -/
def copyRow (ds : List (List Value)) (dim j found : Nat) :
    Nat → Nat → List Value → Out (Bool × List Value)
  | 0, _, out => .ok (true, out)
  | todo + 1, i, out =>
    match cell ds i j with
    | none => .ub
    | some v =>
      if v = .inactive then .ok (false, out)
      else if found * dim + i < out.length then
        copyRow ds dim j found todo (i + 1) (out.set (found * dim + i) v)
      else .ub

/-- The row loops of `src/distribution.c:235-249` (no `limit`) and `:289-304` (`limit` is `num_values`). -/
def copyRows (ds : List (List Value)) (dim : Nat) (limit : Option Nat) :
    Nat → Nat → Nat → List Value → Out (Nat × List Value)
  | 0, _, found, out => .ok (found, out)
  | todo + 1, j, found, out =>
    if limit.any (fun n => decide (n ≤ found)) then .ok (found, out)
    else do
      let r ← copyRow ds dim j found dim 0 out
      copyRows ds dim limit todo (j + 1) (if r.1 then found + 1 else found) r.2

/-- The transposition of `src/distribution.c:230-232`, cell after cell. -/
def transposeRow (ds : List (List Value)) (dim j : Nat) : Nat → Nat → List Value → Out (List Value)
  | 0, _, out => .ok out
  | todo + 1, i, out =>
    match cell ds i j with
    | none => .ub
    | some v =>
      if j * dim + i < out.length then transposeRow ds dim j todo (i + 1) (out.set (j * dim + i) v)
      else .ub

def transposeRows (ds : List (List Value)) (dim : Nat) : Nat → Nat → List Value → Out (List Value)
  | 0, _, out => .ok out
  | todo + 1, j, out => do
    let out' ← transposeRow ds dim j dim 0 out
    transposeRows ds dim todo (j + 1) out'

/-- The retry loop, `src/distribution.c:250-306`.  `fuel` bounds the recursion and is never exhausted
(`coeff` doubles and is refused above 32). -/
def jointRetry (d : Dist) (t : Nat) (ps : List Param) (overs : List Bool) (n : Nat) :
    Nat → Nat → Nat → Nat → List Value → Out (List Value)
  | fuel, k, coeff, found, out =>
    if n ≤ found then .ok out
    else if 32 < coeff then .err .samplingUnsuccessful
    else match fuel with
      | 0 => .ub
      | fuel + 1 => do
        let cols ← d.soa t k ((n - found) * coeff)
        let ds ← convertColumns ps overs cols
        let r ← copyRows ds d.dim (some n) ((n - found) * coeff) 0 found out
        jointRetry d t ps overs n fuel (k + 1) (coeff * 2) r.1 r.2

/-- After the first draw, `src/distribution.c:229-307`. -/
def jointFinish (d : Dist) (t : Nat) (ps : List Param) (overs : List Bool) (n : Nat)
    (ds : List (List Value)) (out : List Value) : Out (List Value) :=
  if overs.any id then do
    let r ← copyRows ds d.dim none n 0 0 out
    jointRetry d t ps overs n 6 1 2 r.1 r.2
  else transposeRows ds d.dim n 0 out

/-- `ccs_distribution_parameters_samples`, `src/distribution.c:164-311`, `dim > 1`, on the `dim` parameters
`ps` and an output array of initial contents `out` (`num_values * dim` datums). -/
def jointMany (d : Dist) (t : Nat) (ps : List Param) (n : Nat) (out : List Value) :
    Out (List Value) := do
  let overs ← checkOversamplings d.bounds (ps.map Param.interval)
  let cols ← d.soa t 0 n
  let ds ← convertColumns ps overs cols
  jointFinish d t ps overs n ds out

/-- `ccs_distribution_parameters_samples`, `src/distribution.c:164-311`. -/
def jointSamples (d : Dist) (t : Nat) (ps : List Param) (n : Nat) (out : List Value) :
    Out (List Value) :=
  if n = 0 then .ok out
  else if d.dim = 1 then
    match ps, d.bounds with
    | p :: _, b :: _ => paramSamples p b (d.draws t) n
    | _, _ => .ub
  else jointMany d t ps n out

/-- `ccs_distribution_parameters_sample`, `src/distribution.c:313-323`: one row. -/
def jointSample (d : Dist) (t : Nat) (ps : List Param) (out : List Value) : Out (List Value) :=
  jointSamples d t ps 1 out

end CCS
