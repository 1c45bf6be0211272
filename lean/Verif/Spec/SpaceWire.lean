import Verif.Model.SpaceWire
import Verif.Spec.Space
import Verif.Spec.DistWire
import Verif.Spec.Param

/-!
# Specification of the serialization of configuration spaces

What can be stored, what "making the same calls again" means, and when two spaces are the same up to the addresses of their
parameters.
-/

namespace CCS.Spec

open CCS

/-- A C string that fits in memory. -/
def CStr (s : Bytes) : Prop := 0#8 ∉ s ∧ s.length + 1 < 2 ^ 64

/-- A random generator that fits in memory. -/
structure StorableRng (r : RngObj) : Prop where
  name : CStr r.name
  state : r.state.length < 2 ^ 64
  data : r.data.length < 2 ^ 64

/-- A parameter that can be stored and read back: created, with C strings, booleans that fit in 32 bits, values that fit in
memory (16 bytes each), and no listed value other than the default that is numerically indistinguishable from it. -/
structure StorableParam (ops : FloatOps) (jen : Bytes → BitVec 32) (little : Bool) (p : Param) : Prop where
  created : Created ops jen little p
  name : CStr p.name
  strings : ∀ k vals s, p.kind = .categorical k vals → .str (some s) ∈ vals → CStr s
  bools : ∀ k vals b, p.kind = .categorical k vals → .bool b ∈ vals → (b.setWidth 32).signExtend 64 = b
  few : ∀ k vals, p.kind = .categorical k vals → vals.length < 2 ^ 60
  default : ∀ k vals f g, p.kind = .categorical k vals → p.default = .float f → .float g ∈ vals → f ≠ g →
    ∃ a b, realValue f = some a ∧ realValue g = some b ∧ a ≠ b

/-- An expression that fits in memory, with literals that can be stored. -/
inductive StorableExpr : Expr → Prop
  | literal {o v} : o.ud.length < 2 ^ 64 → StorableValue v → StorableExpr (.literal o v)
  | var {o h p} : o.ud.length < 2 ^ 64 → StorableExpr (.var o h p)
  | node {o op args} : o.ud.length < 2 ^ 64 → args.length < 2 ^ 64 → (∀ a ∈ args, StorableExpr a) →
      StorableExpr (.node o op args)

/-- The variables of an expression hold the parameters that lie at their addresses. -/
def Honest (mem : BitVec 64 → Param) (e : Expr) : Prop := ∀ h p, OccursAs h p e → p = mem h

/-- The conditions and clauses of a space mention parameters as they are in memory. -/
def HonestSpace (mem : BitVec 64 → Param) (s : Space) : Prop :=
  (∀ w ∈ s.params, ∀ e, w.condition = some e → Honest mem e) ∧ ∀ e ∈ s.clauses, Honest mem e

/-- The conditions of a space, in the order of the parameters. -/
def conditionsOf (s : Space) : List Expr := s.params.filterMap (·.condition)

/-- The addresses of the objects written with a space: generator, parameters, conditions, distributions, clauses. -/
def written (o : SpaceObj) : List (BitVec 64) :=
  o.rngHandle :: (o.space.handles ++ ((conditionsOf o.space).map (·.info.handle) ++
    (o.space.dists.map (·.dist.handle) ++ o.space.clauses.map (·.info.handle))))

/-- A configuration space that fits in memory, with parameters, expressions and distributions that can be stored. -/
structure StorableSpace (ops : FloatOps) (jen : Bytes → BitVec 32) (little : Bool) (hp : Heap) (o : SpaceObj) : Prop where
  name : CStr o.name
  rng : StorableRng o.rng
  data : o.data.length < 2 ^ 64
  params : ∀ w ∈ o.space.params, StorableParam ops jen little w.param ∧ (hp.data w.handle).length < 2 ^ 64
  conditions : ∀ w ∈ o.space.params, ∀ e, w.condition = some e → StorableExpr e
  dists : ∀ w ∈ o.space.dists, StorableDist (hp.dist w.dist.handle)
  clauses : ∀ e ∈ o.space.clauses, Built e ∧ StorableExpr e
  size : 16 * o.space.params.length + 16 * (conditionsOf o.space).length + 16 * o.space.dists.length +
    8 * o.space.clauses.length < 2 ^ 64

/-- The parameter that takes the place of the one at address `h`: its position is the same. -/
def follow (paramAt : Nat → BitVec 64) (s : Space) (h : BitVec 64) : BitVec 64 × Param :=
  (paramAt (s.handles.idxOf h), ((s.params[s.handles.idxOf h]?).map (·.param)).getD ⟨[], .none, .string⟩)

/-- The calls that define again a space whose parameters have new addresses, with the distributions `ds`: its parameters,
its conditions, its distributions, its clauses. -/
def recreation (paramAt : Nat → BitVec 64) (s : Space) (ds : List Dist) : List SpaceOp :=
  (List.range s.params.length).map (fun i => .addParameter (paramAt i) none) ++
  (s.params.zipIdx.filterMap fun x => x.1.condition.map fun e => .setCondition x.2 (relabel (follow paramAt s) e)) ++
  ((s.dists.zip ds).map fun x => .setDistribution x.2 x.1.indexes) ++
  (s.clauses.map fun e => .addClause (relabel (follow paramAt s) e))

/-- Calls made one after the other, up to the first that fails. -/
def perform (ops : FloatOps) (jen : Bytes → BitVec 32) (little : Bool) (mem : BitVec 64 → Param)
    (mk : Nat → Param → Out Dist) : Space → List SpaceOp → Out Space
  | s, [] => .ok s
  | s, op :: rest =>
    match Space.step ops jen little mem mk s op with
    | (s', .ok _) => perform ops jen little mem mk s' rest
    | (_, .err e) => .err e
    | (_, .ub) => .ub

/-- Two distributions that answer every request in the same way. -/
def SameDist (d d' : Dist) : Prop := d'.dim = d.dim ∧ d'.bounds = d.bounds ∧ d'.soa = d.soa

/-- The same space with other addresses for the parameters, and distributions `ds`: same parameters in the same order, same
conditions and clauses on the parameters that took the place of the old ones, distributions on the same parameters in the
same order. -/
structure Twin (paramAt : Nat → BitVec 64) (ds : List Dist) (s s' : Space) : Prop where
  length : s'.params.length = s.params.length
  params : ∀ (i : Nat) w, s.params[i]? = some w → ∃ w', s'.params[i]? = some w' ∧ w'.handle = paramAt i ∧
    w'.param = w.param ∧ w'.condition = w.condition.map (relabel (follow paramAt s))
  dists : s'.dists.map (fun d => (d.dist, d.indexes)) = ds.zip (s.dists.map (·.indexes))
  clauses : s'.clauses = s.clauses.map (relabel (follow paramAt s))

/-- There is a configuration made of default values, each parameter being active or not as its condition says, on which
every condition and every clause has a value. -/
def DefaultEvaluates (ops : FloatOps) (jen : Bytes → BitVec 32) (little : Bool) (s : Space) : Prop :=
  ∃ d, Masks (s.params.map (·.param.default)) d ∧ ActivityRight ops jen little s d ∧ AllEvaluate ops jen little s d

/-- The distributions created at the addresses given by the reading process. -/
def placed {σ : Type} (H : Host σ) (ds : List DistObj) : List Dist := ds.zipIdx.map fun x => H.view (H.distAt x.2) x.1

/-- The distributions held by a space are those the library can build, and the space knows their dimensions. -/
def HoldsDists {σ : Type} (M : Machine σ) (hp : Heap) (s : Space) : Prop :=
  ∀ w ∈ s.dists, BuiltDist M (hp.dist w.dist.handle) ∧ w.dist.dim = (DistObj.sampler M (hp.dist w.dist.handle)).dim

/-- A reading process: the addresses it gives to the parameters are not NULL, the distributions it creates have the
dimension of what they hold, and it can create the default distribution of every parameter, of dimension 1. -/
structure SoundHost {σ : Type} (H : Host σ) : Prop where
  addresses : ∀ i, H.paramAt i ≠ 0#64
  dim : ∀ a d, (H.view a d).dim = (DistObj.sampler H.M d).dim
  one : OneDimensional H.defaultDist
  default : ∀ id p, p.isString = false → Created H.M.ops H.jen H.little p → ∃ d, H.defaultDist id p = .ok d

/-- A space made by calls in a process of byte order `little`, to be read by the process `H`.  `mem` and `mem'` tell which
parameter lies at an address in one and the other; the reading process gives different addresses to different parameters. -/
structure Stored {σ : Type} (H : Host σ) (little : Bool) (mem mem' : BitVec 64 → Param) (mk : Nat → Param → Out Dist) (hp : Heap)
    (o : SpaceObj) : Prop where
  one : OneDimensional mk
  reach : Reachable H.M.ops H.jen little mem mk o.space
  storable : StorableSpace H.M.ops H.jen little hp o
  honest : HonestSpace mem o.space
  holds : HoldsDists H.M hp o.space
  sound : SoundHost H
  placed : ∀ (i : Nat) w, o.space.params[i]? = some w → mem' (H.paramAt i) = w.param
  distinct : ∀ i j, i < o.space.params.length → j < o.space.params.length → H.paramAt i = H.paramAt j → i = j
  small : o.space.params.length < 2 ^ 32

/-- The distributions of the space answer as the process shows the objects they are. -/
def ShowsDists {σ : Type} (H : Host σ) (hp : Heap) (s : Space) : Prop :=
  ∀ w ∈ s.dists, ∀ a, SameDist w.dist (H.view a (hp.dist w.dist.handle))

/-- Define the space again in the reading process: find the type of generator, create the distributions again, and make the
calls again.  The state of the generator is kept when it was written with the same byte order and has the same size. -/
def rebuilt {σ : Type} (H : Host σ) (mem : BitVec 64 → Param) (little : Bool) (hp : Heap) (o : SpaceObj) : Out ReadSpace := do
  let fresh ← newGenerator H.gens o.rng.name
  let ds ← recreateAll H.M (o.space.dists.map fun w => hp.dist w.dist.handle)
  let s ← perform H.M.ops H.jen H.little mem H.defaultDist Space.empty (recreation H.paramAt o.space (placed H ds))
  .ok ⟨o.handle, o.name,
    ⟨o.rng.name, if little = H.little ∧ o.rng.state.length = fresh.length then o.rng.state else fresh, o.rng.data⟩,
    s, o.space.params.map fun w => hp.data w.handle, ds, o.data⟩

end CCS.Spec
