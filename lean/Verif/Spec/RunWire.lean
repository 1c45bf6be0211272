import Verif.Model.RunWire
import Verif.Spec.Evaluation
import Verif.Spec.SpaceWire
import Verif.Spec.Tuner

/-!
# Specification of the serialization of bindings, objective and features spaces, evaluations and tuners

What can be stored, what binding values again to a space gives, and when what is read is the same up to addresses.
-/

namespace CCS.Spec

open CCS

/-! ## Bindings -/

/-- Values that fit in memory and can be stored. -/
structure StorableBinding (b : Binding) : Prop where
  count : b.values.length < 2 ^ 64
  values : ∀ d ∈ b.values, StorableValue d.v

/-- A configuration or features object that can be stored. -/
structure StorableBound (o : BindObj) : Prop where
  binding : StorableBinding o.binding
  data : o.data.length < 2 ^ 64

/-- Every string among the values is legal for the parameter at its position. -/
def StringsLegal (c : Ctx) (vs : List Datum) : Prop :=
  ∀ (i : Nat) d s, vs[i]? = some d → d.v = .str s → ∃ h p, Holds c i h p ∧ Legal p d.v

/-- Outcome of binding written values again, to the space at address `a` with parameters `c`: the same values when there are as many as
parameters and the strings are legal, and blank values when there were none; refused otherwise. -/
inductive Rebinds (a : BitVec 64) (c : Ctx) (b : Binding) : Out Binding → Prop
  | same {b'} : b.values ≠ [] → b.values.length = c.params.length → StringsLegal c b.values →
      b'.context = a → b'.values.map (·.v) = b.values.map (·.v) → Rebinds a c b (.ok b')
  | blank {b'} : b.values = [] → b'.context = a → b'.values.map (·.v) = List.replicate c.params.length .none →
      Rebinds a c b (.ok b')
  | count : b.values ≠ [] → b.values.length ≠ c.params.length → Rebinds a c b (.err .invalidValue)
  | illegal : b.values ≠ [] → b.values.length = c.params.length → ¬ StringsLegal c b.values → Rebinds a c b (.err .invalidValue)

/-- Outcome of attaching written values to the space of type `type` that the handle map has at their written address. -/
inductive Attached (m : Handles) (type : BitVec 32) (b : Binding) : Out Binding → Prop
  | unknown : m.get b.context = none → Attached m type b (.err .invalidHandle)
  | other {x} : m.get b.context = some x → x.type ≠ type → Attached m type b (.err .invalidObject)
  | found {x r} : m.get b.context = some x → x.type = type → Rebinds x.addr x.ctx b r → Attached m type b r

/-- Spaces have fewer than 2^32 parameters. -/
def SmallMap (m : Handles) : Prop := ∀ h x, m.get h = some x → x.ctx.params.length < 2 ^ 32

/-! ## Spaces -/

/-- The same parameters in the same order at the addresses `paramAt`. -/
structure SameParams (paramAt : Nat → BitVec 64) (c c' : Ctx) : Prop where
  length : c'.params.length = c.params.length
  params : ∀ (i : Nat) h p, Holds c i h p → Holds c' i (paramAt i) p

/-- The parameter that takes the place of the one at address `h`: its position is the same. -/
def followIn (paramAt : Nat → BitVec 64) (c : Ctx) (h : BitVec 64) : BitVec 64 × Param :=
  (paramAt ((c.params.map (·.1)).idxOf h), ((c.params[(c.params.map (·.1)).idxOf h]?).map (·.2)).getD ⟨[], .none, .string⟩)

/-- The same objective space with parameters at the addresses `paramAt`: same parameters, and the objectives are the same
expressions, of the same types, on the parameters that took the place of the old ones. -/
structure ObjTwin (paramAt : Nat → BitVec 64) (s s' : ObjSpace) : Prop where
  params : SameParams paramAt s.ctx s'.ctx
  objectives : s'.objectives = s.objectives.map fun o => ⟨relabel (followIn paramAt s.ctx) o.expression, o.type⟩

/-- The parameters of a space, in a process of byte order `little`, can be stored. -/
def StorableParams (ops : FloatOps) (jen : Bytes → BitVec 32) (little : Bool) (pdata : BitVec 64 → Bytes) (c : Ctx) : Prop :=
  ∀ x ∈ c.params, StorableParam ops jen little x.2 ∧ (pdata x.1).length < 2 ^ 64

/-- A reading process gives different addresses, none NULL, to the `n` parameters of a space, and `mem` tells which
parameter lies at each. -/
structure Lays (paramAt : Nat → BitVec 64) (mem : BitVec 64 → Param) (c : Ctx) : Prop where
  nonnull : ∀ i, paramAt i ≠ 0#64
  distinct : ∀ i j, i < c.params.length → j < c.params.length → paramAt i = paramAt j → i = j
  placed : ∀ (i : Nat) h p, Holds c i h p → mem (paramAt i) = p

/-- A features space made by calls, that can be stored. -/
structure StoredFeatSpace (ops : FloatOps) (jen : Bytes → BitVec 32) (little : Bool) (mem : BitVec 64 → Param)
    (pdata : BitVec 64 → Bytes) (o : FeatSpaceObj) : Prop where
  made : Grown mem o.ctx
  name : CStr o.name
  data : o.data.length < 2 ^ 64
  params : StorableParams ops jen little pdata o.ctx
  size : o.ctx.params.length < 2 ^ 32

/-- An objective space made by calls, that can be stored. -/
structure StoredObjSpace (ops : FloatOps) (jen : Bytes → BitVec 32) (little : Bool) (mem : BitVec 64 → Param)
    (pdata : BitVec 64 → Bytes) (o : ObjSpaceObj) : Prop where
  made : ObjReachable mem o.space
  honest : ∀ x ∈ o.space.objectives, Honest mem x.expression
  name : CStr o.name
  data : o.data.length < 2 ^ 64
  params : StorableParams ops jen little pdata o.space.ctx
  objectives : ∀ x ∈ o.space.objectives, StorableExpr x.expression
  small : o.space.ctx.params.length < 2 ^ 32
  size : 8 * o.space.ctx.params.length + 12 * o.space.objectives.length < 2 ^ 64

/-- The addresses of the objects written with an objective space: parameters and expressions. -/
def writtenIn (s : ObjSpace) : List (BitVec 64) := s.ctx.params.map (·.1) ++ s.objectives.map (·.expression.info.handle)

/-! ## Evaluations -/

/-- An evaluation that can be stored. -/
structure StorableEval (e : EvalObj) : Prop where
  binding : StorableBinding e.binding
  configuration : StorableBound e.configuration
  features : ∀ f, e.features = some f → StorableBound f
  data : e.data.length < 2 ^ 64

/-- Outcome of attaching features, if there are any. -/
inductive AttachedFeatures (m : Handles) : Option BindObj → Out (Option Binding) → Prop
  | without : AttachedFeatures m none (.ok none)
  | ok {f b} : Attached m featuresSpaceType f.binding (.ok b) → AttachedFeatures m (some f) (.ok (some b))
  | err {f x} : Attached m featuresSpaceType f.binding (.err x) → AttachedFeatures m (some f) (.err x)

/-! ## Tuners -/

/-- As many values as the space has parameters, with legal strings. -/
def FitsSpace (c : Ctx) (b : Binding) : Prop := b.values.length = c.params.length ∧ StringsLegal c b.values

/-- The evaluation belongs to the spaces of the tuner, and its values fit in them. -/
structure Belongs (o : TunerObj) (e : EvalObj) : Prop where
  configuration : e.configuration.binding.context = o.space.handle ∧ FitsSpace o.space.space.ctx e.configuration.binding
  objectives : e.binding.context = o.objectives.handle ∧ FitsSpace o.objectives.space.ctx e.binding
  without : o.features = none → e.features = none
  features : ∀ s, o.features = some s → ∃ f, e.features = some f ∧ f.binding.context = s.handle ∧ FitsSpace s.ctx f.binding

/-- The same values, in the space at address `a`. -/
def MovedTo (a : BitVec 64) (b b' : Binding) : Prop := b'.context = a ∧ b'.values.map (·.v) = b.values.map (·.v)

/-- The same configuration or features, at address `h`, in the space at address `a`. -/
structure SameBound (h a : BitVec 64) (o o' : BindObj) : Prop where
  handle : o'.handle = h
  values : MovedTo a o.binding o'.binding
  data : o'.data = o.data

/-- The same evaluation, at the place `p`, in spaces at the addresses of `P`. -/
structure SameEval (P : Places) (p : EvalPlace) (e e' : EvalObj) : Prop where
  handle : e'.handle = p.eval
  values : MovedTo P.objectives e.binding e'.binding
  configuration : SameBound p.conf P.space e.configuration e'.configuration
  without : e.features = none → e'.features = none
  features : ∀ f, e.features = some f → ∃ f', e'.features = some f' ∧ SameBound p.feat P.features f f'
  result : e'.result = e.result
  data : e'.data = e.data

/-- The address that takes the place of the evaluation at address `h`: its position in the history is the same. -/
def followEval (P : Places) (t : Tuner) (h : BitVec 64) : BitVec 64 := (P.evalAt (t.history.idxOf h)).eval

/-- The addresses of the spaces of a tuner. -/
def spacesOf (o : TunerObj) : List (BitVec 64) := o.space.handle :: o.objectives.handle :: (o.features.map (·.handle)).toList

/-- A tuner that can be stored, and a process that reads it: its spaces can be stored and their objects have different addresses, and
all its evaluations can be stored and have features if it is a features tuner. -/
structure StoredRun {σ : Type} (H : Host σ) (P : Places) (mem mem' : BitVec 64 → Param) (mk : Nat → Param → Out Dist) (hp : Heap)
    (pdata : BitVec 64 → Bytes) (o : TunerObj) : Prop where
  name : CStr o.name
  data : o.data.length < 2 ^ 64
  space : Stored H H.little mem mem' mk hp o.space
  spaceAddrs : (written o.space).Nodup
  objectives : StoredObjSpace H.M.ops H.jen H.little mem pdata o.objectives
  objAddrs : (writtenIn o.objectives.space).Nodup
  objPlaces : Lays P.objParamAt mem' o.objectives.space.ctx
  features : ∀ s, o.features = some s → StoredFeatSpace H.M.ops H.jen H.little mem pdata s ∧ Lays P.featParamAt mem' s.ctx
  spaces : (spacesOf o).Nodup
  evals : ∀ h ∈ o.tuner.history, (o.evals h).handle = h ∧ StorableEval (o.evals h) ∧ (o.evals h).features.isSome = o.features.isSome
  size : o.tuner.history.length + o.tuner.optima.length < 2 ^ 64

/-- A random tuner made by calls, that can be stored, and a process that reads it. -/
structure StoredTuner {σ : Type} (H : Host σ) (P : Places) (mem mem' : BitVec 64 → Param) (mk : Nat → Param → Out Dist) (hp : Heap)
    (pdata : BitVec 64 → Bytes) (o : TunerObj) : Prop extends StoredRun H P mem mem' mk hp pdata o where
  made : ∃ calls, o.tuner = Tuner.empty.tells calls

/-- The same tuner read back: same name and user data, its configuration space is `rs`, its objective and features spaces
are the same up to the addresses of their parameters, its evaluations are the same in the same order, and its optima are
the evaluations that took the place of the old ones. -/
structure SameTuner (P : Places) (mem' : BitVec 64 → Param) (pdata : BitVec 64 → Bytes) (o : TunerObj) (rs : ReadSpace)
    (r : ReadTuner) : Prop where
  name : r.name = o.name
  data : r.data = o.data
  space : r.space = rs
  objectives : ObjTwin P.objParamAt o.objectives.space r.objectives.1.space ∧ ObjReachable mem' r.objectives.1.space ∧
    r.objectives.1.name = o.objectives.name ∧ r.objectives.1.data = o.objectives.data ∧ r.objectives.1.handle = P.objectives ∧
    r.objectives.2 = o.objectives.space.ctx.params.map fun x => pdata x.1
  without : o.features = none → r.features = none
  features : ∀ s, o.features = some s → ∃ s', r.features = some s' ∧ SameParams P.featParamAt s.ctx s'.1.ctx ∧ Grown mem' s'.1.ctx ∧
    s'.1.name = s.name ∧ s'.1.data = s.data ∧ s'.1.handle = P.features ∧ s'.2 = s.ctx.params.map fun x => pdata x.1
  count : r.history.length = o.tuner.history.length
  evals : ∀ (i : Nat) h, o.tuner.history[i]? = some h → ∃ e, r.history[i]? = some e ∧ SameEval P (P.evalAt i) (o.evals h) e
  history : r.tuner.history = o.tuner.history.map (followEval P o.tuner)
  optima : r.tuner.optima = o.tuner.optima.map (followEval P o.tuner)

/-- What two processes see of the evaluations `S`, `f` giving the address in the second: same results, same comparisons. -/
structure SameView (S : BitVec 64 → Prop) (f : BitVec 64 → BitVec 64) (env env' : TunerEnv) : Prop where
  null : ∀ x, S x → (f x = 0#64 ↔ x = 0#64)
  result : ∀ x, S x → env'.result (f x) = env.result x
  compare : ∀ x y, S x → S y → env'.compare (f x) (f y) = env.compare x y

/-- The tuner with other addresses for its evaluations. -/
def movedTuner (f : BitVec 64 → BitVec 64) (t : Tuner) : Tuner := ⟨t.history.map f, t.optima.map f⟩

end CCS.Spec
