import Verif.Model.Space

/-!
# Contexts and bindings

Models the part of `src/context_internal.h` shared by the three kinds of spaces, the features spaces and objective
spaces as lists of parameters (`src/features_space.c`, `src/objective_space.c`), and bindings
(`src/binding_internal.h`): the values of configurations, features and evaluations.
-/

namespace CCS

/-- `_ccs_context_data_s`, `src/context_internal.h:32-37`: the table of parameters and the two hash tables over it,
without the name. -/
structure Ctx where
  entries : List HashEntry
  params : List (BitVec 64 × Param)

/-- A space just created: `ccs_create_features_space`, `src/features_space.c:90-123`, and
`ccs_create_objective_space`, `src/objective_space.c:214-250`. -/
def Ctx.empty : Ctx := ⟨[], []⟩

/-- `ccs_features_space_add_parameter`, `src/features_space.c:150-202`, and `ccs_objective_space_add_parameter`,
`src/objective_space.c:277-330`. -/
def Ctx.add (mem : BitVec 64 → Param) (c : Ctx) (h : BitVec 64) : Ctx × Out Unit :=
  if c.entries.any (fun e => decide (e.name = (mem h).name)) then (c, .err .invalidParameter)
  else (⟨c.entries ++ [⟨h, (mem h).name, c.params.length⟩], c.params ++ [(h, mem h)]⟩, .ok ())

/-- A configuration space seen as a context. -/
def Space.ctx (s : Space) : Ctx := ⟨s.entries, s.params.map fun w => (w.handle, w.param)⟩

/-- `_ccs_context_get_parameter_index_by_name`, `src/context_internal.h:103-118`. -/
def Ctx.indexByName (c : Ctx) (name : Bytes) : Out Nat :=
  match c.entries.find? (fun e => decide (e.name = name)) with
  | some e => .ok e.index
  | none => .err .invalidName

/-- `_ccs_context_get_parameter_index`, `src/context_internal.h:44-59`. -/
def Ctx.index (c : Ctx) (h : BitVec 64) : Out Nat := entryIndex c.entries h

section
variable (jen : Bytes → BitVec 32) (little : Bool)

/-- `_ccs_context_validate_value`, `src/context_internal.h:177-194`. -/
def Ctx.validate (c : Ctx) (index : Nat) (d : Datum) : Out Datum :=
  match c.params[toUint index]? with
  | none => .err .outOfBounds
  | some p =>
    match validateValue jen little p.2 d with
    | (true, d') => .ok d'
    | (false, _) => .err .invalidValue

/-- `_ccs_binding_data_s`, `src/binding_internal.h:19-23`; `num_values` is the length of `values`. -/
structure Binding where
  context : BitVec 64
  values : List Datum
  deriving DecidableEq, Repr

/-- What is stored for a datum: transient ones go through the parameter, `src/binding_internal.h:58-60`
and `:101-104`. -/
def Ctx.admit (c : Ctx) (index : Nat) (d : Datum) : Out Datum :=
  if d.transient then c.validate jen little index d else .ok d

/-- A NONE datum as left by `calloc`. -/
def noneDatum : Datum := ⟨.none, false, false, false⟩

/-- The loop of the creation functions, `src/configuration.c:125-133`, `src/features.c:124-131` and
`src/evaluation.c:207-214`. -/
def admitAll (c : Ctx) : Nat → List Datum → Out (List Datum)
  | _, [] => .ok []
  | i, d :: ds => do
    let d' ← c.admit jen little i d
    let ds' ← admitAll c (i + 1) ds
    .ok (d' :: ds')

/-- `ccs_create_configuration`, `src/configuration.c:86-140`, `ccs_create_features`, `src/features.c:86-140`, and
the values of `ccs_create_evaluation`, `src/evaluation.c:166-225`; `none` is a NULL array. -/
def createBinding (context : BitVec 64) (c : Ctx) (values : Option (List Datum)) : Out Binding :=
  match values with
  | none => .ok ⟨context, List.replicate c.params.length noneDatum⟩
  | some ds =>
    if c.params.length ≠ ds.length then .err .invalidValue
    else do
      let vs ← admitAll jen little c 0 ds
      .ok ⟨context, vs⟩

/-- `_ccs_binding_get_value`, `src/binding_internal.h:38-50`. -/
def Binding.get (b : Binding) (index : Nat) : Out Datum :=
  match b.values[index]? with
  | none => .err .outOfBounds
  | some d => .ok d

/-- `_ccs_binding_set_value`, `src/binding_internal.h:52-63`. -/
def Binding.set (c : Ctx) (b : Binding) (index : Nat) (d : Datum) : Binding × Out Unit :=
  if b.values.length ≤ index then (b, .err .outOfBounds)
  else match c.admit jen little index d with
    | .ok d' => ({ b with values := b.values.set index d' }, .ok ())
    | .err e => (b, .err e)
    | .ub => (b, .ub)

/-- `_ccs_binding_get_values`, `src/binding_internal.h:65-87`: `before` is the array of the caller (`none` for
NULL), `count` tells whether `num_values_ret` is given; the answers are the array and the count.  The flags of
the padding are not written. -/
def Binding.getAll (b : Binding) (before : Option (List Datum)) (count : Bool) :
    Out (Option (List Datum) × Option Nat) :=
  match before with
  | none => if count then .ok (none, some b.values.length) else .err .invalidValue
  | some a =>
    if a.length < b.values.length then .err .invalidValue
    else .ok (some (b.values ++ (a.drop b.values.length).map fun d => { d with v := .none }),
      if count then some b.values.length else none)

/-- The loop of `_ccs_binding_set_values`, `src/binding_internal.h:99-106`: the values written so far and the
outcome. -/
def setLoop (c : Ctx) : Nat → List Datum → List Datum → List Datum × Out Unit
  | _, [], vs => (vs, .ok ())
  | i, d :: ds, vs =>
    match c.admit jen little i d with
    | .ok d' => setLoop c (i + 1) ds (vs.set i d')
    | .err e => (vs, .err e)
    | .ub => (vs, .ub)

/-- `_ccs_binding_set_values`, `src/binding_internal.h:89-109`. -/
def Binding.setAll (c : Ctx) (b : Binding) (ds : List Datum) : Binding × Out Unit :=
  if ds.length ≠ b.values.length then (b, .err .invalidValue)
  else
    let r := setLoop jen little c 0 ds b.values
    ({ b with values := r.1 }, r.2)

/-- `_ccs_binding_get_value_by_name`, `src/binding_internal.h:111-123`. -/
def Binding.getByName (c : Ctx) (b : Binding) (name : Bytes) : Out Datum := do
  let i ← c.indexByName name
  b.get i

/-- `_ccs_binding_get_value_by_parameter`, `src/binding_internal.h:139-150`. -/
def Binding.getByParameter (c : Ctx) (b : Binding) (h : BitVec 64) : Out Datum := do
  let i ← c.index h
  b.get i

/-- Set at an index that a lookup answered. -/
def Binding.setAt (c : Ctx) (b : Binding) (i : Out Nat) (d : Datum) : Binding × Out Unit :=
  match i with
  | .ok i => b.set jen little c i d
  | .err e => (b, .err e)
  | .ub => (b, .ub)

/-- `_ccs_binding_set_value_by_name`, `src/binding_internal.h:125-137`. -/
def Binding.setByName (c : Ctx) (b : Binding) (name : Bytes) (d : Datum) : Binding × Out Unit :=
  b.setAt jen little c (c.indexByName name) d

/-- `_ccs_binding_set_value_by_parameter`, `src/binding_internal.h:152-163`. -/
def Binding.setByParameter (c : Ctx) (b : Binding) (h : BitVec 64) (d : Datum) : Binding × Out Unit :=
  b.setAt jen little c (c.index h) d

/-- The calls that change a binding. -/
inductive BindingOp
  | set (index : Nat) (d : Datum)
  | setByName (name : Bytes) (d : Datum)
  | setByParameter (h : BitVec 64) (d : Datum)
  | setAll (ds : List Datum)

/-- One call. -/
def Binding.step (c : Ctx) (b : Binding) : BindingOp → Binding × Out Unit
  | .set i d => b.set jen little c i d
  | .setByName n d => b.setByName jen little c n d
  | .setByParameter h d => b.setByParameter jen little c h d
  | .setAll ds => b.setAll jen little c ds

/-- A list of calls; the context of the binding may have grown between two of them. -/
def Binding.run (b : Binding) : List (Ctx × BindingOp) → Binding
  | [] => b
  | (c, op) :: rest => (b.step jen little c op).1.run rest

/-! ## Comparison and hash -/

/-- `a < b ? -1 : a > b ? 1 : 0` on pointers and sizes. -/
def natCmp (a b : Nat) : Ordering := if a < b then .lt else if b < a then .gt else .eq

/-- The loop of `_ccs_binding_cmp`, `src/binding_internal.h:203-207`, on arrays of the same length. -/
def valuesCmp : List Datum → List Datum → Ordering
  | a :: as, b :: bs =>
    match datumCmp little a.v b.v with
    | .eq => valuesCmp as bs
    | r => r
  | _, _ => .eq

/-- `_ccs_binding_cmp`, `src/binding_internal.h:181-209`; `heap` tells which binding lies at an address.
Also `ccs_binding_cmp` (`src/binding.c:122-135`), `ccs_configuration_cmp` (`src/configuration.c:226-239`) and
`ccs_features_cmp` (`src/features.c:217-228`). -/
def bindingCmp (heap : BitVec 64 → Binding) (x y : BitVec 64) : Ordering :=
  if x = y then .eq
  else match natCmp (heap x).context.toNat (heap y).context.toNat with
    | .eq =>
      match natCmp (heap x).values.length (heap y).values.length with
      | .eq => valuesCmp little (heap x).values (heap y).values
      | r => r
    | r => r

/-- The loop of `_ccs_binding_hash`, `src/binding_internal.h:173-176`. -/
def hashValues : BitVec 32 → List Datum → BitVec 32
  | h, [] => h
  | h, d :: ds => hashValues (hashCombine h (hashDatum jen little d.v)) ds

/-- `_ccs_binding_hash`, `src/binding_internal.h:165-179`; also `ccs_configuration_hash`
(`src/configuration.c:216-224`) and `ccs_features_hash` (`src/features.c:208-215`). -/
def bindingHash (b : Binding) : BitVec 32 :=
  hashValues jen little (hashCombine (jen (hostBytes little 8 b.context))
    (jen (hostBytes little 8 (BitVec.ofNat 64 b.values.length)))) b.values

/-- `_ccs_evaluation_data_s`, `src/evaluation_internal.h:25-31`; the configuration by address. -/
structure Evaluation where
  binding : Binding
  configuration : BitVec 64
  result : BitVec 32
  deriving DecidableEq, Repr

/-- `_ccs_evaluation_cmp`, `src/evaluation.c:139-158`, and `ccs_evaluation_cmp` (`:392-408`); `evals` and
`configs` tell what lies at an address. -/
def evaluationCmp (evals : BitVec 64 → Evaluation) (configs : BitVec 64 → Binding) (x y : BitVec 64) : Ordering :=
  if x = y then .eq
  else match bindingCmp little (fun a => (evals a).binding) x y with
    | .eq =>
      match (if (evals x).result.toInt < (evals y).result.toInt then .lt
          else if (evals y).result.toInt < (evals x).result.toInt then .gt else .eq : Ordering) with
      | .eq => bindingCmp little configs (evals x).configuration (evals y).configuration
      | r => r
    | r => r

/-- `_ccs_evaluation_hash`, `src/evaluation.c:126-137`. -/
def evaluationHash (configs : BitVec 64 → Binding) (e : Evaluation) : BitVec 32 :=
  hashCombine (hashCombine (bindingHash jen little e.binding) (bindingHash jen little (configs e.configuration)))
    (jen (hostBytes little 4 e.result))

/-- `_ccs_features_evaluation_data_s`, `src/features_evaluation_internal.h:27-34`. -/
structure FeaturesEvaluation where
  evaluation : Evaluation
  features : BitVec 64
  deriving DecidableEq, Repr

/-- `_ccs_features_evaluation_cmp`, `src/features_evaluation.c:153-176`, and `ccs_features_evaluation_cmp`
(`:452-469`).  The first three steps are those of evaluations. -/
def featuresEvaluationCmp (evals : BitVec 64 → FeaturesEvaluation) (configs feats : BitVec 64 → Binding)
    (x y : BitVec 64) : Ordering :=
  if x = y then .eq
  else match evaluationCmp little (fun a => (evals a).evaluation) configs x y with
    | .eq => bindingCmp little feats (evals x).features (evals y).features
    | r => r

/-- `_ccs_features_evaluation_hash`, `src/features_evaluation.c:136-151`. -/
def featuresEvaluationHash (configs feats : BitVec 64 → Binding) (e : FeaturesEvaluation) : BitVec 32 :=
  hashCombine (hashCombine (hashCombine (bindingHash jen little e.evaluation.binding)
    (bindingHash jen little (configs e.evaluation.configuration))) (bindingHash jen little (feats e.features)))
    (jen (hostBytes little 4 e.evaluation.result))

/-! ## Checking features and evaluations -/

/-- The loop of `_check_features`, `src/features_space.c:334-341`, and `_check_evaluation`,
`src/objective_space.c:449-456`, on arrays of the same length. -/
def legalLoop : List (BitVec 64 × Param) → List Datum → Bool
  | p :: ps, d :: ds => if checkValue jen little p.2 d.v then legalLoop ps ds else false
  | _, _ => true

/-- `_check_features`, `src/features_space.c:321-343`. -/
def checkFeaturesLoop (c : Ctx) (vs : List Datum) : Out Bool :=
  if vs.length ≠ c.params.length then .err .invalidFeatures else .ok (legalLoop jen little c.params vs)

/-- `CCS_OBJECT_TYPE_CONFIGURATION_SPACE` and `CCS_OBJECT_TYPE_FEATURES_SPACE`, `include/cconfigspace/base.h:255-273`. -/
def typeConfigurationSpace : Nat := 4
def typeFeaturesSpace : Nat := 9

/-- `ccs_features_space_check_features_values`, `src/features_space.c:362-374`, on an object of type `ty`. -/
def checkFeaturesValues (ty : Nat) (c : Ctx) (vs : List Datum) : Out Bool :=
  if ty ≠ typeConfigurationSpace then .err .invalidObject else checkFeaturesLoop jen little c vs

/-- `ccs_features_space_check_features`, `src/features_space.c:345-360`, on the features space `space` with
contents `c`; also `ccs_features_check` (`src/features.c:199-206`). -/
def checkFeatures (space : BitVec 64) (c : Ctx) (f : Binding) : Out Bool :=
  if f.context ≠ space then .err .invalidFeatures else checkFeaturesLoop jen little c f.values

/-- `ccs_objective_space_check_evaluation_values`, `src/objective_space.c:460-472`, and `ccs_evaluation_check`
(`src/evaluation.c:320-328`). -/
def checkEvaluation (c : Ctx) (vs : List Datum) : Out Bool :=
  if vs.length ≠ c.params.length then .err .invalidEvaluation else .ok (legalLoop jen little c.params vs)

end

end CCS
