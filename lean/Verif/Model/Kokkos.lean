import Verif.Model.Tuner

/-!
# The Kokkos connector

Models `connectors/kokkos/ccs-kokkos-connector.cpp`: the callbacks of the Kokkos tools interface, implemented with the calls of the
library modelled elsewhere.

Assertions are enabled: a call of the library that fails ends the program (`CCS_CHECK`, `:14-17`).  This is the outcome `err`
with the result code of the call (`INVALID_VALUE` for an assertion that is not about a call).  With `NDEBUG` the
calls inside `CCS_CHECK` would not be made at all and the connector would do nothing but read uninitialized
variables; that is not modelled.  Names of spaces and tuners, messages and profiling (`CCS_DEBUG`, `CCS_PROFILE`) are left out.

Addresses of new objects, random numbers and times are given by the host.  Objects live as long as they can be
reached from the maps of the connector: reference counts are modelled in `Model/Own`.
-/

namespace CCS.Kokkos

/-- `Kokkos_Tools_VariableInfo_ValueType`, `connectors/kokkos/include/impl/Kokkos_Profiling_C_Interface.h:184-188`; other values of the enumeration
end the program. -/
inductive ValueType
  | double | int64 | string
  deriving DecidableEq, Repr

/-- `Kokkos_Tools_VariableInfo_StatisticalCategory`, `connectors/kokkos/include/impl/Kokkos_Profiling_C_Interface.h:190-196`; other values end the program. -/
inductive Category
  | categorical | ordinal | interval | ratio
  deriving DecidableEq, Repr

/-- A value of a Kokkos variable: 8 bytes holding a double or an integer, or an array of 64 characters given by
the characters before the first NUL (all of them if there is none). -/
inductive Raw
  | word (w : BitVec 64)
  | text (s : Bytes)
  deriving DecidableEq, Repr

/-- `Kokkos_Tools_ValueRange`, `connectors/kokkos/include/impl/Kokkos_Profiling_C_Interface.h:176-182`. -/
structure Range where
  lower : BitVec 64
  upper : BitVec 64
  step : BitVec 64
  openLower : Bool
  openUpper : Bool
  deriving DecidableEq, Repr

/-- `Kokkos_Tools_VariableInfo_CandidateValueType`, `connectors/kokkos/include/impl/Kokkos_Profiling_C_Interface.h:198-204`, with the union it selects; other values end the program. -/
inductive Candidates
  | set (values : List Raw)
  | range (r : Range)
  | unbounded
  deriving DecidableEq, Repr

/-- `Kokkos_Tools_VariableInfo`. -/
structure Info where
  type : ValueType
  category : Category
  candidates : Candidates
  deriving DecidableEq, Repr

/-- `epsilon`, `connectors/kokkos/ccs-kokkos-connector.cpp:43`: 1E-24. -/
def epsilon : F64 := 0x3af357c299a88ea7#64

/-- `convergence_cutoff`, `connectors/kokkos/ccs-kokkos-connector.cpp:49`. -/
def cutoff : Nat := 500

/-- `KOKKOS_TOOLS_TUNING_STRING_LENGTH`, `connectors/kokkos/include/impl/Kokkos_Profiling_C_Interface.h:147`. -/
def stringLength : Nat := 64

/-- Signed addition; overflow is undefined. -/
def add64 (a b : BitVec 64) : Out (BitVec 64) :=
  if -2 ^ 63 ≤ a.toInt + b.toInt ∧ a.toInt + b.toInt < 2 ^ 63 then .ok (a + b) else .ub

/-- Signed multiplication; overflow is undefined. -/
def mul64 (a b : BitVec 64) : Out (BitVec 64) :=
  if -2 ^ 63 ≤ a.toInt * b.toInt ∧ a.toInt * b.toInt < 2 ^ 63 then .ok (a * b) else .ub

/-! ## Values -/

/-- `ccs_float`, `ccs_int` or `ccs_string` on a value read according to its type,
`connectors/kokkos/ccs-kokkos-connector.cpp:212-230`.  A string without NUL is read beyond its array; a value of the other kind
is not what the interface promises. -/
def Raw.value : ValueType → Raw → Out Value
  | .double, .word w => .ok (.float w)
  | .int64, .word w => .ok (.int w)
  | .string, .text s => if s.length < stringLength then .ok (.str (some s)) else .ub
  | _, _ => .ub

/-- The loop of `connectors/kokkos/ccs-kokkos-connector.cpp:209-231`. -/
def setDatums (t : ValueType) : List Raw → Out (List Datum)
  | [] => .ok []
  | r :: rs => do
    let v ← r.value t
    let ds ← setDatums t rs
    .ok (⟨v, false, false, false⟩ :: ds)

/-- `extract_value`, `connectors/kokkos/ccs-kokkos-connector.cpp:434-457`: strings are transient. -/
def extractValue (t : ValueType) (r : Raw) : Out Datum := do
  let v ← r.value t
  .ok ⟨v, decide (t = .string), false, false⟩

/-- `set_value`, `connectors/kokkos/ccs-kokkos-connector.cpp:409-432`.  The union of the datum is read according to the type of the variable:
doubles and integers share its bytes, other datums have nothing there that the variable could use.  `strncpy`
copies at most 64 characters. -/
def setValue (t : ValueType) (v : Value) : Out Raw :=
  match t, v with
  | .double, .float w => .ok (.word w)
  | .double, .int w => .ok (.word w)
  | .int64, .float w => .ok (.word w)
  | .int64, .int w => .ok (.word w)
  | .string, .str (some s) => .ok (.text (s.take stringLength))
  | _, _ => .ub

/-! ## Declarations -/

/-- The constructor chosen by the category, `connectors/kokkos/ccs-kokkos-connector.cpp:232-251`. -/
def Category.kind : Category → CatKind
  | .categorical => .categorical
  | .ordinal => .ordinal
  | .interval => .discrete
  | .ratio => .discrete

section
variable (ops : FloatOps) (toInt : F64 → Option (BitVec 64)) (jen : Bytes → BitVec 32) (little : Bool)

/-- A set of candidates, `connectors/kokkos/ccs-kokkos-connector.cpp:206-254`. -/
def setParameter (name : Bytes) (t : ValueType) (c : Category) (values : List Raw) : Out Param := do
  let ds ← setDatums t values
  createCategorical jen little c.kind name ds 0

/-- A range of doubles, `connectors/kokkos/ccs-kokkos-connector.cpp:258-291`. -/
def doubleRange (name : Bytes) (r : Range) : Out Param :=
  if F64.le 0#64 r.step then
    let amount := if F64.feq r.step 0#64 then epsilon else r.step
    let lower := if r.openLower then ops.add r.lower amount else r.lower
    let upper := if r.openUpper then r.upper else ops.add r.upper amount
    createNumerical ops name .float lower upper r.step lower
  else .err .invalidValue

/-- `upper = upper + epsilon` on an integer, `connectors/kokkos/ccs-kokkos-connector.cpp:317`: the sum is a double and is converted
back by `toInt`, which answers `none` when the double is out of range (undefined behaviour). -/
def addEpsilon (x : BitVec 64) : Out (BitVec 64) :=
  match toInt (ops.add (F64.ofInt x) epsilon) with
  | some y => .ok y
  | none => .ub

/-- A range of integers, `connectors/kokkos/ccs-kokkos-connector.cpp:292-326`. -/
def intRange (name : Bytes) (r : Range) : Out Param :=
  if r.step.toInt < 0 then .err .invalidValue
  else do
    let lower ← (if r.openLower then add64 r.lower (if r.step = 0#64 then 1#64 else r.step) else .ok r.lower)
    let upper ← (if r.openUpper then .ok r.upper
      else if r.step = 0#64 then addEpsilon ops toInt r.upper else add64 r.upper r.step)
    createNumerical ops name .int lower upper r.step lower

/-- A variable without bounds, `connectors/kokkos/ccs-kokkos-connector.cpp:331-356`. -/
def unboundedParameter (name : Bytes) : ValueType → Out Param
  | .double => createNumerical ops name .float 0xfff0000000000000#64 0x7ff0000000000000#64 0#64 0xfff0000000000000#64
  | .int64 => createNumerical ops name .int 0x8000000000000000#64 0x7fffffffffffffff#64 0#64 0x8000000000000000#64
  | .string => .ok (createString name)

/-- `variable_info_to_parameter`, `connectors/kokkos/ccs-kokkos-connector.cpp:201-361`.  A range of strings ends the program (`:327-328`). -/
def variableParameter (name : Bytes) (i : Info) : Out Param :=
  match i.candidates with
  | .set values => setParameter jen little name i.type i.category values
  | .range r =>
    match i.type with
    | .double => doubleRange ops name r
    | .int64 => intRange ops toInt name r
    | .string => .err .invalidValue
  | .unbounded => unboundedParameter ops name i.type

/-! ## State -/

/-- `struct timespec`. -/
structure Timespec where
  sec : BitVec 64
  nsec : BitVec 64
  deriving DecidableEq, Repr

/-- A features tuner with its configuration space and features space (given by its address and its contents) and
the address of its objective space. -/
structure Region where
  space : Space
  fspace : BitVec 64
  fctx : Ctx
  ospace : BitVec 64
  tuner : Tuner

/-- An entry of `contexts`, `connectors/kokkos/ccs-kokkos-connector.cpp:459-467`. -/
structure Open where
  start : Timespec
  tuner : BitVec 64
  features : BitVec 64
  configuration : BitVec 64
  converged : Bool
  deriving DecidableEq, Repr

/-- The static variables of the connector, `connectors/kokkos/ccs-kokkos-connector.cpp:47-49,129-132,459-468`, and what lies at the addresses
they hold.  The head of `stack` is its top.  Maps are association lists without duplicate keys; the key of a tuner is
the sorted list of a `std::set`.  `regionCounter` only serves names. -/
structure State where
  stack : List Bool
  features : List (Nat × BitVec 64)
  parameters : List (Nat × BitVec 64)
  tuners : List (List Nat × BitVec 64 × Bool)
  contexts : List (Nat × Open)
  params : BitVec 64 → Param
  regions : BitVec 64 → Region
  ospaces : BitVec 64 → ObjSpace
  feats : BitVec 64 → Binding
  configs : BitVec 64 → List Value
  evals : BitVec 64 → FeaturesEvaluation

/-- `map[k] = v`. -/
def put {κ α : Type} [DecidableEq κ] (m : List (κ × α)) (k : κ) (v : α) : List (κ × α) :=
  (k, v) :: m.filter fun e => decide (e.1 ≠ k)

/-- `map.find(k)`. -/
def look {κ α : Type} [DecidableEq κ] (m : List (κ × α)) (k : κ) : Option α :=
  (m.find? fun e => decide (e.1 = k)).map (·.2)

/-- `map.erase(k)`. -/
def drop {κ α : Type} [DecidableEq κ] (m : List (κ × α)) (k : κ) : List (κ × α) :=
  m.filter fun e => decide (e.1 ≠ k)

/-- Writing at an address. -/
def store {α : Type} (f : BitVec 64 → α) (a : BitVec 64) (v : α) : BitVec 64 → α := fun x => if x = a then v else f x

/-- The state when the connector is loaded: nothing, and unspecified contents of memory. -/
def State.loaded (params : BitVec 64 → Param) (regions : BitVec 64 → Region) (ospaces : BitVec 64 → ObjSpace)
    (feats : BitVec 64 → Binding) (configs : BitVec 64 → List Value) (evals : BitVec 64 → FeaturesEvaluation) : State :=
  ⟨[], [], [], [], [], params, regions, ospaces, feats, configs, evals⟩

/-! ## Regions -/

/-- `features[id]` and `parameters[id]` given to a call of the library.  When there is no such entry `operator[]`
makes one with NULL, which every call refuses. -/
def handleOf (m : List (Nat × BitVec 64)) (id : Nat) : Out (BitVec 64) :=
  match look m id with
  | some h => .ok h
  | none => .err .invalidObject

/-- `regionId`, `connectors/kokkos/ccs-kokkos-connector.cpp:497-500`. -/
def regionId (contextIds tuningIds : List Nat) : List Nat := uniqNat (contextIds ++ tuningIds)

/-- The loop of `connectors/kokkos/ccs-kokkos-connector.cpp:513-515`. -/
def addTuning (mk : Nat → Param → Out Dist) (st : State) : List Nat → Space → Out Space
  | [], s => .ok s
  | id :: ids, s => do
    let h ← handleOf st.parameters id
    match addParameter st.params mk s h none with
    | (s', .ok ()) => addTuning mk st ids s'
    | (_, .err e) => .err e
    | (_, .ub) => .ub

/-- The loop of `connectors/kokkos/ccs-kokkos-connector.cpp:527-529`. -/
def addContext (st : State) : List Nat → Ctx → Out Ctx
  | [], c => .ok c
  | id :: ids, c => do
    let h ← handleOf st.features id
    match c.add st.params h with
    | (c', .ok ()) => addContext st ids c'
    | (_, .err e) => .err e
    | (_, .ub) => .ub

/-- The characters of "time". -/
def timeName : Bytes := [116#8, 105#8, 109#8, 101#8]

/-- The objective space, `connectors/kokkos/ccs-kokkos-connector.cpp:531-545`: one integer parameter in [0, `CCS_INT_MAX`) at address `htime`,
whose variable (the expression `e`) is minimized. -/
def timeSpace (mem : BitVec 64 → Param) (htime : BitVec 64) (e : ObjMeta) : Out (Param × ObjSpace) := do
  let p ← createNumerical ops timeName .int 0#64 0x7fffffffffffffff#64 0#64 0#64
  match ObjSpace.empty.addParameter (store mem htime p) htime with
  | (s, .ok ()) =>
    match s.addObjective ⟨.var e htime p, 0#32⟩ with
    | (s', .ok ()) => .ok (p, s')
    | (_, .err x) => .err x
    | (_, .ub) => .ub
  | (_, .err x) => .err x
  | (_, .ub) => .ub

/-- What the host gives to one request: addresses of new objects, a random number, the number of the first attempt at
sampling, and the time. -/
structure Supply where
  fspace : BitVec 64
  ospace : BitVec 64
  htime : BitVec 64
  expression : ObjMeta
  tuner : BitVec 64
  features : BitVec 64
  configuration : BitVec 64
  draw : BitVec 64
  attempt : Nat
  clock : Timespec

/-- The tuner of a region and its state of convergence, created if needed: `connectors/kokkos/ccs-kokkos-connector.cpp:502-562`. -/
def findTuner (mk : Nat → Param → Out Dist) (st : State) (key : List Nat) (contextIds tuningIds : List Nat) (g : Supply) :
    Out (State × BitVec 64 × Bool) :=
  match look st.tuners key with
  | some (t, c) => .ok (st, t, c)
  | none => do
    let cs ← addTuning mk st tuningIds Space.empty
    let fs ← addContext st contextIds Ctx.empty
    let p ← timeSpace ops st.params g.htime g.expression
    .ok ({ st with
      params := store st.params g.htime p.1
      ospaces := store st.ospaces g.ospace p.2
      regions := store st.regions g.tuner ⟨cs, g.fspace, fs, g.ospace, Tuner.empty⟩
      tuners := put st.tuners key (g.tuner, false) }, g.tuner, false)

/-- The number answered by `ccs_features_tuner_get_history(tuner, NULL, 0, NULL, &size)`. -/
def historySize (st : State) (t : BitVec 64) : Out Nat :=
  match (st.regions t).tuner.getFeaturesHistory little st.feats st.evals 0#64 none true with
  | .ok (_, some n) => .ok n
  | .ok (_, none) => .ub
  | .err e => .err e
  | .ub => .ub

/-- The test of convergence, `connectors/kokkos/ccs-kokkos-connector.cpp:564-572`. -/
def testConvergence (st : State) (key : List Nat) (t : BitVec 64) (converged : Bool) : Out (State × Bool) :=
  if converged then .ok (st, true)
  else do
    let n ← historySize little st t
    if cutoff ≤ n then .ok ({ st with tuners := put st.tuners key (t, true) }, true) else .ok (st, false)

/-- The push on the stack, `connectors/kokkos/ccs-kokkos-connector.cpp:573-576`; `top` of an empty stack is undefined. -/
def pushStatus (st : State) (converged : Bool) : Out State :=
  match st.stack with
  | [] => .ub
  | top :: _ => .ok { st with stack := (if top then converged else false) :: st.stack }

/-- A variable in a request: its identifier, the type in its metadata, and its value. -/
structure Var where
  id : Nat
  type : ValueType
  value : Raw
  deriving DecidableEq, Repr

/-- The loop of `connectors/kokkos/ccs-kokkos-connector.cpp:581-587`; writing outside the array is undefined. -/
def featuresLoop (st : State) (c : Ctx) : List Var → List Datum → Out (List Datum)
  | [], vs => .ok vs
  | x :: xs, vs => do
    let h ← handleOf st.features x.id
    let i ← c.index h
    let d ← extractValue x.type x.value
    if i < vs.length then featuresLoop st c xs (vs.set i d) else .ub

/-- The features of a request, `connectors/kokkos/ccs-kokkos-connector.cpp:578-591`.  The array is not initialized; no entry keeps its initial value when
the call succeeds. -/
def requestFeatures (st : State) (r : Region) (vars : List Var) : Out Binding := do
  let vs ← featuresLoop st r.fctx vars (List.replicate vars.length noneDatum)
  createBinding jen little r.fspace r.fctx (some vs)

/-- `ccs_features_tuner_ask` for one configuration, `src/features_tuner.c:73-99` and `src/features_tuner_random.c:157-178`. -/
def askFor (valid : Out Bool) (s : Space) (time : Nat) : Space × Out Suggested :=
  match valid with
  | .ok true => askOne ops jen little s time
  | .ok false => (s, .err .invalidFeatures)
  | .err e => (s, .err e)
  | .ub => (s, .ub)

/-- Asking or suggesting, `connectors/kokkos/ccs-kokkos-connector.cpp:593-597`, for the features at address `g.features`. -/
def choose (st : State) (r : Region) (converged : Bool) (g : Supply) : Space × Out Suggested :=
  let valid := checkFeatures jen little r.fspace r.fctx (st.feats g.features)
  if converged then r.tuner.suggestFor ops jen little st.feats st.evals valid g.features r.space g.draw g.attempt
  else askFor ops jen little valid r.space g.attempt

/-- `ccs_configuration_get_values` in an array of `n` entries, `src/binding_internal.h:65-87`. -/
def configurationValues (vs : List Value) (n : Nat) : Out (List Value) :=
  if n < vs.length then .err .invalidValue else .ok (vs ++ List.replicate (n - vs.length) .none)

/-- The loop of `connectors/kokkos/ccs-kokkos-connector.cpp:605-611`: the values sent; reading outside the array is undefined. -/
def sendLoop (st : State) (s : Space) (vs : List Value) : List Var → Out (List Raw)
  | [] => .ok []
  | x :: xs => do
    let h ← handleOf st.parameters x.id
    let i ← s.getIndex h
    match vs[i]? with
    | none => .ub
    | some v => do
      let r ← setValue x.type v
      let rs ← sendLoop st s vs xs
      .ok (r :: rs)

/-- The configuration of a request, `connectors/kokkos/ccs-kokkos-connector.cpp:593-597`: that of an evaluation or a new one at address `a`. -/
def keepConfiguration (st : State) (a : BitVec 64) : Out Suggested → Out (State × BitVec 64)
  | .ok (.known c) => .ok (st, c)
  | .ok (.fresh vs) => .ok ({ st with configs := store st.configs a vs }, a)
  | .err e => .err e
  | .ub => .ub

/-- `kokkosp_request_values`, `connectors/kokkos/ccs-kokkos-connector.cpp:470-625`: the state afterwards and the values sent. -/
def requestValues (mk : Nat → Param → Out Dist) (st : State) (contextId : Nat) (contextVars tuningVars : List Var)
    (g : Supply) : Out (State × List Raw) := do
  let key := regionId (contextVars.map (·.id)) (tuningVars.map (·.id))
  let (st, t, conv) ← findTuner ops mk st key (contextVars.map (·.id)) (tuningVars.map (·.id)) g
  let (st, conv) ← testConvergence little st key t conv
  let st ← pushStatus st conv
  let r := st.regions t
  let f ← requestFeatures jen little st r contextVars
  let st := { st with feats := store st.feats g.features f }
  let (s, sug) := choose ops jen little st r conv g
  let st := { st with regions := store st.regions t { r with space := s } }
  let (st, c) ← keepConfiguration st g.configuration sug
  let vs ← configurationValues (st.configs c) tuningVars.length
  let sent ← sendLoop st s vs tuningVars
  .ok ({ st with contexts := put st.contexts contextId ⟨g.clock, t, g.features, c, conv⟩ }, sent)

/-- The elapsed time in nanoseconds, `connectors/kokkos/ccs-kokkos-connector.cpp:669-672`. -/
def elapsed (start stop : Timespec) : Out (BitVec 64) := do
  let s ← sub64 stop.sec start.sec
  let n ← mul64 s 1000000000#64
  let a ← add64 n stop.nsec
  sub64 a start.nsec

/-- What a tuner sees of the evaluations (`src/features_tuner_random.c:187-254`). -/
def State.env (st : State) : TunerEnv :=
  ⟨fun e => (st.evals e).evaluation.result, compareFeaturesEvaluations ops jen little st.ospaces st.feats st.evals⟩

/-- The report of an evaluation, `connectors/kokkos/ccs-kokkos-connector.cpp:666-684`; `e` is its address. -/
def report (st : State) (o : Open) (stop : Timespec) (e : BitVec 64) : Out State := do
  let ns ← elapsed o.start stop
  let r := st.regions o.tuner
  let b ← createBinding jen little r.ospace (st.ospaces r.ospace).ctx (some [⟨.int ns, false, false, false⟩])
  let st := { st with evals := store st.evals e ⟨⟨b, o.configuration, 0#32⟩, o.features⟩ }
  match r.tuner.tell (st.env ops jen little) [e] with
  | (t, .ok ()) => .ok { st with regions := store st.regions o.tuner { r with tuner := t } }
  | (_, .err x) => .err x
  | (_, .ub) => .ub

/-- `kokkosp_end_context`, `connectors/kokkos/ccs-kokkos-connector.cpp:633-695`; popping an empty stack is undefined. -/
def endContext (st : State) (contextId : Nat) (stop : Timespec) (e : BitVec 64) : Out State :=
  match look st.contexts contextId with
  | none => .ok st
  | some o =>
    match st.stack with
    | [] => .ub
    | _ :: rest =>
      let st := { st with stack := rest, contexts := drop st.contexts contextId }
      if o.converged then .ok st else report ops jen little st o stop e

/-- `invoke_fence`, `connectors/kokkos/ccs-kokkos-connector.cpp:52-58`: whether it fences. -/
def invokeFence (st : State) : Out Bool :=
  match st.stack with
  | [] => .ub
  | top :: _ => .ok !top

/-- `KOKKOSP_INTERFACE_VERSION`, `connectors/kokkos/include/impl/Kokkos_Profiling_C_Interface.h:45`. -/
def interfaceVersion : Nat := 20210225

/-- `kokkosp_init_library`, `connectors/kokkos/ccs-kokkos-connector.cpp:155-169`. -/
def initLibrary (st : State) (version : Nat) : Out State :=
  if version < interfaceVersion then .err .invalidValue else .ok { st with stack := true :: st.stack }

/-- `kokkosp_finalize_library`, `connectors/kokkos/ccs-kokkos-connector.cpp:171-199`: neither the stack nor the contexts are cleared. -/
def finalizeLibrary (st : State) : State := { st with features := [], parameters := [], tuners := [] }

/-- The callbacks of the tools interface.  `kernel` stands for the six callbacks at the start and the end of a parallel
`for`, `scan` or `reduce` (`connectors/kokkos/ccs-kokkos-connector.cpp:78-127`); `kokkosp_begin_context` does nothing. -/
inductive Event
  | init (version : Nat)
  | declareInput (name : Bytes) (id : Nat) (info : Info) (address : BitVec 64)
  | declareOutput (name : Bytes) (id : Nat) (info : Info) (address : BitVec 64)
  | request (contextId : Nat) (contextVars tuningVars : List Var) (g : Supply)
  | beginContext (contextId : Nat)
  | endContext (contextId : Nat) (stop : Timespec) (evaluation : BitVec 64)
  | kernel
  | finalize

/-- What a callback does that Kokkos can see. -/
inductive Reply
  | nothing
  | values (sent : List Raw)
  | fence (yes : Bool)
  deriving DecidableEq, Repr

/-- One callback.  `kokkosp_declare_input_type` and `kokkosp_declare_output_type`:
`connectors/kokkos/ccs-kokkos-connector.cpp:363-407`. -/
def step (mk : Nat → Param → Out Dist) (st : State) : Event → Out (State × Reply)
  | .init version => do .ok (← initLibrary st version, .nothing)
  | .declareInput name id info a => do
    let p ← variableParameter ops toInt jen little name info
    .ok ({ st with params := store st.params a p, features := put st.features id a }, .nothing)
  | .declareOutput name id info a => do
    let p ← variableParameter ops toInt jen little name info
    .ok ({ st with params := store st.params a p, parameters := put st.parameters id a }, .nothing)
  | .request c cv tv g => do
    let (st, sent) ← requestValues ops jen little mk st c cv tv g
    .ok (st, .values sent)
  | .beginContext _ => .ok (st, .nothing)
  | .endContext c stop e => do .ok (← Kokkos.endContext ops jen little st c stop e, .nothing)
  | .kernel => do .ok (st, .fence (← invokeFence st))
  | .finalize => .ok (finalizeLibrary st, .nothing)

/-- A sequence of callbacks: the state at the end and the replies. -/
def run (mk : Nat → Param → Out Dist) (st : State) : List Event → Out (State × List Reply)
  | [] => .ok (st, [])
  | e :: es => do
    let (st, r) ← step ops toInt jen little mk st e
    let (st, rs) ← run mk st es
    .ok (st, r :: rs)

end

end CCS.Kokkos
