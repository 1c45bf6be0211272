import Verif.Model.Expr
import Verif.Model.Joint

/-!
# Configuration spaces

Models `src/configuration_space.c` (parameters, distributions, conditions, forbidden clauses, checking and
sampling) and the lookups of `src/context_internal.h`.

Parameters, distributions and expressions are immutable once created.  A parameter is given by its address;
`mem` tells which parameter lies at an address.  `mk id p` is the outcome of
`ccs_parameter_get_default_distribution` (`src/parameter.c:40-51`) on `p`; the number `id` tells apart the
distributions created by different calls.  Spaces have fewer than `2^32` parameters (lengths of `UT_array`
are `unsigned int`).  Retaining and releasing objects is modelled in `Verif/Model/Object.lean`.
-/

namespace CCS

/-- `_ccs_parameter_wrapper_cs_s`, `src/configuration_space_internal.h:8-15`.  `dist` stands for the address of
the distribution wrapper. -/
structure PWrap where
  handle : BitVec 64
  param : Param
  dist : Nat
  distIndex : Nat
  condition : Option Expr
  parents : List Nat
  children : List Nat

/-- `_ccs_distribution_wrapper_s`, `src/configuration_space_internal.h:18-24`; `id` stands for its address and
the `dimension` is the length of `indexes`. -/
structure DWrap where
  id : Nat
  dist : Dist
  indexes : List Nat

/-- `_ccs_parameter_index_hash_s`, `src/context_internal.h:23-29`: one record is in both hash tables. -/
structure HashEntry where
  handle : BitVec 64
  name : Bytes
  index : Nat
  deriving DecidableEq, Repr

/-- `_ccs_configuration_space_data_s`, `src/configuration_space_internal.h:39-49`, without the name and the
generator.  `nextId` is the next unused wrapper address. -/
structure Space where
  params : List PWrap
  entries : List HashEntry
  dists : List DWrap
  nextId : Nat
  clauses : List Expr
  graphOk : Bool
  sorted : List Nat

/-- `ccs_create_configuration_space`, `src/configuration_space.c:330-376`. -/
def Space.empty : Space := ⟨[], [], [], 0, [], true, []⟩

/-- Addresses of the parameters, in order. -/
def Space.handles (s : Space) : List (BitVec 64) := s.params.map (·.handle)

/-! ## Lookups (`src/context_internal.h`) -/

/-- Conversion to `unsigned int`. -/
def toUint (i : Nat) : Nat := i % 4294967296

/-- `_ccs_context_get_parameter_index`, `src/context_internal.h:44-59`. -/
def entryIndex (es : List HashEntry) (h : BitVec 64) : Out Nat :=
  match es.find? (fun e => decide (e.handle = h)) with
  | some e => .ok e.index
  | none => .err .invalidParameter

/-- `_ccs_context_get_parameter_indexes`, `src/context_internal.h:149-167`. -/
def entryIndexes (es : List HashEntry) : List (BitVec 64) → Out (List Nat)
  | [] => .ok []
  | h :: hs => do
    let i ← entryIndex es h
    let is ← entryIndexes es hs
    .ok (i :: is)

/-- `_ccs_context_get_num_parameters`, `src/context_internal.h:61-69`. -/
def Space.numParameters (s : Space) : Nat := s.params.length

/-- `_ccs_context_get_parameter`, `src/context_internal.h:71-84`. -/
def Space.getParameter (s : Space) (index : Nat) : Out (BitVec 64) :=
  match s.params[toUint index]? with
  | some w => .ok w.handle
  | none => .err .outOfBounds

/-- `_ccs_context_get_parameter_by_name`, `src/context_internal.h:86-101`. -/
def Space.getParameterByName (s : Space) (name : Bytes) : Out (BitVec 64) :=
  match s.entries.find? (fun e => decide (e.name = name)) with
  | some e => .ok e.handle
  | none => .err .invalidName

/-- `_ccs_context_get_parameter_index_by_name`, `src/context_internal.h:103-118`. -/
def Space.getIndexByName (s : Space) (name : Bytes) : Out Nat :=
  match s.entries.find? (fun e => decide (e.name = name)) with
  | some e => .ok e.index
  | none => .err .invalidName

/-- `ccs_configuration_space_get_parameter_index`, through `src/context_internal.h:44-59`. -/
def Space.getIndex (s : Space) (h : BitVec 64) : Out Nat := entryIndex s.entries h

/-- `_ccs_context_get_parameters`, `src/context_internal.h:120-147`, with an array of `n` entries (`none` when
the array is NULL): the array written, if any, and the count. -/
def Space.getParameters (s : Space) (n : Option Nat) : Out (Option (List (BitVec 64)) × Nat) :=
  match n with
  | none => .ok (none, s.params.length)
  | some n =>
    if n < s.params.length then .err .invalidValue
    else .ok (some (s.handles ++ List.replicate (n - s.params.length) 0#64), s.params.length)

/-! ## Adding parameters -/

/-- The distribution wrapped by `ccs_configuration_space_add_parameter`,
`src/configuration_space.c:466-483`. -/
def chooseDistribution (mk : Nat → Param → Out Dist) (id : Nat) (p : Param) : Option Dist → Out Dist
  | some d => if d.dim ≠ 1 then .err .invalidDistribution else .ok d
  | none => mk id p

/-- `CCS_PARAMETER_TYPE_STRING == type`. -/
def Param.isString (p : Param) : Bool :=
  match p.kind with
  | .string => true
  | _ => false

/-- The effect of a successful `ccs_configuration_space_add_parameter`,
`src/configuration_space.c:484-525`. -/
def Space.pushParameter (s : Space) (h : BitVec 64) (p : Param) (d : Dist) : Space :=
  { s with
    params := s.params ++ [⟨h, p, s.nextId, 0, none, [], []⟩]
    entries := s.entries ++ [⟨h, p.name, s.params.length⟩]
    dists := s.dists ++ [⟨s.nextId, d, [s.params.length]⟩]
    nextId := s.nextId + 1
    sorted := s.sorted ++ [s.params.length] }

/-- `ccs_configuration_space_add_parameter`, `src/configuration_space.c:429-543`. -/
def addParameter (mem : BitVec 64 → Param) (mk : Nat → Param → Out Dist) (s : Space) (h : BitVec 64)
    (d : Option Dist) : Space × Out Unit :=
  let p := mem h
  if p.isString then (s, .err .invalidParameter)
  else if s.entries.any (fun e => decide (e.name = p.name)) then (s, .err .invalidParameter)
  else match chooseDistribution mk s.nextId p d with
    | .ok d => (s.pushParameter h p d, .ok ())
    | .err e => (s, .err e)
    | .ub => (s, .ub)

/-! ## Redistribution -/

/-- The tests of `src/configuration_space.c:565-574`. -/
def badIndexes (n : Nat) : List Nat → Bool
  | [] => false
  | i :: is => decide (n ≤ i) || is.contains i || badIndexes n is

/-- The wrappers to delete, each once, `src/configuration_space.c:595-607`. -/
def toDelete (ws : List PWrap) : List Nat → List Nat → Out (List Nat)
  | [], acc => .ok acc
  | i :: is, acc =>
    match ws[i]? with
    | none => .ub
    | some w => toDelete ws is (if acc.contains w.dist then acc else acc ++ [w.dist])

/-- The parameters left without distribution, `src/configuration_space.c:608-613`; a wrapper that is not in the
list has been freed. -/
def orphans (ds : List DWrap) : List Nat → Out (List Nat)
  | [] => .ok []
  | id :: ids =>
    match ds.find? (fun d => decide (d.id = id)) with
    | none => .ub
    | some d => do
      let r ← orphans ds ids
      .ok (d.indexes ++ r)

/-- Removal of one index, `src/configuration_space.c:626-633`: when it is not there the last one goes; with
nothing left the counter wraps. -/
def dropIndex (i : Nat) (l : List Nat) : Out (List Nat) :=
  match l with
  | [] => .ub
  | _ => .ok (if l.contains i then l.erase i else l.dropLast)

/-- The loop of `src/configuration_space.c:624-634`. -/
def dropIndexes : List Nat → List Nat → Out (List Nat)
  | [], l => .ok l
  | i :: is, l => do
    let l' ← dropIndex i l
    dropIndexes is l'

/-- Wrappers of the remaining parameters, `src/configuration_space.c:639-657`. -/
def defaultWrappers (mk : Nat → Param → Out Dist) (ws : List PWrap) : Nat → List Nat → Out (List DWrap)
  | _, [] => .ok []
  | id, i :: is =>
    match ws[i]? with
    | none => .ub
    | some w => do
      let d ← mk id w.param
      let r ← defaultWrappers mk ws (id + 1) is
      .ok (⟨id, d, [i]⟩ :: r)

/-- The inner loop of `src/configuration_space.c:670-676`. -/
def linkWrapper (id : Nat) : Nat → List Nat → List PWrap → List PWrap
  | _, [], ws => ws
  | j, i :: is, ws => linkWrapper id (j + 1) is (ws.modify i fun w => { w with dist := id, distIndex := j })

/-- The loop of `src/configuration_space.c:666-677` on the parameters. -/
def linkWrappers : List DWrap → List PWrap → List PWrap
  | [], ws => ws
  | d :: ds, ws => linkWrappers ds (linkWrapper d.id 0 d.indexes ws)

/-- The wrappers to delete and to add, `src/configuration_space.c:576-657`.  The three temporary arrays have
`num_parameters` entries: writing more is undefined. -/
def planDistribution (mk : Nat → Param → Out Dist) (s : Space) (d : Dist) (idx : List Nat) :
    Out (List Nat × List DWrap) := do
  let del ← toDelete s.params idx []
  let all ← orphans s.dists del
  let left ← dropIndexes idx all
  let added ← defaultWrappers mk s.params (s.nextId + 1) left
  if s.params.length < del.length ∨ s.params.length < all.length ∨ s.params.length < added.length + 1
  then .ub
  else .ok (del, ⟨s.nextId, d, idx⟩ :: added)

/-- `ccs_configuration_space_set_distribution`, `src/configuration_space.c:547-692`, on an array `indexes` of at
least `dim` entries. -/
def setDistribution (mk : Nat → Param → Out Dist) (s : Space) (d : Dist) (indexes : List Nat) :
    Space × Out Unit :=
  if indexes.length < d.dim then (s, .ub)
  else if badIndexes s.params.length (indexes.take d.dim) then (s, .err .invalidValue)
  else match planDistribution mk s d (indexes.take d.dim) with
    | .ok (del, added) =>
      ({ s with
          params := linkWrappers added s.params
          dists := s.dists.filter (fun w => !del.contains w.id) ++ added
          nextId := s.nextId + added.length }, .ok ())
    | .err e => (s, .err e)
    | .ub => (s, .ub)

/-- `ccs_configuration_space_get_parameter_distribution`, `src/configuration_space.c:694-713`. -/
def Space.getParameterDistribution (s : Space) (index : Nat) : Out (Dist × Nat) :=
  match s.params[toUint index]? with
  | none => .err .outOfBounds
  | some w =>
    match s.dists.find? (fun d => decide (d.id = w.dist)) with
    | some d => .ok (d.dist, w.distIndex)
    | none => .ub

/-! ## The graph of conditions -/

/-- `src/configuration_space.c:1227-1231`. -/
def clearEdges (ws : List PWrap) : List PWrap := ws.map fun w => { w with parents := [], children := [] }

/-- The loop of `src/configuration_space.c:1275-1281`. -/
def pushEdges (index : Nat) : List Nat → List PWrap → Out (List PWrap)
  | [], ws => .ok ws
  | p :: ps, ws =>
    if p < ws.length then
      pushEdges index ps ((ws.modify index fun w => { w with parents := w.parents ++ [p] }).modify p
        fun w => { w with children := w.children ++ [index] })
    else .ub

/-- The loop of `src/configuration_space.c:1235-1282`: the wrappers written so far and the outcome. -/
def edgesLoop (es : List HashEntry) : Nat → Nat → List PWrap → List PWrap × Out Unit
  | 0, _, ws => (ws, .ok ())
  | todo + 1, index, ws =>
    match ws[index]? with
    | none => (ws, .ub)
    | some w =>
      match w.condition with
      | none => edgesLoop es todo (index + 1) ws
      | some e =>
        match entryIndexes es e.parameters >>= fun is => pushEdges index is ws with
        | .ok ws' => edgesLoop es todo (index + 1) ws'
        | .err x => (ws, .err x)
        | .ub => (ws, .ub)

/-- Insertion in a sorted list. -/
def insertNat (x : Nat) : List Nat → List Nat
  | [] => [x]
  | y :: ys => if x ≤ y then x :: y :: ys else y :: insertNat x ys

/-- `utarray_sort(array, &_size_t_sort)`, `src/configuration_space.c:1124-1130,1138`.  Elements that compare
equal are identical, so every sorting algorithm gives this result. -/
def sortNat : List Nat → List Nat
  | [] => []
  | x :: xs => insertNat x (sortNat xs)

/-- The loop of `src/configuration_space.c:1143-1149`: `last` is the last element kept. -/
def skipSame : Nat → List Nat → List Nat
  | _, [] => []
  | last, x :: xs => if x ≠ last then x :: skipSame x xs else skipSame last xs

/-- `_uniq_size_t_array`, `src/configuration_space.c:1132-1151`. -/
def uniqNat (l : List Nat) : List Nat :=
  match sortNat l with
  | [] => []
  | x :: xs => x :: skipSame x xs

/-- `src/configuration_space.c:1284-1288`. -/
def uniqEdges (ws : List PWrap) : List PWrap :=
  ws.map fun w => { w with parents := uniqNat w.parents, children := uniqNat w.children }

/-- `_recompute_graph`, `src/configuration_space.c:1222-1293`. -/
def recomputeGraph (s : Space) : Space × Out Unit :=
  match edgesLoop s.entries s.params.length 0 (clearEdges s.params) with
  | (ws, .ok _) => ({ s with params := uniqEdges ws }, .ok ())
  | (ws, r) => ({ s with params := ws }, r)

/-- Initial queue: the parameters without parents, in order, `src/configuration_space.c:1183-1191`. -/
def roots : Nat → List PWrap → List Nat
  | _, [] => []
  | i, w :: ws => if w.parents.length = 0 then i :: roots (i + 1) ws else roots (i + 1) ws

/-- `in_edges--` on a `size_t`. -/
def decrement (k : Nat) : Nat := if k = 0 then 18446744073709551615 else k - 1

/-- The inner loop of `src/configuration_space.c:1198-1205`. -/
def releaseChildren : List Nat → List Nat → List Nat → Out (List Nat × List Nat)
  | [], edges, queue => .ok (edges, queue)
  | c :: cs, edges, queue =>
    match edges[c]? with
    | none => .ub
    | some k =>
      releaseChildren cs (edges.set c (decrement k)) (if decrement k = 0 then queue ++ [c] else queue)

/-- The main loop of `_topological_sort`, `src/configuration_space.c:1193-1209`.  `fuel` bounds the recursion:
a parameter entering the queue twice would corrupt the list, and none does. -/
def kahn (ws : List PWrap) : Nat → List Nat → List Nat → List Nat → Out (List Nat)
  | fuel, edges, queue, sorted =>
    match queue with
    | [] => .ok sorted
    | i :: q =>
      match fuel with
      | 0 => .ub
      | fuel + 1 =>
        match ws[i]? with
        | none => .ub
        | some w =>
          match releaseChildren w.children edges q with
          | .ok r => kahn ws fuel r.1 r.2 (sorted ++ [i])
          | .err e => .err e
          | .ub => .ub

/-- `_topological_sort`, `src/configuration_space.c:1169-1213`. -/
def topologicalSort (s : Space) : Space × Out Unit :=
  match kahn s.params s.params.length (s.params.map (·.parents.length)) (roots 0 s.params) [] with
  | .ok l =>
    ({ s with sorted := l }, if l.length < s.params.length then .err .invalidGraph else .ok ())
  | .err e => (s, .err e)
  | .ub => (s, .ub)

/-- `_generate_constraints`, `src/configuration_space.c:1300-1307`. -/
def generateConstraints (s : Space) : Space × Out Unit :=
  match recomputeGraph s with
  | (s1, .ok _) =>
    match topologicalSort s1 with
    | (s2, .ok _) => ({ s2 with graphOk := true }, .ok ())
    | (s2, r) => (s2, r)
  | (s1, r) => (s1, r)

/-- `wrapper->condition = …` on the wrapper at position `i`. -/
def Space.withCondition (s : Space) (i : Nat) (c : Option Expr) : Space :=
  { s with params := s.params.modify i fun w => { w with condition := c } }

/-- `ccs_configuration_space_set_condition`, `src/configuration_space.c:1309-1335`. -/
def setCondition (s : Space) (index : Nat) (e : Expr) : Space × Out Unit :=
  match s.params[toUint index]? with
  | none => (s, .err .outOfBounds)
  | some w =>
    match w.condition with
    | some _ => (s, .err .invalidParameter)
    | none =>
      match generateConstraints { s.withCondition (toUint index) (some e) with graphOk := false } with
      | (s', .ok _) => (s', .ok ())
      | (s', r) => (s'.withCondition (toUint index) none, r)

/-- `ccs_configuration_space_get_condition`, `src/configuration_space.c:1337-1352`. -/
def Space.getCondition (s : Space) (index : Nat) : Out (Option Expr) :=
  match s.params[toUint index]? with
  | none => .err .outOfBounds
  | some w => .ok w.condition

/-- `if (!graph_ok) CCS_VALIDATE(_generate_constraints(…))`, `src/configuration_space.c:973-974` and others. -/
def ensureGraph (s : Space) : Space × Out Unit :=
  if s.graphOk then (s, .ok ()) else generateConstraints s

/-! ## Configurations

A configuration is its list of values. -/

section
variable (ops : FloatOps) (jen : Bytes → BitVec 32) (little : Bool)

/-- What `ccs_expression_eval(…, configuration_space, values, …)` is given.  Positions in the list of addresses
stand for the indexes recorded in the handle table: they are the same in every reachable space
(`C55_lookups_agree`). -/
def Space.env (s : Space) (vals : List Value) : Env := ⟨some s.handles, some vals⟩

/-- `result.type == CCS_DATA_TYPE_BOOL && result.value.i == CCS_TRUE`. -/
def isTrue (v : Value) : Bool := decide (v = .bool 1#64)

/-- The loop of `_set_actives`, `src/configuration_space.c:834-858`, on the positions left in
`sorted_indexes`. -/
def setActives (s : Space) : List Nat → List Value → Out (List Value)
  | [], vals => .ok vals
  | i :: is, vals =>
    match s.params[i]? with
    | none => .ub
    | some w =>
      match w.condition with
      | none => setActives s is vals
      | some e => do
        let r ← eval ops jen little (s.env vals) e
        setActives s is (if isTrue r then vals else vals.set i .inactive)

/-- `ccs_configuration_space_get_default_configuration`, `src/configuration_space.c:860-888`. -/
def getDefault (s : Space) : Out (List Value) :=
  setActives ops jen little s s.sorted (s.params.map (·.param.default))

/-- `_test_forbidden`, `src/configuration_space.c:890-913`: whether no clause is true. -/
def testForbidden (s : Space) (vals : List Value) : List Expr → Out Bool
  | [] => .ok true
  | c :: cs => do
    let r ← eval ops jen little (s.env vals) c
    if isTrue r then .ok false else testForbidden s vals cs

/-- Whether the condition of a wrapper holds, `src/configuration_space.c:929-942`. -/
def conditionHolds (s : Space) (vals : List Value) : Option Expr → Out Bool
  | none => .ok true
  | some e => do
    let r ← eval ops jen little (s.env vals) e
    .ok (isTrue r)

/-- The loop of `_check_configuration`, `src/configuration_space.c:927-959`. -/
def checkLoop (s : Space) (vals : List Value) : List Nat → Out Bool
  | [] => testForbidden ops jen little s vals s.clauses
  | i :: is =>
    match s.params[i]?, vals[i]? with
    | some w, some v => do
      let active ← conditionHolds ops jen little s vals w.condition
      if active ≠ decide (v ≠ .inactive) then .ok false
      else if active && !checkValue jen little w.param v then .ok false
      else checkLoop s vals is
    | _, _ => .ub

/-- `_check_configuration`, `src/configuration_space.c:915-960`. -/
def checkBody (s : Space) (vals : List Value) : Out Bool :=
  if vals.length ≠ s.params.length then .err .invalidConfiguration
  else checkLoop ops jen little s vals s.sorted

/-- `ccs_configuration_space_check_configuration_values`, `src/configuration_space.c:981-995`, and
`ccs_configuration_space_check_configuration` (`:962-979`) on a configuration of that space. -/
def checkSpace (s : Space) (vals : List Value) : Space × Out Bool :=
  match ensureGraph s with
  | (s', .ok _) => (s', checkBody ops jen little s' vals)
  | (s', .err e) => (s', .err e)
  | (s', .ub) => (s', .ub)

/-! ## Forbidden clauses -/

/-- The tests of `ccs_configuration_space_add_forbidden_clause`, `src/configuration_space.c:1400-1416`. -/
def clauseTest (s : Space) (e : Expr) : Out Unit := do
  checkContext e (some s.handles)
  let vals ← getDefault ops jen little s
  let d ← eval ops jen little (s.env vals) e
  if isTrue d then .err .invalidConfiguration else .ok ()

/-- `ccs_configuration_space_add_forbidden_clause`, `src/configuration_space.c:1392-1423`. -/
def addClause (s : Space) (e : Expr) : Space × Out Unit :=
  match clauseTest ops jen little s e with
  | .ok _ => ({ s with clauses := s.clauses ++ [e] }, .ok ())
  | .err x => (s, .err x)
  | .ub => (s, .ub)

/-! ## Sampling -/

/-- The parameters of a wrapper, `src/configuration_space.c:1022-1028`. -/
def paramsAt (ws : List PWrap) : List Nat → Out (List Param)
  | [] => .ok []
  | i :: is =>
    match ws[i]? with
    | none => .ub
    | some w => do
      let ps ← paramsAt ws is
      .ok (w.param :: ps)

/-- `values[hindex] = p_values[i]`, `src/configuration_space.c:1034-1037`. -/
def writeBack : List Nat → List Value → List Value → Out (List Value)
  | [], _, vals => .ok vals
  | _ :: _, [], _ => .ub
  | i :: is, v :: vs, vals => if i < vals.length then writeBack is vs (vals.set i v) else .ub

/-- The loop of `src/configuration_space.c:1020-1038`.  The wrapper at position `k` of `m` makes, in attempt `t`,
the request number `t * m + k` of its distribution.  The temporary array has room for `num_parameters` values
of unspecified contents. -/
def drawAll (s : Space) (t : Nat) : Nat → List DWrap → List Value → Out (List Value)
  | _, [], vals => .ok vals
  | k, d :: ds, vals =>
    if s.params.length < d.indexes.length then .ub
    else do
      let ps ← paramsAt s.params d.indexes
      let vs ← jointSample d.dist (t * s.dists.length + k) ps (List.replicate d.indexes.length .none)
      let vals' ← writeBack d.indexes vs vals
      drawAll s t (k + 1) ds vals'

/-- `_sample`, `src/configuration_space.c:997-1049`: attempt number `t` on a configuration of contents
`vals`. -/
def attempt (s : Space) (t : Nat) (vals : List Value) : Out (Bool × List Value) := do
  let drawn ← drawAll s t 0 s.dists vals
  let active ← setActives ops jen little s s.sorted drawn
  let found ← testForbidden ops jen little s active s.clauses
  .ok (found, active)

/-- A configuration as created by `ccs_create_configuration` without values (`src/configuration.c:103-106`). -/
def Space.blank (s : Space) : List Value := List.replicate s.params.length .none

/-- The loop of `src/configuration_space.c:1065-1073`; `left` more attempts may follow this one. -/
def sampleLoop (s : Space) : Nat → Nat → List Value → Out (List Value)
  | left, t, vals =>
    match attempt ops jen little s t vals with
    | .err e => .err e
    | .ub => .ub
    | .ok r =>
      if r.1 then .ok r.2
      else match left with
        | 0 => .err .samplingUnsuccessful
        | left + 1 => sampleLoop s left (t + 1) r.2

/-- `ccs_configuration_space_sample`, `src/configuration_space.c:1051-1079`; its attempts are numbered from
`t`. -/
def sampleOne (s : Space) (t : Nat) : Space × Out (List Value) :=
  match ensureGraph s with
  | (s', .ok _) => (s', sampleLoop ops jen little s' 99 t s'.blank)
  | (s', .err e) => (s', .err e)
  | (s', .ub) => (s', .ub)

/-- The loop of `src/configuration_space.c:1101-1117`: the configurations found and the outcome; `left` attempts
remain. -/
def samplesLoop (s : Space) (n : Nat) :
    Nat → Nat → List Value → List (List Value) → List (List Value) × Out Unit
  | left, t, cur, found =>
    if n ≤ found.length then (found, .ok ())
    else match left with
      | 0 => (found, .err .samplingUnsuccessful)
      | left + 1 =>
        match attempt ops jen little s t cur with
        | .err e => (found, .err e)
        | .ub => (found, .ub)
        | .ok r =>
          if r.1 then samplesLoop s n left (t + 1) s.blank (found ++ [r.2])
          else samplesLoop s n left (t + 1) r.2 found

/-- `ccs_configuration_space_samples`, `src/configuration_space.c:1081-1122`: the configurations written (the
rest of the array is NULL) and the outcome.  `100 * num_configurations` is computed in a `size_t`. -/
def sampleMany (s : Space) (t n : Nat) : Space × List (List Value) × Out Unit :=
  if n = 0 then (s, [], .ok ())
  else match ensureGraph s with
    | (s', .ok _) => (s', samplesLoop ops jen little s' n (100 * n % 18446744073709551616) t s'.blank [])
    | (s', .err e) => (s', [], .err e)
    | (s', .ub) => (s', [], .ub)

/-! ## Histories -/

/-- The calls that may change a configuration space. -/
inductive SpaceOp
  | addParameter (h : BitVec 64) (d : Option Dist)
  | setDistribution (d : Dist) (indexes : List Nat)
  | setCondition (index : Nat) (e : Expr)
  | addClause (e : Expr)
  | check (vals : List Value)
  | sample (t : Nat)
  | samples (t n : Nat)

/-- Forget the answer of a call. -/
def Out.void {α : Type} : Out α → Out Unit
  | .ok _ => .ok ()
  | .err e => .err e
  | .ub => .ub

/-- One call: the space afterwards and the outcome. -/
def Space.step (mem : BitVec 64 → Param) (mk : Nat → Param → Out Dist) (s : Space) :
    SpaceOp → Space × Out Unit
  | .addParameter h d => CCS.addParameter mem mk s h d
  | .setDistribution d is => CCS.setDistribution mk s d is
  | .setCondition i e => CCS.setCondition s i e
  | .addClause e => CCS.addClause ops jen little s e
  | .check vals => ((checkSpace ops jen little s vals).1, (checkSpace ops jen little s vals).2.void)
  | .sample t => ((sampleOne ops jen little s t).1, (sampleOne ops jen little s t).2.void)
  | .samples t n => ((sampleMany ops jen little s t n).1, (sampleMany ops jen little s t n).2.2)

/-- The space after a list of calls. -/
def Space.run (mem : BitVec 64 → Param) (mk : Nat → Param → Out Dist) (s : Space) :
    List SpaceOp → Space
  | [] => s
  | op :: rest => (Space.step ops jen little mem mk s op).1.run mem mk rest

end

end CCS
