import Verif.Model.Tree
import Verif.Model.Datum

/-!
# Tree spaces and tree configurations

Models `src/tree_space.c`, `src/tree_space_static.c`, `src/tree_space_dynamic.c` and `src/tree_configuration.c`.

The queries of a static tree space are those of the tree (`src/tree_space_static.c:120-162`): `Forest.nodeAt`,
`Forest.valuesAt`, `Forest.positionIsValid` at its root.
-/

namespace CCS

namespace Forest

/-- The walk of one sample in `_ccs_tree_space_samples`, `src/tree_space.c:156-173`: the position reached and the number of
draws used so far.  `rnd k` is the `k`-th draw of `gsl_rng_uniform`; `turns` bounds each selection. -/
def sampleWalk (guess : Int → F64 → Int) (turns : Nat) (rnd : Nat → F64) :
    Nat → Forest → Nat → Nat → Option (Out (List Nat × Nat))
  | 0, _, _, _ => none
  | fuel + 1, f, h, k =>
    match f.node h with
    | none => some .ub
    | some n =>
      match sampleIndex guess turns n (rnd k) with
      | none => none
      | some .ub => some .ub
      | some (.err e) => some (.err e)
      | some (.ok i) =>
        if i = n.arity then some (.ok ([], k + 1))
        else if i < 0 then some .ub
        else match n.children[i.toNat]? with
          | none => some .ub
          | some none => some (.ok ([i.toNat], k + 1))
          | some (some c) =>
            match sampleWalk guess turns rnd fuel f c (k + 1) with
            | none => none
            | some .ub => some .ub
            | some (.err e) => some (.err e)
            | some (.ok (p, k')) => some (.ok (i.toNat :: p, k'))

/-- `_ccs_tree_space_samples`, `src/tree_space.c:142-187`: one position for each configuration. -/
def samplePositions (guess : Int → F64 → Int) (turns : Nat) (rnd : Nat → F64) (fuel : Nat) (f : Forest) (root : Nat) :
    Nat → Nat → Option (Out (List (List Nat)))
  | 0, _ => some (.ok [])
  | n + 1, k =>
    match sampleWalk guess turns rnd fuel f root k with
    | none => none
    | some .ub => some .ub
    | some (.err e) => some (.err e)
    | some (.ok (p, k')) =>
      match samplePositions guess turns rnd fuel f root n k' with
      | none => none
      | some .ub => some .ub
      | some (.err e) => some (.err e)
      | some (.ok ps) => some (.ok (p :: ps))

end Forest

/-- What a child callback builds with `ccs_create_tree`, `ccs_tree_set_weight` and `ccs_tree_set_bias`. -/
structure Sprout where
  arity : Nat
  value : Value
  weight : F64
  bias : F64

/-- A dynamic tree space, `src/tree_space_dynamic.c:5-10`: the nodes, the root, and the positions for which the callback has
been called, last first. -/
structure DynTree where
  forest : Forest
  root : Nat
  calls : List (List Nat)

namespace DynTree

/-- What the callback does on success: a new node with a weight and a bias.  Its own errors are those of these calls. -/
def sprout (ops : FloatOps) (f : Forest) (s : Sprout) : Out (Forest × Nat) := do
  let (f1, c) ← f.create ops s.arity s.value
  let f2 ← (f1.setWeight ops 1 c s.weight).getD .ub
  let f3 ← (f2.setBias ops 1 c s.bias).getD .ub
  .ok (f3, c)

/-- `_ccs_tree_space_tree_get_child`, `src/tree_space_dynamic.c:144-163`.  The callback is a function `cb` of the position
of the child; when it fails the nodes it may have built are its own affair. -/
def getChild (ops : FloatOps) (cb : List Nat → Out Sprout) (fuel : Nat) (t : DynTree) (pos : List Nat) (parent index : Nat) :
    Option (DynTree × Out Nat) :=
  match t.forest.getChild parent index with
  | .ub => some (t, .ub)
  | .err e => some (t, .err e)
  | .ok (some c) => some (t, .ok c)
  | .ok none =>
    let t1 : DynTree := { t with calls := (pos ++ [index]) :: t.calls }
    match cb (pos ++ [index]) with
    | .ub => some (t1, .ub)
    | .err e => some (t1, .err e)
    | .ok s =>
      match sprout ops t.forest s with
      | .ub => some (t1, .ub)
      | .err e => some (t1, .err e)
      | .ok (f, c) =>
        match f.setChild ops fuel parent index c with
        | none => none
        | some .ub => some ({ t1 with forest := f }, .ub)
        | some (.err e) => some ({ t1 with forest := f }, .err e)
        | some (.ok f') => some ({ t1 with forest := f' }, .ok c)

/-- The loop of `_ccs_tree_space_dynamic_get_node_at_position`, `src/tree_space_dynamic.c:176-181`. -/
def walk (ops : FloatOps) (cb : List Nat → Out Sprout) (fuel : Nat) :
    DynTree → List Nat → Nat → List Nat → Option (DynTree × Out Nat)
  | t, _, h, [] => some (t, .ok h)
  | t, pos, h, i :: is =>
    match t.getChild ops cb fuel pos h i with
    | none => none
    | some (t1, .ub) => some (t1, .ub)
    | some (t1, .err e) => some (t1, .err e)
    | some (t1, .ok c) => walk ops cb fuel t1 (pos ++ [i]) c is

/-- `_ccs_tree_space_dynamic_get_node_at_position`, `src/tree_space_dynamic.c:165-184`. -/
def nodeAt (ops : FloatOps) (cb : List Nat → Out Sprout) (fuel : Nat) (t : DynTree) (position : List Nat) :
    Option (DynTree × Out Nat) :=
  t.walk ops cb fuel [] t.root position

/-- The loop of `_ccs_tree_space_dynamic_get_values_at_position`, `src/tree_space_dynamic.c:203-209`. -/
def walkValues (ops : FloatOps) (cb : List Nat → Out Sprout) (fuel : Nat) :
    DynTree → List Nat → Nat → List Nat → Option (DynTree × Out (List Value))
  | t, _, _, [] => some (t, .ok [])
  | t, pos, h, i :: is =>
    match t.getChild ops cb fuel pos h i with
    | none => none
    | some (t1, .ub) => some (t1, .ub)
    | some (t1, .err e) => some (t1, .err e)
    | some (t1, .ok c) =>
      match t1.forest.getValue c with
      | .ub => some (t1, .ub)
      | .err e => some (t1, .err e)
      | .ok v =>
        match walkValues ops cb fuel t1 (pos ++ [i]) c is with
        | some (t2, .ok vs) => some (t2, .ok (v :: vs))
        | r => r

/-- `_ccs_tree_space_dynamic_get_values_at_position`, `src/tree_space_dynamic.c:186-213`, with a buffer of `room`
values. -/
def valuesAt (ops : FloatOps) (cb : List Nat → Out Sprout) (fuel : Nat) (t : DynTree) (position : List Nat) (room : Nat) :
    Option (DynTree × Out (List Value)) :=
  if room < position.length + 1 then some (t, .err .invalidValue)
  else match t.forest.getValue t.root with
    | .ub => some (t, .ub)
    | .err e => some (t, .err e)
    | .ok v =>
      match t.walkValues ops cb fuel [] t.root position with
      | some (t1, .ok vs) => some (t1, .ok (v :: vs ++ List.replicate (room - (position.length + 1)) .none))
      | r => r

/-- The loop of `_ccs_tree_space_dynamic_check_position`, `src/tree_space_dynamic.c:229-238`. -/
def validLoop (ops : FloatOps) (cb : List Nat → Out Sprout) (fuel : Nat) :
    DynTree → List Nat → Nat → List Nat → Option (DynTree × Out Bool)
  | t, _, _, [] => some (t, .ok true)
  | t, pos, h, i :: is =>
    match t.forest.getArity h with
    | .ub => some (t, .ub)
    | .err e => some (t, .err e)
    | .ok a =>
      if a ≤ i then some (t, .ok false)
      else match t.getChild ops cb fuel pos h i with
        | none => none
        | some (t1, .ub) => some (t1, .ub)
        | some (t1, .err e) => some (t1, .err e)
        | some (t1, .ok c) => validLoop ops cb fuel t1 (pos ++ [i]) c is

/-- `_ccs_tree_space_dynamic_check_position`, `src/tree_space_dynamic.c:215-241`. -/
def positionIsValid (ops : FloatOps) (cb : List Nat → Out Sprout) (fuel : Nat) (t : DynTree) (position : List Nat) :
    Option (DynTree × Out Bool) :=
  t.validLoop ops cb fuel [] t.root position

/-- The queries on positions. -/
inductive Query
  | node (position : List Nat)
  | values (position : List Nat) (room : Nat)
  | valid (position : List Nat)

/-- The space after one query, whatever its answer. -/
def query (ops : FloatOps) (cb : List Nat → Out Sprout) (fuel : Nat) (t : DynTree) : Query → Option DynTree
  | .node p => (t.nodeAt ops cb fuel p).map (·.1)
  | .values p room => (t.valuesAt ops cb fuel p room).map (·.1)
  | .valid p => (t.positionIsValid ops cb fuel p).map (·.1)

end DynTree

/-- `_ccs_tree_configuration_data_s`: a tree space handle and a position of 64-bit indexes. -/
structure TreeConfig where
  space : BitVec 64
  position : List (BitVec 64)
  deriving DecidableEq

namespace TreeConfig

/-- `CCS_CMP` of `src/tree_configuration.c:236`, on unsigned numbers. -/
def cmp3 (a b : Nat) : Int := if a < b then -1 else if b < a then 1 else 0

/-- The loop of `ccs_tree_configuration_cmp`, `src/tree_configuration.c:264-268`. -/
def cmpLoop : List (BitVec 64) → List (BitVec 64) → Int
  | a :: as, b :: bs => if cmp3 a.toNat b.toNat ≠ 0 then cmp3 a.toNat b.toNat else cmpLoop as bs
  | _, _ => 0

/-- `ccs_tree_configuration_cmp`, `src/tree_configuration.c:238-270`, on configurations at addresses `pa` and `pb`. -/
def cmp (pa pb : BitVec 64) (a b : TreeConfig) : Int :=
  if pa = pb then 0
  else if cmp3 a.space.toNat b.space.toNat ≠ 0 then cmp3 a.space.toNat b.space.toNat
  else if cmp3 a.position.length b.position.length ≠ 0 then cmp3 a.position.length b.position.length
  else cmpLoop a.position b.position

/-- The loop of `ccs_tree_configuration_hash`, `src/tree_configuration.c:288-291`. -/
def hashLoop (jen : Bytes → BitVec 32) (little : Bool) (h : BitVec 32) : List (BitVec 64) → BitVec 32
  | [] => h
  | i :: is => hashLoop jen little (hashCombine h (jen (hostBytes little 8 i))) is

/-- `ccs_tree_configuration_hash`, `src/tree_configuration.c:273-294`. -/
def hash (jen : Bytes → BitVec 32) (little : Bool) (c : TreeConfig) : BitVec 32 :=
  hashLoop jen little
    (hashCombine (jen (hostBytes little 8 c.space)) (jen (hostBytes little 8 (BitVec.ofNat 64 c.position.length))))
    c.position

/-- `ccs_tree_configuration_get_position`, `src/tree_configuration.c:165-187`: the buffer of the caller after the call (it is
not padded) and the size. -/
def getPosition (c : TreeConfig) (buffer : Option (List (BitVec 64))) : Out (Option (List (BitVec 64)) × Nat) :=
  match buffer with
  | none => .ok (none, c.position.length)
  | some b =>
    if b.length < c.position.length then .err .invalidValue
    else .ok (some (c.position ++ b.drop c.position.length), c.position.length)

/-- `ccs_tree_space_check_configuration`, `src/tree_space.c:115-132`, for a static space at `handle` over `root`. -/
def checkIn (f : Forest) (root : Nat) (handle : BitVec 64) (c : TreeConfig) : Out Bool := do
  refute (c.space ≠ handle) .invalidConfiguration
  f.positionIsValid root (c.position.map (·.toNat))

end TreeConfig

end CCS
