import Verif.Model.Roulette

/-!
# Trees

Models `src/tree.c`, `src/tree_internal.h`.  Tree nodes live in a heap: a handle is an index in the list, and
`none` stands for a node that has been destroyed.  `CCS_CHECK_OBJ` on a handle that is not a live node is undefined
behaviour (a dangling pointer).  Loops that follow the parent links take a number of turns `fuel`; `none` means
that the call has not returned after that many turns, so that a call returns `r` when some `fuel` gives `some r`.
-/

namespace CCS

/-- `_ccs_tree_data_s`, `src/tree_internal.h:18-29`. -/
structure TreeNode where
  arity : Nat
  /-- The weights of the children, then the node's own weight. -/
  weights : List F64
  areas : List F64
  children : List (Option Nat)
  bias : F64
  value : Value
  sum : F64
  parent : Option Nat
  index : Nat
  deriving DecidableEq

/-- The nodes created so far, `none` once destroyed. -/
abbrev Forest := List (Option TreeNode)

namespace Forest

/-- The node a handle points to. -/
def node (f : Forest) (h : Nat) : Option TreeNode :=
  match f[h]? with
  | some (some n) => some n
  | _ => none

/-- Writing to the fields of a node. -/
def put (f : Forest) (h : Nat) (n : TreeNode) : Forest := f.set h (some n)

/-- The weights of a new node, `src/tree.c:171-172`. -/
def unitWeights (arity : Nat) : List F64 := List.replicate (arity + 1) F64.one

/-- The new node of `ccs_create_tree`, `src/tree.c:161-194`.  Simplification: the conversion of `arity + 1` to a double
(`:173`) is represented by the sum of as many `1.0`, which is the same number up to `2^53`. -/
def fresh (ops : FloatOps) (arity : Nat) (value : Value) : TreeNode where
  arity := arity
  weights := unitWeights arity
  areas := normalizeAreas ops (unitWeights arity) (ops.div F64.one (ops.total (unitWeights arity)))
  children := List.replicate arity none
  bias := F64.one
  value := value
  sum := ops.total (unitWeights arity)
  parent := none
  index := 0

/-- `ccs_create_tree`, `src/tree.c:140-197`. -/
def create (ops : FloatOps) (f : Forest) (arity : Nat) (value : Value) : Out (Forest × Nat) := do
  refute (4 < value.tag) .invalidValue
  refute (2 ^ 63 - 2 < arity) .invalidValue
  refute (value = .str none) .invalidValue
  .ok (f ++ [some (fresh ops arity value)], f.length)

/-- The node after one turn of the loop of `_ccs_tree_update_weight`, `src/tree.c:225-235`. -/
def reweigh (ops : FloatOps) (n : TreeNode) (index : Nat) (weight : F64) : TreeNode :=
  let ws := n.weights.set index weight
  let s := ops.total ws
  { n with
    weights := ws
    sum := s
    areas := if F64.lt F64.zero s then normalizeAreas ops ws (ops.div F64.one s) else n.areas }

/-- The loop of `_ccs_tree_update_weight`, `src/tree.c:224-242`: up the parent links. -/
def updateLoop (ops : FloatOps) : Nat → Forest → Nat → Nat → F64 → Option (Out Forest)
  | 0, _, _, _, _ => none
  | fuel + 1, f, h, index, weight =>
    match f.node h with
    | none => some .ub
    | some n =>
      match n.parent with
      | none => some (.ok (f.put h (reweigh ops n index weight)))
      | some p =>
        updateLoop ops fuel (f.put h (reweigh ops n index weight)) p n.index
          (ops.mul (reweigh ops n index weight).sum n.bias)

/-- `_ccs_tree_update_weight`, `src/tree.c:217-244`. -/
def updateWeight (ops : FloatOps) (fuel : Nat) (f : Forest) (h : Nat) (index : Nat) (weight : F64) :
    Option (Out Forest) :=
  match f.node h with
  | none => some .ub
  | some n =>
    if n.arity < index then some (.err .outOfBounds)
    else if F64.feq weight (n.weights.getD index F64.zero) then some (.ok f)
    else updateLoop ops fuel f h index weight

/-- `_ccs_tree_update_bias`, `src/tree.c:246-259`. -/
def updateBias (ops : FloatOps) (fuel : Nat) (f : Forest) (h : Nat) (bias : F64) : Option (Out Forest) :=
  match f.node h with
  | none => some .ub
  | some n =>
    if F64.feq bias n.bias then some (.ok f)
    else match n.parent with
      | none => some (.ok (f.put h { n with bias := bias }))
      | some p => updateWeight ops fuel (f.put h { n with bias := bias }) p n.index (ops.mul n.sum bias)

/-- Lines `src/tree.c:276-278`: the child gets its parent, the parent its child. -/
def link (f : Forest) (h : Nat) (index : Nat) (c : Nat) : Forest :=
  match f.node c with
  | none => f
  | some m =>
    match (f.put c { m with parent := some h, index := index }).node h with
    | none => f
    | some n =>
      (f.put c { m with parent := some h, index := index }).put h
        { n with children := n.children.set index (some c) }

/-- `ccs_tree_set_child`, `src/tree.c:261-292`.  The recovery of `:285-290` is never reached: the only error of
`_ccs_tree_update_weight` is an index above the arity. -/
def setChild (ops : FloatOps) (fuel : Nat) (f : Forest) (h : Nat) (index : Nat) (c : Nat) : Option (Out Forest) :=
  match f.node h, f.node c with
  | some n, some m =>
    if n.arity ≤ index then some (.err .outOfBounds)
    else if (n.children.getD index none).isSome then some (.err .invalidValue)
    else if m.parent.isSome || m.index != 0 then some (.err .invalidTree)
    else updateWeight ops fuel (f.link h index c) h index (ops.mul m.sum m.bias)
  | _, _ => some .ub

/-- `ccs_tree_set_weight`, `src/tree.c:341-356`. -/
def setWeight (ops : FloatOps) (fuel : Nat) (f : Forest) (h : Nat) (weight : F64) : Option (Out Forest) :=
  match f.node h with
  | none => some .ub
  | some n =>
    if F64.lt weight F64.zero then some (.err .invalidValue)
    else updateWeight ops fuel f h n.arity weight

/-- `ccs_tree_set_bias`, `src/tree.c:367-381`. -/
def setBias (ops : FloatOps) (fuel : Nat) (f : Forest) (h : Nat) (bias : F64) : Option (Out Forest) :=
  match f.node h with
  | none => some .ub
  | some _ =>
    if F64.lt bias F64.zero then some (.err .invalidValue)
    else updateBias ops fuel f h bias

/-- The loop of `_ccs_tree_del`, `src/tree.c:8-14`: the children become roots. -/
def detach (f : Forest) : List (Option Nat) → Forest
  | [] => f
  | none :: cs => detach f cs
  | some c :: cs =>
    match f.node c with
    | none => detach f cs
    | some m => detach (f.put c { m with parent := none, index := 0 }) cs

/-- `_ccs_tree_del`, `src/tree.c:4-16`, when the last reference to a node goes.  The references the node had on its
children go too: a child that loses its last reference is destroyed by a further call. -/
def destroy (f : Forest) (h : Nat) : Out Forest :=
  match f.node h with
  | none => .ub
  | some n => .ok ((f.detach n.children).set h none)

/-- `ccs_tree_get_child`, `src/tree.c:294-303`. -/
def getChild (f : Forest) (h : Nat) (index : Nat) : Out (Option Nat) :=
  match f.node h with
  | none => .ub
  | some n => if n.arity ≤ index then .err .outOfBounds else .ok (n.children.getD index none)

/-- `ccs_tree_get_children`, `src/tree.c:305-329`, with a buffer of `room` handles (`none`: NULL buffer). -/
def getChildren (f : Forest) (h : Nat) (room : Option Nat) : Out (List (Option Nat) × Nat) :=
  match f.node h with
  | none => .ub
  | some n =>
    match room with
    | none => .ok ([], n.arity)
    | some k =>
      if k < n.arity then .err .invalidValue
      else .ok (n.children ++ List.replicate (k - n.arity) none, n.arity)

/-- `ccs_tree_get_weight`, `src/tree.c:331-339`. -/
def getWeight (f : Forest) (h : Nat) : Out F64 :=
  match f.node h with
  | none => .ub
  | some n => .ok (n.weights.getD n.arity F64.zero)

/-- `ccs_tree_get_bias`, `src/tree.c:358-365`. -/
def getBias (f : Forest) (h : Nat) : Out F64 :=
  match f.node h with
  | none => .ub
  | some n => .ok n.bias

/-- `ccs_tree_get_value`, `src/tree.c:199-206`. -/
def getValue (f : Forest) (h : Nat) : Out Value :=
  match f.node h with
  | none => .ub
  | some n => .ok n.value

/-- `ccs_tree_get_arity`, `src/tree.c:208-215`. -/
def getArity (f : Forest) (h : Nat) : Out Nat :=
  match f.node h with
  | none => .ub
  | some n => .ok n.arity

/-- `ccs_tree_get_parent`, `src/tree.c:383-393`. -/
def getParent (f : Forest) (h : Nat) : Out (Option (Nat × Nat)) :=
  match f.node h with
  | none => .ub
  | some n => .ok (n.parent.map (·, n.index))

/-- The loops of `ccs_tree_get_position` (`src/tree.c:407-412`, `:419-422`) and of `ccs_tree_get_values` (`:439-444`, `:451-454`): the nodes met
going up from a node, the node itself last. -/
def upwards : Nat → Forest → Nat → Option (Out (List TreeNode))
  | 0, _, _ => none
  | fuel + 1, f, h =>
    match f.node h with
    | none => some .ub
    | some n =>
      match n.parent with
      | none => some (.ok [n])
      | some p =>
        match upwards fuel f p with
        | some (.ok ns) => some (.ok (ns ++ [n]))
        | r => r

/-- `ccs_tree_get_position`, `src/tree.c:395-427`, with a buffer of `room` positions (`none`: NULL buffer): the buffer and
the depth. -/
def getPosition (fuel : Nat) (f : Forest) (h : Nat) (room : Option Nat) : Option (Out (List Nat × Nat)) :=
  match upwards fuel f h with
  | none => none
  | some .ub => some .ub
  | some (.err e) => some (.err e)
  | some (.ok ns) =>
    match room with
    | none => some (.ok ([], ns.length - 1))
    | some k =>
      if k < ns.length - 1 then some (.err .invalidValue)
      else some (.ok ((ns.drop 1).map (·.index) ++ List.replicate (k - (ns.length - 1)) 0, ns.length - 1))

/-- `ccs_tree_get_values`, `src/tree.c:429-459`, with a buffer of `room` values (`none`: NULL buffer). -/
def getValues (fuel : Nat) (f : Forest) (h : Nat) (room : Option Nat) : Option (Out (List Value × Nat)) :=
  match upwards fuel f h with
  | none => none
  | some .ub => some .ub
  | some (.err e) => some (.err e)
  | some (.ok ns) =>
    match room with
    | none => some (.ok ([], ns.length))
    | some k =>
      if k < ns.length then some (.err .invalidValue)
      else some (.ok (ns.map (·.value) ++ List.replicate (k - ns.length) .none, ns.length))

/-- The loop of `ccs_tree_position_is_valid`, `src/tree.c:471-479`; the pointer `tree` may be NULL. -/
def validLoop (f : Forest) : Option Nat → List Nat → Out Bool
  | _, [] => .ok true
  | none, _ :: _ => .ok false
  | some h, i :: is =>
    match f.node h with
    | none => .ub
    | some n => if n.arity ≤ i then .ok false else validLoop f (n.children.getD i none) is

/-- `ccs_tree_position_is_valid`, `src/tree.c:461-480`. -/
def positionIsValid (f : Forest) (h : Nat) (position : List Nat) : Out Bool :=
  match f.node h with
  | none => .ub
  | some _ => validLoop f (some h) position

/-- One step of the walks of `src/tree.c:497-498` and `:517-518`. -/
def stepDown (f : Forest) (h : Nat) (index : Nat) : Out Nat := do
  match ← f.getChild h index with
  | none => .err .invalidTree
  | some c => .ok c

/-- The loop of `ccs_tree_get_node_at_position`, `src/tree.c:516-519`. -/
def walk (f : Forest) : Nat → List Nat → Out Nat
  | h, [] => .ok h
  | h, i :: is => do
    let c ← f.stepDown h i
    walk f c is

/-- `ccs_tree_get_node_at_position`, `src/tree.c:506-522`. -/
def nodeAt (f : Forest) (h : Nat) (position : List Nat) : Out Nat :=
  match f.node h with
  | none => .ub
  | some _ => f.walk h position

/-- The loop of `ccs_tree_get_values_at_position`, `src/tree.c:496-500`. -/
def walkValues (f : Forest) : Nat → List Nat → Out (List Value)
  | _, [] => .ok []
  | h, i :: is => do
    let c ← f.stepDown h i
    let v ← f.getValue c
    let vs ← walkValues f c is
    .ok (v :: vs)

/-- `ccs_tree_get_values_at_position`, `src/tree.c:482-504`, with a buffer of `room` values. -/
def valuesAt (f : Forest) (h : Nat) (position : List Nat) (room : Nat) : Out (List Value) :=
  match f.node h with
  | none => .ub
  | some n => do
    refute (room < position.length + 1) .invalidValue
    let vs ← f.walkValues h position
    .ok (n.value :: vs ++ List.replicate (room - (position.length + 1)) .none)

/-- `_ccs_tree_samples`, `src/tree_internal.h:31-50`, for one index; `rnd` is the draw of `gsl_rng_uniform`. -/
def sampleIndex (guess : Int → F64 → Int) (fuel : Nat) (n : TreeNode) (rnd : F64) : Option (Out Int) :=
  if F64.feq n.sum F64.zero then some (.err .invalidDistribution)
  else search guess fuel (n.arity + 1) n.areas rnd

/-- The calls that change trees. -/
inductive Op
  | create (arity : Nat) (value : Value)
  | setChild (h index c : Nat)
  | setWeight (h : Nat) (weight : F64)
  | setBias (h : Nat) (bias : F64)
  | destroy (h : Nat)

/-- One call. -/
def step (ops : FloatOps) (fuel : Nat) (f : Forest) : Op → Option (Out Forest)
  | .create arity value => some ((·.1) <$> f.create ops arity value)
  | .setChild h index c => f.setChild ops fuel h index c
  | .setWeight h weight => f.setWeight ops fuel h weight
  | .setBias h bias => f.setBias ops fuel h bias
  | .destroy h => some (f.destroy h)

end Forest

end CCS
