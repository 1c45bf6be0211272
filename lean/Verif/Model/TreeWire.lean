import Verif.Model.TreeSpace
import Verif.Model.WireObj

/-!
# Serialization of trees

Models `src/tree.c:18-135` and `src/tree_deserialize.h`.
-/

namespace CCS

/-- `CCS_OBJECT_TYPE_TREE`, `include/cconfigspace/base.h:285`. -/
def treeType : BitVec 32 := 15#32

/-- The tree nodes together with what the user data callbacks know of them: the bytes of the user data of each node
(empty when there are none). -/
structure Grove where
  trees : Forest
  data : Nat → Bytes

namespace Forest

/-- The loop of `_ccs_serialize_bin_size_ccs_tree_data`, `src/tree.c:27-34`. -/
def szKids (sub : Nat → Out Nat) : List (Option Nat) → Out Nat
  | [] => .ok 0
  | none :: cs => do
    let r ← szKids sub cs
    .ok (szBool 0#32 + r)
  | some c :: cs => do
    let n ← sub c
    let r ← szKids sub cs
    .ok (szBool 1#32 + n + r)

/-- `_ccs_tree_serialize_size`, `src/tree.c:18-38`, `:65-76`, `:92-112`, down to nesting depth `fuel`.  `addr` gives the
addresses of the nodes. -/
def szTreeFuel (g : Grove) (addr : Nat → BitVec 64) : Nat → Nat → Out Nat
  | 0, _ => .ub
  | fuel + 1, h =>
    match g.trees.node h with
    | none => .ub
    | some n => do
      let k ← szKids (szTreeFuel g addr fuel) n.children
      let v ← szDatum n.value
      .ok (szObj treeType (addr h) + szSize n.arity + szU64Fixed (n.weights.getD n.arity F64.zero) + k +
        szU64Fixed n.bias + v + szUserData (g.data h))

/-- The body of the loop of `_ccs_serialize_bin_ccs_tree_data`, `src/tree.c:51-56`. -/
def serKid (sub : Nat → Wr) : Option Nat → Wr
  | none => serBool 0#32
  | some c => serBool 1#32 ⨟ sub c

/-- `_ccs_tree_serialize`, `src/tree.c:40-63`, `:78-90`, `:114-135`, down to nesting depth `fuel`. -/
def serTreeFuel (little : Bool) (g : Grove) (addr : Nat → BitVec 64) : Nat → Nat → Wr
  | 0, _ => fun _ => .ub
  | fuel + 1, h =>
    match g.trees.node h with
    | none => fun _ => .ub
    | some n =>
      serObj treeType (addr h) ⨟ serSize n.arity ⨟ serU64Fixed little (n.weights.getD n.arity F64.zero) ⨟
        Wr.all (serKid (serTreeFuel little g addr fuel)) n.children ⨟
        serU64Fixed little n.bias ⨟ serDatum little n.value ⨟ serUserData (g.data h)

/-- Same as `szTreeFuel`.  A path longer than the number of nodes goes through a cycle: the recursion of the code then never
ends and overflows the stack, which is undefined behaviour. -/
def szTree (g : Grove) (addr : Nat → BitVec 64) (h : Nat) : Out Nat := szTreeFuel g addr (g.trees.length + 1) h

/-- Same as `serTreeFuel`, with the same remark. -/
def serTree (little : Bool) (g : Grove) (addr : Nat → BitVec 64) (h : Nat) : Wr :=
  serTreeFuel little g addr (g.trees.length + 1) h

/-- The loop of `_ccs_deserialize_bin_ccs_tree_data`, `src/tree_deserialize.h:42-51`: the children in order, `none` for a
missing one. -/
def deKids (sub : Grove → Rd (Grove × Nat)) : Nat → Grove → Rd (Grove × List (Option Nat))
  | 0, g => pure (g, [])
  | n + 1, g => do
    let present ← deBool
    if present = 0#32 then
      let (g', cs) ← deKids sub n g
      pure (g', none :: cs)
    else
      let (g1, c) ← sub g
      let (g', cs) ← deKids sub n g1
      pure (g', some c :: cs)

/-- The loop of `_ccs_deserialize_bin_tree`, `src/tree_deserialize.h:91-96`.  The parent is a root, so that one turn of the
loop of `_ccs_tree_update_weight` is enough. -/
def attach (ops : FloatOps) (h : Nat) : Forest → Nat → List (Option Nat) → Out Forest
  | f, _, [] => .ok f
  | f, i, none :: cs => attach ops h f (i + 1) cs
  | f, i, some c :: cs => do
    let f' ← (f.setChild ops 1 h i c).getD .ub
    attach ops h f' (i + 1) cs

/-- `_ccs_deserialize_bin_tree` and `_ccs_tree_deserialize`, `src/tree_deserialize.h:24-141`, down to nesting depth `fuel`.
`DynTree.sprout` stands for lines 85-90: `ccs_create_tree`, `ccs_tree_set_weight` and `ccs_tree_set_bias`.  Simplifications:
the insertion of the tree in the handle map (`:97-102`) is modelled with the containing objects, and what a failed call
leaves behind (`:106-114`, everything built is released) is not represented. -/
def deTreeFuel (ops : FloatOps) (little : Bool) : Nat → Grove → Rd (Grove × Nat)
  | 0, _ => Rd.undef
  | fuel + 1, g => do
    let o ← deObj
    Rd.lift (refute (o.1 ≠ treeType) .invalidType)
    let arity ← deSize
    let weight ← deU64Fixed little
    let (g1, cs) ← deKids (deTreeFuel ops little fuel) arity g
    let bias ← deU64Fixed little
    let value ← deDatum little
    let (f2, h) ← Rd.lift (DynTree.sprout ops g1.trees ⟨arity, value.v, weight, bias⟩)
    let f3 ← Rd.lift (attach ops h f2 0 cs)
    let ud ← deUserData
    pure (⟨f3, fun k => if k = h then ud else g1.data k⟩, h)

/-- Same, with as much fuel as there are bytes: each level consumes at least one byte, so that the fuel is never
exhausted. -/
def deTree (ops : FloatOps) (little : Bool) (g : Grove) : Rd (Grove × Nat) := fun bs =>
  deTreeFuel ops little (bs.length + 1) g bs

end Forest

end CCS
