import Verif.Model.BoundTree
import Verif.Model.TreeSpace

/-!
# Static tree spaces and tree configurations used from Python and Ruby

Classes `StaticTreeSpace` and `TreeConfiguration` of `bindings/python/cconfigspace/tree_space.py`, `tree_configuration.py`,
`bindings/ruby/lib/cconfigspace/tree_space.rb` and `tree_configuration.rb`, on top of the calls of `Model/TreeSpace`.

Simplifications: an object is the handle it holds, with the answers it keeps; exceptions of the languages that do not come from the library are the
code EXTERNAL; of dynamic spaces only what their configurations keep is modelled; of the members kept after a first call, the space, the size, the position and the hash are not
modelled, since the library never changes them.
-/

namespace CCS.BoundTreeSpace

open CCS CCS.BoundInterval CCS.BoundTree

/-- A static tree space, `src/tree_space_static.c:5-9`: its handle and the root of its tree. -/
structure Place where
  handle : BitVec 64
  root : Nat

/-- An object `TreeConfiguration`: what the library holds, and the answers kept by `values` (`tree_configuration.py:66-75`, `@values` in
`tree_configuration.rb:53-60`) and `node` (`tree_configuration.py:77-85`, `memoize: true` in `tree_configuration.rb:15`). -/
structure Conf (α : Type) where
  config : TreeConfig
  keptValues : Option (List α)
  keptNode : Option Nat
  deriving DecidableEq

/-- `TreeConfiguration.__init__`, `tree_configuration.py:18-29`, and `TreeConfiguration#initialize`, `tree_configuration.rb:18-30`, with
`ccs_create_tree_configuration`, `src/tree_configuration.c:115-152`, which does not look at the position. -/
def create {α : Type} (lang : Lang) (s : Place) (p : List Int) : Out (Conf α) := do
  let q ← positionGiven lang p
  .ok ⟨⟨s.handle, q.map (BitVec.ofNat 64)⟩, none, none⟩

/-- `TreeConfiguration.position`, `tree_configuration.py:45-64`, and `TreeConfiguration#position`, `tree_configuration.rb:36-51`: the size, then a
buffer of that size. -/
def position (c : TreeConfig) : Out (List Nat) := do
  let r ← c.getPosition none
  let r ← c.getPosition (some (List.replicate r.2 0#64))
  match r.1 with
  | some b => .ok (b.map (·.toNat))
  | none => .ub

section
variable {α : Type} (t : Tongue α)

/-- `TreeSpace.get_values_at_position`, `tree_space.py:89-95`, and `TreeSpace#get_values_at_position`, `tree_space.rb:65-73`, with
`src/tree_space.c:82-97` and `src/tree_space_static.c:134-148`. -/
def valuesAt (f : Forest) (s : Place) (p : List Int) : Out (List α) := do
  let q ← positionGiven t.lang p
  let vs ← f.valuesAt s.root q (p.length + 1)
  takeAll t vs

/-- `TreeSpace.get_node_at_position`, `tree_space.py:81-87`, and `TreeSpace#get_node_at_position`, `tree_space.rb:56-63`, with
`src/tree_space.c:66-80` and `src/tree_space_static.c:120-132`. -/
def nodeAt (lang : Lang) (f : Forest) (s : Place) (p : List Int) : Out Nat := do
  let q ← positionGiven lang p
  f.nodeAt s.root q

/-- `TreeSpace.check_position`, `tree_space.py:97-103`, and `TreeSpace#check_position`, `tree_space.rb:75-82`, with `src/tree_space.c:99-113` and
`src/tree_space_static.c:150-162`. -/
def checkPosition (lang : Lang) (f : Forest) (s : Place) (p : List Int) : Out Bool := do
  let q ← positionGiven lang p
  f.positionIsValid s.root q

/-- `TreeSpace.check_configuration`, `tree_space.py:105-109`, and `TreeSpace#check_configuration`, `tree_space.rb:84-88`. -/
def checkConfiguration (f : Forest) (s : Place) (c : Conf α) : Out Bool := TreeConfig.checkIn f s.root s.handle c.config

/-- `TreeConfiguration.check`, `tree_configuration.py:87-91`, and `TreeConfiguration#check`, `tree_configuration.rb:62-66`, with
`src/tree_configuration.c:222-234`.  The space `s` is the one of the configuration. -/
def check (f : Forest) (s : Place) (c : Conf α) : Out Bool := f.positionIsValid s.root (c.config.position.map BitVec.toNat)

/-- `TreeConfiguration.values`, `tree_configuration.py:66-75`, and `TreeConfiguration#values`, `tree_configuration.rb:53-60`, with
`src/tree_configuration.c:189-208`: the object afterwards, and the answer. -/
def values (f : Forest) (s : Place) (c : Conf α) : Conf α × Out (List α) :=
  match c.keptValues with
  | some xs => (c, .ok xs)
  | none =>
    match (do
      let vs ← f.valuesAt s.root (c.config.position.map BitVec.toNat) (c.config.position.length + 1)
      takeAll t vs) with
    | .ok xs => ({ c with keptValues := some xs }, .ok xs)
    | r => (c, r)

/-- `TreeConfiguration.node`, `tree_configuration.py:77-85`, and `tree_configuration.rb:15`, with `src/tree_configuration.c:209-220`. -/
def node (f : Forest) (s : Place) (c : Conf α) : Conf α × Out Nat :=
  match c.keptNode with
  | some h => (c, .ok h)
  | none =>
    match f.nodeAt s.root (c.config.position.map BitVec.toNat) with
    | .ok h => ({ c with keptNode := some h }, .ok h)
    | r => (c, r)

end

/-- The loop of `_ccs_tree_space_samples`, `src/tree_space.c:155-182`, with the configurations it has made when it stops; `rnd k` is the `k`-th draw. -/
def drawConfigs (guess : Int → F64 → Int) (turns : Nat) (rnd : Nat → F64) (fuel : Nat) (f : Forest) (s : Place) :
    Nat → Nat → Option (List TreeConfig × Out Unit)
  | 0, _ => some ([], .ok ())
  | n + 1, k =>
    match f.sampleWalk guess turns rnd fuel s.root k with
    | none => none
    | some .ub => some ([], .ub)
    | some (.err e) => some ([], .err e)
    | some (.ok (p, k')) =>
      match drawConfigs guess turns rnd fuel f s n k' with
      | none => none
      | some (cs, r) => some (⟨s.handle, p.map (BitVec.ofNat 64)⟩ :: cs, r)

/-- `TreeSpace.samples`, `tree_space.py:117-123`, and `TreeSpace#samples`, `tree_space.rb:96-101`: the configurations that the program is left without
although the library has made them, and the answer.  A negative count makes no array in either language. -/
def samples {α : Type} (guess : Int → F64 → Int) (turns : Nat) (rnd : Nat → F64) (fuel : Nat) (f : Forest) (s : Place) (count : Int) :
    Option (List TreeConfig × Out (List (Conf α))) :=
  if count = 0 then some ([], .ok [])
  else if count < 0 then some ([], .err .external)
  else match drawConfigs guess turns rnd fuel f s count.toNat 0 with
    | none => none
    | some (cs, .ok ()) => some ([], .ok (cs.map (⟨·, none, none⟩)))
    | some (cs, .err e) => some (cs, .err e)
    | some (cs, .ub) => some (cs, .ub)

/-- `values` of a configuration of a dynamic space, as `values` above, with `src/tree_space_dynamic.c:186-213` behind `src/tree_configuration.c:189-208`: the space
afterwards, the object afterwards, and the answer; `none` as in `DynTree.valuesAt`. -/
def dynValues {α : Type} (t : Tongue α) (ops : FloatOps) (cb : List Nat → Out Sprout) (fuel : Nat) (d : DynTree) (c : Conf α) :
    Option (DynTree × Conf α × Out (List α)) :=
  match c.keptValues with
  | some xs => some (d, c, .ok xs)
  | none => (d.valuesAt ops cb fuel (c.config.position.map BitVec.toNat) (c.config.position.length + 1)).map fun x =>
    match x.2 >>= takeAll t with
    | .ok xs => (x.1, { c with keptValues := some xs }, .ok xs)
    | r => (x.1, c, r)

/-- `node` of a configuration of a dynamic space, as `node` above, with `src/tree_space_dynamic.c:165-184` behind `src/tree_configuration.c:209-220`. -/
def dynNode {α : Type} (ops : FloatOps) (cb : List Nat → Out Sprout) (fuel : Nat) (d : DynTree) (c : Conf α) : Option (DynTree × Conf α × Out Nat) :=
  match c.keptNode with
  | some h => some (d, c, .ok h)
  | none => (d.nodeAt ops cb fuel (c.config.position.map BitVec.toNat)).map fun x =>
    match x.2 with
    | .ok h => (x.1, { c with keptNode := some h }, .ok h)
    | r => (x.1, c, r)

end CCS.BoundTreeSpace
