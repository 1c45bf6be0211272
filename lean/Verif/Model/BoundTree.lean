import Verif.Model.BoundInterval
import Verif.Model.RbDatum
import Verif.Model.PyDatum
import Verif.Model.Tree

/-!
# Trees used from Python and Ruby

Class `Tree` of `bindings/python/cconfigspace/tree.py` and `bindings/ruby/lib/cconfigspace/tree.rb`, on top of the calls of
`Model/Tree`.

Simplifications: an object `Tree` is the handle it holds (the references it holds are those of `Model/Wrappers`); exceptions of the
languages that do not come from the library are the code EXTERNAL; the members that Python keeps after a first call (`_value`, `_arity`) are not
modelled, since the library never changes the value and the arity of a node.
-/

namespace CCS.BoundTree

open CCS CCS.BoundInterval

/-- How a language gives values to the library and takes them back. -/
structure Tongue (α : Type) where
  lang : Lang
  give : α → Out Datum
  take : Datum → Out α

/-- `Datum(value)`, `bindings/python/cconfigspace/tree.py:30`, and `v.value`, `:49`. -/
def python : Tongue Py.Val := ⟨.python, Py.toDatum, Py.fromDatum⟩

/-- `Datum::from_value(value)`, `bindings/ruby/lib/cconfigspace/tree.rb:33`, and `Datum::new(ptr).value`, `:45`.  Trees hold no objects, so
that no count of references changes. -/
def ruby : Tongue Rb.Val := ⟨.ruby, Rb.toDatum, fun d => do
  let x ← Rb.fromDatum (fun _ => 0) d
  .ok x.1⟩

/-- An integer given where `c_size_t` (`bindings/python/cconfigspace/tree.py:5-22`) or `:size_t` (`bindings/ruby/lib/cconfigspace/tree.rb:3-20`)
is declared, or put in an array of these: `ctypes` keeps the low 64 bits, FFI refuses what fits in no 64 bit type. -/
def sizeGiven (lang : Lang) (i : Int) : Out Nat :=
  match lang with
  | .python => .ok (BitVec.ofInt 64 i).toNat
  | .ruby => if -2 ^ 63 ≤ i ∧ i < 2 ^ 64 then .ok (BitVec.ofInt 64 i).toNat else .err .external

/-- `(ct.c_size_t * count)(*position)`, `tree.py:147`, `:155`, `:163`, and `ptr1.write_array_of_size_t(position)`, `tree.rb:115`, `:124`,
`:134`. -/
def positionGiven (lang : Lang) : List Int → Out (List Nat)
  | [] => .ok []
  | i :: is => do
    let n ← sizeGiven lang i
    let ns ← positionGiven lang is
    .ok (n :: ns)

/-- `[x.value for x in v]`, `tree.py:143`, `:159`, and `count.times.collect { |i| Datum::new(ptr[i]).value }`, `tree.rb:109`, `:128`. -/
def takeAll {α : Type} (t : Tongue α) : List Value → Out (List α)
  | [] => .ok []
  | v :: vs => do
    let x ← t.take { v := v }
    let xs ← takeAll t vs
    .ok (x :: xs)

section
variable {α : Type} (t : Tongue α)

/-- `Tree.__init__`, `tree.py:26-36`, and `Tree#initialize`, `tree.rb:27-36`. -/
def create (ops : FloatOps) (f : Forest) (arity : Int) (value : α) : Out (Forest × Nat) := do
  let d ← t.give value
  let n ← sizeGiven t.lang arity
  f.create ops n d.v

/-- `Tree.value`, `tree.py:42-50`, and `Tree#value`, `tree.rb:42-46`. -/
def value (f : Forest) (h : Nat) : Out α := do
  let v ← f.getValue h
  t.take { v := v }

/-- `Tree.arity`, `tree.py:52-60`, and `tree.rb:23`. -/
def arity (f : Forest) (h : Nat) : Out Nat := f.getArity h

/-- `Tree.weight` and `Tree.bias`, `tree.py:62-84`, and `tree.rb:24-25`, `:48-56`.  What is given is a number that the language has converted to a
double. -/
def weight (f : Forest) (h : Nat) : Out F64 := f.getWeight h

@[inherit_doc weight]
def bias (f : Forest) (h : Nat) : Out F64 := f.getBias h

@[inherit_doc weight]
def setWeight (ops : FloatOps) (fuel : Nat) (f : Forest) (h : Nat) (w : F64) : Option (Out Forest) := f.setWeight ops fuel h w

@[inherit_doc weight]
def setBias (ops : FloatOps) (fuel : Nat) (f : Forest) (h : Nat) (b : F64) : Option (Out Forest) := f.setBias ops fuel h b

/-- `Tree.set_child`, `tree.py:86-88`, and `Tree#set_child`, `tree.rb:58-61`. -/
def setChild (lang : Lang) (ops : FloatOps) (fuel : Nat) (f : Forest) (h : Nat) (index : Int) (c : Nat) : Option (Out Forest) :=
  match sizeGiven lang index with
  | .ok i => f.setChild ops fuel h i c
  | .err e => some (.err e)
  | .ub => some .ub

/-- `Tree.get_child`, `tree.py:90-94`, and `Tree#get_child`, `tree.rb:63-68`. -/
def getChild (lang : Lang) (f : Forest) (h : Nat) (index : Int) : Out (Option Nat) := do
  let i ← sizeGiven lang index
  f.getChild h i

/-- `Tree.children`, `tree.py:96-104`, and `Tree#children`, `tree.rb:70-76`. -/
def children (f : Forest) (h : Nat) : Out (List (Option Nat)) := do
  let count ← f.getArity h
  if count = 0 then .ok []
  else do
    let r ← f.getChildren h (some count)
    .ok r.1

/-- `Tree.parent`, `tree.py:106-111`, and `Tree#parent`, `tree.rb:78-83`. -/
def parent (f : Forest) (h : Nat) : Out (Option Nat) := do
  let r ← f.getParent h
  .ok (r.map (·.1))

/-- `Tree.index`, `tree.py:113-119`, and `Tree#index`, `tree.rb:85-90`. -/
def index (f : Forest) (h : Nat) : Out (Option Nat) := do
  let r ← f.getParent h
  .ok (r.map (·.2))

/-- `Tree.depth`, `tree.py:122-127`, and `Tree#depth`, `tree.rb:92-96`. -/
def depth (fuel : Nat) (f : Forest) (h : Nat) : Option (Out Nat) := do
  let r ← f.getPosition fuel h none
  some (do
    let x ← r
    .ok x.2)

/-- `Tree.position`, `tree.py:129-135`, and `Tree#position`, `tree.rb:98-103`. -/
def position (fuel : Nat) (f : Forest) (h : Nat) : Option (Out (List Nat)) :=
  match depth fuel f h with
  | none => none
  | some .ub => some .ub
  | some (.err e) => some (.err e)
  | some (.ok count) => do
    let r ← f.getPosition fuel h (some count)
    some (do
      let x ← r
      .ok x.1)

/-- `Tree.values`, `tree.py:137-143`, and `Tree#values`, `tree.rb:105-110`. -/
def values (fuel : Nat) (f : Forest) (h : Nat) : Option (Out (List α)) :=
  match depth fuel f h with
  | none => none
  | some .ub => some .ub
  | some (.err e) => some (.err e)
  | some (.ok count) => do
    let r ← f.getValues fuel h (some (count + 1))
    some (do
      let x ← r
      takeAll t x.1)

/-- `Tree.position_is_valid`, `tree.py:145-151`, and `Tree#position_is_valid?`, `tree.rb:112-119`. -/
def positionIsValid (lang : Lang) (f : Forest) (h : Nat) (p : List Int) : Out Bool := do
  let q ← positionGiven lang p
  f.positionIsValid h q

/-- `Tree.get_values_at_position`, `tree.py:153-159`, and `Tree#get_values_at_position`, `tree.rb:121-129`. -/
def valuesAt (f : Forest) (h : Nat) (p : List Int) : Out (List α) := do
  let q ← positionGiven t.lang p
  let vs ← f.valuesAt h q (p.length + 1)
  takeAll t vs

/-- `Tree.get_node_at_position`, `tree.py:161-167`, and `Tree#get_node_at_position`, `tree.rb:131-138`. -/
def nodeAt (lang : Lang) (f : Forest) (h : Nat) (p : List Int) : Out Nat := do
  let q ← positionGiven lang p
  f.nodeAt h q

end

/-- What an index drawn stands for: `v.value if v.value != self.arity else None`, `tree.py:173`, `:180`, and `v == arity ? nil : v`, `tree.rb:144`,
`:152`.  The index is converted to `size_t` (`src/tree_internal.h:46`). -/
def chosen (arity : Nat) (i : Int) : Option Nat :=
  if (BitVec.ofInt 64 i).toNat = arity then none else some (BitVec.ofInt 64 i).toNat

/-- `Tree.sample`, `tree.py:169-173`, and `Tree#sample`, `tree.rb:140-145`; `rnd` is the draw. -/
def sample (guess : Int → F64 → Int) (fuel : Nat) (f : Forest) (h : Nat) (rnd : F64) : Option (Out (Option Nat)) :=
  match f.node h with
  | none => some .ub
  | some n => do
    let r ← Forest.sampleIndex guess fuel n rnd
    some (do
      let i ← r
      .ok (chosen n.arity i))

/-- The loop of `_ccs_tree_samples`, `src/tree_internal.h:42-47`. -/
def drawn (guess : Int → F64 → Int) (fuel : Nat) (n : TreeNode) : List F64 → Option (Out (List (Option Nat)))
  | [] => some (.ok [])
  | x :: xs => do
    let r ← search guess fuel (n.arity + 1) n.areas x
    let rs ← drawn guess fuel n xs
    some (do
      let i ← r
      let is ← rs
      .ok (chosen n.arity i :: is))

/-- `Tree.samples`, `tree.py:175-180`, and `Tree#samples`, `tree.rb:147-153`; `rnds` are the draws, as many as asked for. -/
def samples (lang : Lang) (guess : Int → F64 → Int) (fuel : Nat) (f : Forest) (h : Nat) (rnds : List F64) :
    Option (Out (List (Option Nat))) :=
  if lang = .ruby ∧ rnds = [] then some (.ok [])
  else
    match f.node h with
    | none => some .ub
    | some n =>
      if F64.feq n.sum F64.zero then some (.err .invalidDistribution)
      else drawn guess fuel n rnds

end CCS.BoundTree
