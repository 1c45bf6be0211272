import Verif.Model.Kinds

/-!
# Comparing and hashing configurations, features and evaluations from Python and Ruby

`bindings/python/cconfigspace/binding.py:80-130`, `tree_configuration.py:90-150`, `bindings/ruby/lib/cconfigspace/binding.rb:14-97`,
`evaluation.rb:81-92`, `features_evaluation.rb:74-85` and `tree_evaluation.rb:70-81`, on top of the library (`Model/Kinds`,
`Model/Evaluation`).

Simplification: exceptions of the languages that do not come from the library are represented by the code EXTERNAL.
-/

namespace CCS.BoundOrder

open CCS CCS.Kinds

/-- The six comparison operators of both languages. -/
inductive Operator
  | lt | le | gt | ge | eq | ne
  deriving DecidableEq, Repr

/-- The test each operator makes on the result of a comparison with 0, `binding.py:90-120`, and the module `Comparable` of Ruby. -/
def Operator.test : Operator → Ordering → Bool
  | .lt, o => o == .lt
  | .le, o => o != .gt
  | .gt, o => o == .gt
  | .ge, o => o != .lt
  | .eq, o => o == .eq
  | .ne, o => o != .eq

/-- What an object is compared with: an object of the library, nothing (`None`, `nil`), or another value of the language. -/
inductive Operand
  | object (handle : BitVec 64)
  | nothing
  | stranger

/-- What lies at an address, as an evaluation, an evaluation with features. -/
def evaluationAt : Item → Evaluation
  | .evaluation e => e
  | .treeEvaluation e => e
  | .featuresEvaluation e => e.evaluation
  | _ => ⟨⟨0, []⟩, 0, 0⟩

@[inherit_doc evaluationAt]
def featuresEvaluationAt : Item → FeaturesEvaluation
  | .featuresEvaluation e => e
  | _ => ⟨⟨⟨0, []⟩, 0, 0⟩, 0⟩

end CCS.BoundOrder

namespace CCS.Py

open CCS CCS.Kinds CCS.BoundOrder

/-- `Binding.__lt__`, `__le__`, `__gt__`, `__ge__`, `__eq__`, `__ne__`, `bindings/python/cconfigspace/binding.py:86-120`: `other.handle` of
something that is no object of the library raises an exception. -/
def bindingOperator (little : Bool) (heap : BitVec 64 → Item) (op : Operator) (x : BitVec 64) : Operand → Out Bool
  | .object y => do
    let o ← compareAny little heap x y
    .ok (op.test o)
  | .nothing => .err .external
  | .stranger => .err .external

/-- `Binding.hash` and `__hash__`, `bindings/python/cconfigspace/binding.py:122-130`: the hash is computed, and what is returned is the
method `value` of the binding, for which `hash()` raises an exception. -/
def bindingHashValue (little : Bool) (heap : BitVec 64 → Item) (jen : Bytes → BitVec 32) (x : BitVec 64) : Out (BitVec 32) := do
  let _ ← hashOf little heap jen x
  .err .external

/-- The operators of tree configurations, `bindings/python/cconfigspace/tree_configuration.py:106-146`. -/
def treeOperator (heap : BitVec 64 → Item) (op : Operator) (x : BitVec 64) : Operand → Out Bool
  | .object y => do
    let o ← treeConfigurationCmp heap x y
    .ok (op.test o)
  | .nothing => .err .external
  | .stranger => .err .external

/-- `TreeConfiguration.hash` and `__hash__`, `bindings/python/cconfigspace/tree_configuration.py:92-104`. -/
def treeHashValue (little : Bool) (heap : BitVec 64 → Item) (jen : Bytes → BitVec 32) (x : BitVec 64) : Out (BitVec 32) :=
  match heap x with
  | .treeConfiguration c => .ok (TreeConfig.hash jen little c)
  | _ => .err .invalidObject

end CCS.Py

namespace CCS.Rb

open CCS CCS.Kinds CCS.BoundOrder

/-- A Ruby object that stands for an object of the library: several may stand for the same (`Object.from_handle`,
`bindings/ruby/lib/cconfigspace/base.rb:643-658`, makes a new one each time). -/
structure Ref where
  id : Nat
  handle : BitVec 64
  deriving DecidableEq

/-- What a Ruby object is compared with. -/
inductive Right
  | ref (r : Ref)
  | nothing
  | stranger

section
variable (ops : FloatOps) (jen : Bytes → BitVec 32) (little : Bool) (spaces : BitVec 64 → ObjSpace) (heap : BitVec 64 → Item)

/-- `r == 2 ? nil : r`, `bindings/ruby/lib/cconfigspace/evaluation.rb:90-91`. -/
def ofComparison : Comparison → Option Ordering
  | .better => some .lt
  | .equivalent => some .eq
  | .worse => some .gt
  | .notComparable => none

/-- A call on two objects that have to be of one kind (`CCS_CHECK_OBJ`). -/
def typed {α : Type} (k : Kind) (y : BitVec 64) (r : Out α) : Out α := if (heap y).kind = k then r else .err .invalidObject

/-- `<=>`: `Binding` (`bindings/ruby/lib/cconfigspace/binding.rb:87-91`) through `ccs_binding_cmp`; `Evaluation`
(`evaluation.rb:87-92`), `FeaturesEvaluation` (`features_evaluation.rb:80-85`) and `TreeEvaluation` (`tree_evaluation.rb:76-81`) through the
comparison of objective values.  `nil` is a NULL handle, anything else cannot be passed. -/
def spaceship (x : BitVec 64) : Right → Out (Option Ordering)
  | .nothing => .err .invalidObject
  | .stranger => .err .external
  | .ref r =>
    match (heap x).kind with
    | .evaluation => typed heap .evaluation r.handle (do
        let c ← compareEvaluations ops jen little spaces (fun a => evaluationAt (heap a)) x r.handle
        .ok (ofComparison c))
    | .treeEvaluation => typed heap .treeEvaluation r.handle (do
        let c ← compareEvaluations ops jen little spaces (fun a => evaluationAt (heap a)) x r.handle
        .ok (ofComparison c))
    | .featuresEvaluation => typed heap .featuresEvaluation r.handle (do
        let c ← compareFeaturesEvaluations ops jen little spaces (fun a => (heap a).binding)
          (fun a => featuresEvaluationAt (heap a)) x r.handle
        .ok (ofComparison c))
    | _ => do
      let o ← compareAny little heap x r.handle
      .ok (some o)

/-- `Comparable#==`: true for the object itself; false when `<=>` gives `nil`. -/
def equals (a : Ref) (b : Right) : Out Bool :=
  let asked : Out Bool := do
    let o ← spaceship ops jen little spaces heap a.handle b
    .ok (o == some .eq)
  match b with
  | .ref r => if a.id = r.id then .ok true else asked
  | _ => asked

/-- The operators: `==`, `!=` (its negation), and those of `Comparable`, which raise `ArgumentError` when `<=>` gives `nil`. -/
def operator (op : Operator) (a : Ref) (b : Right) : Out Bool :=
  match op with
  | .eq => equals ops jen little spaces heap a b
  | .ne => do
    let r ← equals ops jen little spaces heap a b
    .ok (!r)
  | op => do
    let o ← spaceship ops jen little spaces heap a.handle b
    match o with
    | some o => .ok (op.test o)
    | none => .err .external

/-- `hash`, `bindings/ruby/lib/cconfigspace/binding.rb:16`. -/
def hashValue (a : Ref) : Out (BitVec 32) := hashOf little heap jen a.handle

/-- `eql?`, which no class of the bindings defines for bindings: it is that of `Object`. -/
def eql (a b : Ref) : Bool := a.id == b.id

/-- Whether two objects are the same key of a `Hash`, the same member of a `Set`, or one for `uniq`: equal hashes, and `eql?`. -/
def sameKey (a b : Ref) : Bool := (hashValue jen little heap a == hashValue jen little heap b) && eql a b

end

end CCS.Rb
