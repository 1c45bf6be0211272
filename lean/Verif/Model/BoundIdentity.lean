import Verif.Model.Binding
import Verif.Model.Api
import Verif.Model.BoundInterval

/-!
# Which objects of Python and Ruby are equal, and which are the same key

`bindings/python/cconfigspace/base.py:444-530`, `parameter.py:130-131`, `context.py:58-66`, `bindings/ruby/lib/cconfigspace/base.rb:580-660`,
`parameter.rb:116-118` and `context.rb:49-55`.  Every call that returns an object of the library makes a new object of the language for it.

Simplifications: exceptions of the languages that do not come from the library are represented by the code EXTERNAL.  Configurations, features,
evaluations and tree configurations, which compare through the library, are those of `Model/BoundOrder`; here their operator is a parameter.
-/

namespace CCS.BoundIdentity

open CCS CCS.Api CCS.BoundInterval

/-- The classes of parameters, chosen from what the library says of the parameter: `Parameter.from_handle`,
`bindings/python/cconfigspace/parameter.py:26-45,139-152` and `bindings/ruby/lib/cconfigspace/parameter.rb:42-60,126-139`. -/
inductive Shape
  | float | int | categorical | ordinal | discrete | string
  deriving DecidableEq, Repr

@[inherit_doc Shape]
def shapeOf (p : Param) : Shape :=
  match p.kind with
  | .numerical i _ =>
    match i.type with
    | .float => .float
    | .int => .int
  | .categorical .categorical _ => .categorical
  | .categorical .ordinal _ => .ordinal
  | .categorical .discrete _ => .discrete
  | .string => .string

/-- The class of an object of the language: its kind, and for parameters which class. -/
inductive Class
  | parameter (s : Shape)
  | of (k : Kind)
  deriving DecidableEq, Repr

/-- An object of the language: its identity, its class, and the object of the library it stands for. -/
structure Ref where
  id : Nat
  cls : Class
  handle : BitVec 64
  deriving DecidableEq, Repr

/-- What an object is compared with: another one, `None` or `nil`, anything else. -/
inductive Other
  | ref (r : Ref)
  | nothing
  | stranger

/-- The kinds whose classes compare through the library: `Binding` and its subclasses, `TreeConfiguration`. -/
def compared : Kind → Bool
  | .configuration | .features | .evaluation | .featuresEvaluation | .treeEvaluation | .treeConfiguration => true
  | _ => false

/-- `==`.  Parameters: `Parameter.__eq__`, `bindings/python/cconfigspace/parameter.py:130-131`, and `Parameter#==`,
`bindings/ruby/lib/cconfigspace/parameter.rb:116-118`, the same class and the same handle.  Classes that define no operator have that of `object`
and of `Object`: the same object of the language. -/
def equals (cmp : Ref → Other → Out Bool) (a : Ref) (b : Other) : Out Bool :=
  match a.cls, b with
  | .parameter s, .ref r => .ok (decide (Class.parameter s = r.cls) && decide (a.handle = r.handle))
  | .parameter _, _ => .ok false
  | .of k, b =>
    if compared k then cmp a b
    else match b with
      | .ref r => .ok (decide (a.id = r.id))
      | _ => .ok false

/-- `x in l` of Python and `l.include?(x)` of Ruby: some member is the object itself, or equal to it. -/
def member (cmp : Ref → Other → Out Bool) : List Ref → Ref → Out Bool
  | [], _ => .ok false
  | r :: l, x =>
    if r.id = x.id then .ok true
    else do
      let b ← equals cmp r (.ref x)
      if b then .ok true else member cmp l x

/-- `l.index(x)` of both languages: Python raises an exception and Ruby answers `nil` where there is none. -/
def indexIn (cmp : Ref → Other → Out Bool) : List Ref → Ref → Out (Option Nat)
  | [], _ => .ok none
  | r :: l, x =>
    if r.id = x.id then .ok (some 0)
    else do
      let b ← equals cmp r (.ref x)
      if b then .ok (some 0)
      else do
        let i ← indexIn cmp l x
        .ok (i.map (· + 1))

/-- New objects for a list of handles, with identities that no object has: `context.py:66`, `context.rb:54`. -/
def wrapAll (memory : BitVec 64 → Param) : Nat → List (BitVec 64) → List Ref
  | _, [] => []
  | next, h :: hs => ⟨next, .parameter (shapeOf (memory h)), h⟩ :: wrapAll memory (next + 1) hs

/-- `Context.parameters`, `bindings/python/cconfigspace/context.py:58-66`, `bindings/ruby/lib/cconfigspace/context.rb:49-55`. -/
def parameters (memory : BitVec 64 → Param) (next : Nat) (c : Ctx) : List Ref := wrapAll memory next (c.params.map (·.1))

/-- Whether an object can be hashed.  A class of Python that defines `__eq__` and not `__hash__` sets `__hash__` to `None`: that is `Parameter`
and, by inheritance, every class of parameters. -/
def hashable : Lang → Class → Bool
  | .python, .parameter _ => false
  | _, _ => true

/-- What a dictionary (`dict`, `Hash`) keeps under keys whose classes do not compare through the library: a key is found when the hashes are the
same and the keys are the same object or equal (`==` in Python, `eql?` in Ruby).  The hash is that of `object` and of `Object`, which for no two
objects that exist together is the same key; `eql?` is defined by no class, and is that of `Object`. -/
def lookup {α : Type} (lang : Lang) (d : List (Ref × α)) (k : Ref) : Out (Option α) :=
  if hashable lang k.cls then .ok ((d.find? fun e => decide (e.1.id = k.id)).map (·.2)) else .err .external

/-- `d[k] = v`: an entry of the same key is replaced. -/
def store {α : Type} (lang : Lang) (d : List (Ref × α)) (k : Ref) (v : α) : Out (List (Ref × α)) :=
  if hashable lang k.cls then .ok ((k, v) :: d.filter fun e => decide (e.1.id ≠ k.id)) else .err .external

end CCS.BoundIdentity
