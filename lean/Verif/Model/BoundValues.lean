/-
Values of configurations, features and evaluations used from Python and Ruby: classes `Binding` and `Context` of
`bindings/python/cconfigspace/binding.py`, `bindings/python/cconfigspace/context.py`, `bindings/ruby/lib/cconfigspace/binding.rb` and
`bindings/ruby/lib/cconfigspace/context.rb`.

What the bindings ask of `ctypes` and FFI is modelled after what these do: a `c_size_t` takes an integer modulo 2^64; a pointer given
where a structure is expected makes `ctypes` follow a null pointer (CPython 3.11) and is `.ub`; a Ruby string with a NUL is refused as a
`:string`.  Exceptions of Python and Ruby (names, methods and types that are wrong) are `.err .external`.

Simplifications: those of `PyDatum` and `RbDatum`; positions given from Ruby fit a `size_t`; a Ruby symbol is the text that its `inspect`
gives.
-/
import Verif.Model.Binding
import Verif.Model.PyDatum
import Verif.Model.RbDatum

namespace CCS.Py

/-- What a Python program names a value by: a `Parameter`, a `str`, an `int`; `other` stands for the other types. -/
inductive Key where
  | parameter (h : BitVec 64)
  | name (s : Bytes)
  | position (i : Int)
  | other
  deriving DecidableEq

/-- `Binding.value`, `bindings/python/cconfigspace/binding.py:50-59`. -/
def valueOf (c : Ctx) (b : Binding) : Key → Out Val
  | .parameter h => b.getByParameter c h >>= fromDatum
  | .name s => b.getByName c (s.takeWhile (· ≠ 0#8)) >>= fromDatum
  | .position i => b.get (BitVec.ofInt 64 i).toNat >>= fromDatum
  | .other => .err .external

/-- The values of an array of datums, `[x.value for x in v]`. -/
def readAll : List Datum → Out (List Val)
  | [] => .ok []
  | d :: ds => fromDatum d >>= fun v => readAll ds >>= fun vs => .ok (v :: vs)

/-- An array of datums filled with values, `v[i].set_value(values[i])`. -/
def giveAll : List Val → Out (List Datum)
  | [] => .ok []
  | v :: vs => toDatum v >>= fun d => giveAll vs >>= fun ds => .ok (d :: ds)

/-- `Binding.values`, `bindings/python/cconfigspace/binding.py:61-69`, with `num_values` (lines 29-37), which is kept and never changes. -/
def valuesOf (b : Binding) : Out (List Val) :=
  if b.values.length = 0 then .ok []
  else b.getAll (some (List.replicate b.values.length noneDatum)) false >>= fun r => readAll (r.1.getD [])

/-- `Binding.asdict`, `bindings/python/cconfigspace/binding.py:130-136`: the names are those of the parameters that the context has now
(`Context.parameters`, `bindings/python/cconfigspace/context.py:58-66`); `values[i]` raises an exception when there are more of these. -/
def asDict (c : Ctx) (b : Binding) : Out (List (Bytes × Val)) :=
  valuesOf b >>= fun vs =>
    if vs.length < c.params.length then .err .external else .ok ((c.params.map (·.2.name)).zip vs)

/-- `Binding.__hash__`, `bindings/python/cconfigspace/binding.py:120-128`: the property `hash` asks the library and returns `self.value`,
which is the method, and Python refuses what is not an integer. -/
def hashOf (b : Binding) (asked : Binding → BitVec 32) : Out (BitVec 32) :=
  (fun (_ : BitVec 32) => .err .external) (asked b)

section
variable (jen : Bytes → BitVec 32) (little : Bool)

/-- `Binding.set_value`, `bindings/python/cconfigspace/binding.py:39-48`: for a name, `byref(v)` is given where a structure `DatumFix` is
expected. -/
def setValue (c : Ctx) (b : Binding) (k : Key) (v : Val) : Binding × Out Unit :=
  match toDatum v with
  | .err e => (b, .err e)
  | .ub => (b, .ub)
  | .ok d =>
    match k with
    | .parameter h => b.setByParameter jen little c h d
    | .name _ => (b, .ub)
    | .position i => b.set jen little c (BitVec.ofInt 64 i).toNat d
    | .other => (b, .err .external)

/-- `Binding.set_values`, `bindings/python/cconfigspace/binding.py:71-78`. -/
def setValues (c : Ctx) (b : Binding) (vs : List Val) : Binding × Out Unit :=
  match giveAll vs with
  | .err e => (b, .err e)
  | .ub => (b, .ub)
  | .ok ds => b.setAll jen little c ds

/-- `Context.validate_value`, `bindings/python/cconfigspace/context.py:68-78`: the names `parameter_index` and `parameter_index_by_name`,
which are methods and not asked of `self`, are not defined. -/
def validate (c : Ctx) (k : Key) (v : Val) : Out Val :=
  match k with
  | .parameter _ => .err .external
  | .name _ => .err .external
  | .position i => toDatum v >>= fun d => c.validate jen little (BitVec.ofInt 64 i).toNat d >>= fromDatum
  | .other => toDatum v >>= fun _ => .err .external

end

end CCS.Py

namespace CCS.Rb

/-- What a Ruby program names a value by: a `Parameter`, a `String`, a `Symbol` (by what `inspect` gives for it, `:a` for instance, which is
also the name of a parameter created with that symbol), an `Integer`; `other` stands for the other types. -/
inductive Key where
  | parameter (h : BitVec 64)
  | name (s : Bytes)
  | symbol (s : Bytes)
  | position (i : BitVec 64)
  | other
  deriving DecidableEq

/-- A string given as a `:string` of FFI. -/
def cText (s : Bytes) : Out Bytes := if 0#8 ∈ s then .err .external else .ok s

/-- `Binding#value`, `bindings/ruby/lib/cconfigspace/binding.rb:37-53`: the function `ccs_binding_get_by_parameter` does not exist. -/
def valueOf (c : Ctx) (b : Binding) (r : Refs) : Key → Out (Val × Refs)
  | .parameter _ => .err .external
  | .name s => cText s >>= fun s => b.getByName c s >>= fromDatum r
  | .symbol s => cText s >>= fun s => b.getByName c s >>= fromDatum r
  | .position i => b.get i.toNat >>= fromDatum r
  | .other => .err .invalidValue

/-- The values of an array of datums, one after the other. -/
def readAll (r : Refs) : List Datum → Out (List Val × Refs)
  | [] => .ok ([], r)
  | d :: ds => fromDatum r d >>= fun x => readAll x.2 ds >>= fun y => .ok (x.1 :: y.1, y.2)

/-- An array of datums filled with values. -/
def giveAll : List Val → Out (List Datum)
  | [] => .ok []
  | v :: vs => toDatum v >>= fun d => giveAll vs >>= fun ds => .ok (d :: ds)

/-- `Binding#values`, `bindings/ruby/lib/cconfigspace/binding.rb:55-61`, with `num_values` (lines 73-79). -/
def valuesOf (b : Binding) (r : Refs) : Out (List Val × Refs) :=
  if b.values.length = 0 then .ok ([], r)
  else b.getAll (some (List.replicate b.values.length noneDatum)) false >>= fun x => readAll r (x.1.getD [])

/-- `Binding#to_h`, `bindings/ruby/lib/cconfigspace/binding.rb:87-89`: `zip` gives `nil` to the names for which there is no value. -/
def toH (c : Ctx) (b : Binding) (r : Refs) : Out (List (Bytes × Val) × Refs) :=
  valuesOf b r >>= fun x =>
    let names := c.params.map (·.2.name)
    .ok (names.zip (x.1 ++ List.replicate (names.length - x.1.length) .nil), x.2)

section
variable (jen : Bytes → BitVec 32) (little : Bool)

/-- `Binding#set_value`, `bindings/ruby/lib/cconfigspace/binding.rb:19-35`. -/
def setValue (c : Ctx) (b : Binding) (k : Key) (v : Val) : Binding × Out Unit :=
  match toDatum v with
  | .err e => (b, .err e)
  | .ub => (b, .ub)
  | .ok d =>
    match k with
    | .parameter h => b.setByParameter jen little c h d
    | .name s => if 0#8 ∈ s then (b, .err .external) else b.setByName jen little c s d
    | .symbol s => if 0#8 ∈ s then (b, .err .external) else b.setByName jen little c s d
    | .position i => b.set jen little c i.toNat d
    | .other => (b, .err .invalidValue)

/-- `Binding#set_values`, `bindings/ruby/lib/cconfigspace/binding.rb:63-71`. -/
def setValues (c : Ctx) (b : Binding) (vs : List Val) : Binding × Out Unit :=
  if vs.length = 0 then (b, .err .invalidValue)
  else
    match giveAll vs with
    | .err e => (b, .err e)
    | .ub => (b, .ub)
    | .ok ds => b.setAll jen little c ds

/-- `Context#validate_value`, `bindings/ruby/lib/cconfigspace/context.rb:62-73`. -/
def validate (c : Ctx) (r : Refs) (k : Key) (v : Val) : Out (Val × Refs) :=
  toDatum v >>= fun d =>
    (match k with
      | .parameter h => c.index h
      | .name s => cText s >>= c.indexByName
      | .symbol s => cText s >>= c.indexByName
      | .position i => .ok i.toNat
      | .other => .err .external) >>= fun i => c.validate jen little i d >>= fromDatum r

end

end CCS.Rb
