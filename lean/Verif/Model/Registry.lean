/-
The registry of the Python and Ruby bindings, `bindings/python/cconfigspace/base.py:604-737` and
`bindings/ruby/lib/cconfigspace/base.rb:756-850`.

A C function made of a callback of the user (a thunk: the result of `CFUNCTYPE`, or the closure that FFI makes of a lambda) and the
data attached to an object live as long as something refers to them.  The library only keeps their addresses; the binding keeps
references to them in a registry, `_data_store`, under the address of the object.  What the registry does not hold any more is
freed, in Python at once: calling such a thunk, or reading such data, is undefined.

Simplifications: one object; nothing but the registry refers to the thunks and the data (a thunk is local to the binding; data that
the program also holds would live longer); callbacks do not themselves change the registrations of the object; that a thunk which is
running is freed is not counted.
-/
import Verif.Model.Basic

namespace CCS.Py

/-- A thunk, with the callback of the user it was made of. -/
structure Thunk where
  id : Nat
  callback : Nat
deriving DecidableEq

/-- A destroy callback set on an object: one of the user, or the one that removes the object from the registry
(`bindings/python/cconfigspace/base.py:679-688`, `bindings/ruby/lib/cconfigspace/base.rb:774-781`). -/
inductive Hook where
  | user (t : Thunk)
  | cleanup
deriving DecidableEq

/-- What the registry holds for an object, `bindings/python/cconfigspace/base.py:669,686`: the list `callbacks`, the data, the
serialization callback and the strings. -/
structure Entry where
  callbacks : List Thunk
  data : Option Nat
  serializer : Option Thunk
  strings : List Nat
deriving DecidableEq

/-- An object.  `hooks`, `data` and `serializer` are the fields `callbacks`, `user_data` and `serialize_callback` of the library
(`src/cconfigspace_internal.h`), `remove` the function `del` of the vector of a user defined object, `entry` what the registry holds,
`next` the number of the next thunk. -/
structure Obj where
  hooks : List Hook
  data : Option Nat
  serializer : Option Thunk
  remove : Option Thunk
  entry : Option Entry
  next : Nat
deriving DecidableEq

/-- A new object of the library, not yet known to the registry. -/
def fresh : Obj := ⟨[], none, none, none, none, 0⟩

/-- Is a thunk still referred to by the registry? -/
def Obj.alive (o : Obj) (t : Thunk) : Bool :=
  match o.entry with
  | none => false
  | some e => e.callbacks.contains t || decide (e.serializer = some t)

/-- `ccs_object_set_destroy_callback`, `src/cconfigspace.c:97-111`. -/
def Obj.hook (o : Obj) (h : Hook) : Obj := { o with hooks := o.hooks ++ [h] }

/-- `_register_destroy_callback`, `bindings/python/cconfigspace/base.py:679-688`
(`bindings/ruby/lib/cconfigspace/base.rb:774-781`), when the object is not in the registry yet.  The thunk of the callback itself is
in the list in the code; it is not represented. -/
def Obj.known (o : Obj) : Obj × Entry :=
  match o.entry with
  | some e => (o, e)
  | none => (o.hook .cleanup, ⟨[], none, none, []⟩)

/-- `_register_callback`, `bindings/python/cconfigspace/base.py:690-694` (`bindings/ruby/lib/cconfigspace/base.rb:795-799`). -/
def Obj.registerCallback (o : Obj) (t : Thunk) : Obj :=
  { o.known.1 with entry := some { o.known.2 with callbacks := o.known.2.callbacks ++ [t] } }

/-- `_register_user_data`, `bindings/python/cconfigspace/base.py:696-700` (`bindings/ruby/lib/cconfigspace/base.rb:783-787`). -/
def Obj.registerData (o : Obj) (d : Option Nat) : Obj :=
  { o.known.1 with entry := some { o.known.2 with data := d } }

/-- `_register_string`, `bindings/python/cconfigspace/base.py:702-706` (`bindings/ruby/lib/cconfigspace/base.rb:789-793`). -/
def Obj.registerString (o : Obj) (s : Nat) : Obj :=
  { o.known.1 with entry := some { o.known.2 with strings := o.known.2.strings ++ [s] } }

/-- `_register_serialize_callback`, `bindings/python/cconfigspace/base.py:708-712`
(`bindings/ruby/lib/cconfigspace/base.rb:801-805`). -/
def Obj.registerSerializer (o : Obj) (t : Option Thunk) : Obj :=
  { o.known.1 with entry := some { o.known.2 with serializer := t } }

/-- A new thunk. -/
def Obj.thunk (o : Obj) (callback : Nat) : Thunk := ⟨o.next, callback⟩

/-- What a program does with an object that bears on the registry. -/
inductive Op where
  | setDestroy (callback : Nat)
  | setData (data : Option Nat)
  | setSerializer (callback : Option Nat)
  | keepString (s : Nat)
  | getData
  | serialize
deriving DecidableEq

/-- What the program gets: nothing, the data, or the callback that is called. -/
inductive Answer where
  | done
  | data (d : Option Nat)
  | called (callback : Option Nat)
deriving DecidableEq

/-- `_set_destroy_callback`, `bindings/python/cconfigspace/base.py:717-725`
(`bindings/ruby/lib/cconfigspace/base.rb:807-814`): the library first, then the registry. -/
def Obj.setDestroy (o : Obj) (callback : Nat) : Obj :=
  { (o.hook (.user (o.thunk callback))).registerCallback (o.thunk callback) with next := o.next + 1 }

/-- The setter of `user_data`, `bindings/python/cconfigspace/base.py:493-501` (`bindings/ruby/lib/cconfigspace/base.rb:750-754`). -/
def Obj.setData (o : Obj) (d : Option Nat) : Obj := ({ o with data := d } : Obj).registerData d

/-- `_set_serialize_callback`, `bindings/python/cconfigspace/base.py:727-737`. -/
def Obj.setSerializer (o : Obj) (callback : Option Nat) : Obj :=
  { ({ o with serializer := callback.map o.thunk } : Obj).registerSerializer (callback.map o.thunk) with next := o.next + 1 }

/-- The getter of `user_data`, `bindings/python/cconfigspace/base.py:482-491`: the address kept by the library is turned into the
object that is there.  If that is freed, this is undefined. -/
def Obj.getData (o : Obj) : Out Answer :=
  match o.data with
  | none => .ok (.data none)
  | some d => if (o.entry.bind (·.data)) = some d then .ok (.data (some d)) else .ub

/-- The serialization callback of the object called by the library, `src/cconfigspace_internal.h:1091-1095`: only if there is data. -/
def Obj.callSerializer (o : Obj) : Out Answer :=
  match o.data, o.serializer with
  | some _, some t => if o.alive t then .ok (.called (some t.callback)) else .ub
  | _, _ => .ok (.called none)

/-- One operation. -/
def Obj.step (o : Obj) : Op → Out (Obj × Answer)
  | .setDestroy c => .ok (o.setDestroy c, .done)
  | .setData d => .ok (o.setData d, .done)
  | .setSerializer c => .ok (o.setSerializer c, .done)
  | .keepString s => .ok (o.registerString s, .done)
  | .getData => o.getData >>= fun a => .ok (o, a)
  | .serialize => o.callSerializer >>= fun a => .ok (o, a)

/-- A history of operations: the answers. -/
def Obj.run (o : Obj) : List Op → Out (Obj × List Answer)
  | [] => .ok (o, [])
  | op :: ops => o.step op >>= fun x => Obj.run x.1 ops >>= fun y => .ok (y.1, x.2 :: y.2)

/-- The loop of `ccs_release_object`, `src/cconfigspace.c:60-67`, on the callbacks in the order they are called: the object after
it, and the callbacks of the user that were called.  The callback of the registry removes the object from it; in Python it raises if
the object is not there, which is printed and ignored. -/
def Obj.fire (o : Obj) : List Hook → Out (Obj × List Nat)
  | [] => .ok (o, [])
  | .cleanup :: hs => Obj.fire { o with entry := none } hs
  | .user t :: hs =>
    if o.alive t then Obj.fire o hs >>= fun x => .ok (x.1, t.callback :: x.2)
    else .ub

/-- The destruction of the object, `src/cconfigspace.c:59-69`: the callbacks from the last one set to the first, then `del`.  Only
user defined objects call the program there (`src/tuner_user_defined.c`, `del`): the wrapper calls the function of the user, and then
`_unregister_vector`, `bindings/python/cconfigspace/base.py:673-675`, which raises if the object is not in the registry: the error is
the answer of `del` (`bindings/python/cconfigspace/tuner.py:169-177`). -/
def Obj.destroy (o : Obj) : Out (Obj × List Nat) :=
  o.fire o.hooks.reverse >>= fun x =>
    match o.remove with
    | none => .ok x
    | some t =>
      if x.1.alive t then .ok ({ x.1 with entry := none }, x.2 ++ [t.callback])
      else .ub

/-- `_register_vector`, `bindings/python/cconfigspace/base.py:665-671` (`bindings/ruby/lib/cconfigspace/base.rb:761-765`): refused if
the object is known. -/
def Obj.registerVector (o : Obj) (t : Thunk) : Out Obj :=
  match o.entry with
  | some _ => .err .invalidValue
  | none => .ok { o with entry := some ⟨[t], none, none, []⟩ }

/-- Creation of a user defined tuner or dynamic tree space, `bindings/python/cconfigspace/tuner.py:329-372` (likewise
`features_tuner.py`, `tree_tuner.py`, `tree_space.py`).  Of the thunks of the vector only that of `delete` is represented. -/
def create (delete : Nat) : Out Obj :=
  ({ fresh with remove := some (fresh.thunk delete), next := 1 } : Obj).registerVector (fresh.thunk delete)

/-- Reading back a user defined tuner or dynamic tree space, `bindings/python/cconfigspace/tuner.py:376-405`, from a message with
these user data, or none.  The callback that reads them back sets them on the new object
(`src/cconfigspace_internal.h:1181-1185`, `bindings/python/cconfigspace/base.py:651-653`) before the vector is registered. -/
def restore (delete : Nat) (data : Option Nat) : Out Obj :=
  let o : Obj := { fresh with remove := some (fresh.thunk delete), next := 1 }
  let o := match data with
    | none => o
    | some d => o.setData (some d)
  o.registerVector (fresh.thunk delete)

end CCS.Py
