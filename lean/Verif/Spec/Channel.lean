import Verif.Model.Channel
import Verif.Spec.Wire

/-!
# Specification of the serialization entry points
-/

namespace CCS.Spec

open CCS

/-- The kind of the object announces, under these options, the number of bytes that it writes, and these are `bs`. -/
def Announces (o : Sendable) (opts : SerOpts) (bs : Bytes) : Prop :=
  o.supported = true ∧ o.size opts = .ok bs.length ∧ WritesBytes (o.write opts) bs

/-- Only callbacks, none of them NULL: options that mean the same for all operations. -/
def PlainOptions (options : List SerOption) : Prop := ∀ o ∈ options, ∃ cb, o = .callback (some cb)

/-- Options for reading other than the non-blocking one, with their arguments as documented. -/
def PlainReading {V : Type} (options : List (DeOption V)) : Prop := ∀ o ∈ options,
  (∃ m, o = .handleMap (some (true, m))) ∨ (∃ v, o = .vector (some v)) ∨ (∃ p, o = .data p) ∨ (∃ cb, o = .callback (some cb))

/-- A system that refuses nothing. -/
def obliging : System := {}

/-- The arguments of the last occurrence of an option. -/
def lastOf {α β : Type} (f : α → Option β) (options : List α) : Option β := (options.filterMap f).getLast?

/-- Why an option is refused by an operation. -/
def SerRefused (op : Operation) : SerOption → Option Err
  | .nonBlocking p => if op = .descriptor ∧ p.isSome = true then none else some .invalidValue
  | .callback cb => if cb.isSome = true then none else some .invalidValue
  | .other => some .invalidValue

def DeRefused {V : Type} (op : Operation) : DeOption V → Option Err
  | .handleMap m => if m.any (·.1) then none else some .invalidObject
  | .vector v => if v.isSome = true then none else some .invalidValue
  | .data _ => none
  | .nonBlocking p => if op = .descriptor ∧ p.isSome = true then none else some .invalidValue
  | .callback cb => if cb.isSome = true then none else some .invalidValue
  | .other => some .invalidValue

/-- The arguments of the options. -/
def givenState : SerOption → Option Nat
  | .nonBlocking p => p
  | _ => none

def givenCallback : SerOption → Option SaveCallback
  | .callback cb => cb
  | _ => none

def deHandles {V : Type} : DeOption V → Option Handles
  | .handleMap m => m.map (·.2)
  | _ => none

def deVector {V : Type} : DeOption V → Option V
  | .vector v => v
  | _ => none

def deData {V : Type} : DeOption V → Option (BitVec 64)
  | .data p => some p
  | _ => none

def deState {V : Type} : DeOption V → Option Nat
  | .nonBlocking p => p
  | _ => none

def deCallback {V : Type} : DeOption V → Option (Bytes → Out Unit)
  | .callback cb => cb
  | _ => none

/-- A callback that announces the length of the data it then writes. -/
def Saves (cb : SaveCallback) (ud : Bytes) : Prop := cb.size = .ok ud.length ∧ cb.fill ud.length = .ok ud

/-- The user data that travels with an object: nothing unless it has user data and a callback, its own one or else the one of the
options. -/
def Travels (a : Attached) (opt : Option SaveCallback) (ud : Bytes) : Prop :=
  (a.present = false ∧ ud = []) ∨
  (a.present = true ∧ ∃ cb, a.callback = some cb ∧ Saves cb ud) ∨
  (a.present = true ∧ a.callback = none ∧ ∃ cb, opt = some cb ∧ Saves cb ud) ∨
  (a.present = true ∧ a.callback = none ∧ opt = none ∧ ud = [])

/-- The type announced by a message that starts with an object header. -/
def Announced (bs : Bytes) (t : BitVec 32) : Prop := ∃ h rest, deObj bs = .ok ((t, h), rest)

end CCS.Spec
