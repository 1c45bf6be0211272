/-
Callbacks of user defined tuners written in Python or Ruby: the wrappers the bindings put between the library and the program,
`_wrap_user_defined_tuner_callbacks` (`bindings/python/cconfigspace/tuner.py:168-329`, the same in `features_tuner.py:184-345` and
`tree_tuner.py:168-329`), and `wrap_user_defined_tuner_callbacks` (`bindings/ruby/lib/cconfigspace/tuner.rb:137-259`, the same in
`features_tuner.rb:138-260` and `tree_tuner.rb:137-259`).

Simplifications: counts given by the program are not negative; what `set_error` records besides the code is left out; a
wrapper that raises before the callback of the program is called (handles of no object) is left out.
-/
import Verif.Model.UserTuner

namespace CCS.Py

/-- What a callback of the program does: give a value, or raise an exception.  Exceptions that are not errors of the library become
`CCS_RESULT_ERROR_EXTERNAL`, `bindings/python/cconfigspace/base.py:365-377`, `bindings/ruby/lib/cconfigspace/base.rb:546-560`. -/
inductive Reply (α : Type) where
  | gives (x : α)
  | raises (e : Err)

/-- An element of a list given by the program: an object of the library, by its handle, or anything else, whose `handle` raises an
exception or is not one that can be retained. -/
abbrev Item := Option (BitVec 64)

/-- What the library sees when a wrapper returns: the code, the array, the count, and the references taken. -/
structure Effect where
  code : Option Err
  array : Option Bytes
  count : Option Nat
  retained : List (BitVec 64)
  deriving DecidableEq

/-- A write of bytes at an offset of an array; outside of it, it is undefined (`none`). -/
def poke (bs : Bytes) (off : Nat) (v : Bytes) : Option Bytes :=
  if off + v.length ≤ bs.length then some (bs.take off ++ v ++ bs.drop (off + v.length)) else none

/-- The loop on the elements, `bindings/python/cconfigspace/tuner.py:188-191,224-225`, `bindings/ruby/lib/cconfigspace/tuner.rb:152-156,181-183`:
each is retained when `take` says so and stored in its place.  With the array, the references taken, and the exception raised. -/
def storeItems (little take : Bool) : Nat → List Item → Bytes → List (BitVec 64) → Option (Bytes × List (BitVec 64) × Option Err)
  | _, [], bs, taken => some (bs, taken, none)
  | _, none :: _, bs, taken => some (bs, taken, some .external)
  | i, some h :: xs, bs, taken =>
    match poke bs (8 * i) (hostBytes little 8 h) with
    | none => none
    | some bs => storeItems little take (i + 1) xs bs (if take then taken ++ [h] else taken)

/-- The loop that stores NULL, `n` times from place `i` on, places being `width` bytes apart. -/
def padNulls (width : Nat) : Nat → Nat → Bytes → Option Bytes
  | _, 0, bs => some bs
  | i, n + 1, bs =>
    match poke bs (width * i) (List.replicate 8 0#8) with
    | none => none
    | some bs => padNulls width (i + 1) n bs

/-- The common shape of the wrappers that fill arrays.  The program gives elements and a count; `array` is none when it is NULL. -/
def fillWith (little take : Bool) (width : Nat) (from_ : List Item → Nat → Nat) (num : Nat) (array : Option Bytes) (count : Bool) :
    Reply (List Item × Nat) → Option Effect
  | .raises e => some ⟨some e, array, none, []⟩
  | .gives (items, ret) =>
    match array with
    | none => some ⟨none, none, if count then some ret else none, []⟩
    | some bs =>
      if num < ret then some ⟨some .invalidValue, some bs, none, []⟩
      else match storeItems little take 0 items bs [] with
        | none => none
        | some (bs, taken, some e) => some ⟨some e, some bs, none, taken⟩
        | some (bs, taken, none) =>
          match padNulls width (from_ items ret) (num - from_ items ret) bs with
          | none => none
          | some bs => some ⟨none, some bs, if count then some ret else none, taken⟩

/-- `ask_wrapper`, `bindings/python/cconfigspace/tuner.py:179-198`, `features_tuner.py:195-214`, `tree_tuner.py:179-198`. -/
def pyAsk (little : Bool) (num : Nat) (array : Option Bytes) (count : Bool) (r : Reply (List Item × Nat)) : Option Effect :=
  fillWith little true 8 (fun items _ => items.length) num array count r

/-- `askwrapper`, `bindings/ruby/lib/cconfigspace/tuner.rb:147-164`, `features_tuner.rb:148-165`, `tree_tuner.rb:147-164`.  The NULLs are
stored with `p_configurations[i].put_pointer(i*8, 0)`: `[]` of an `FFI::Pointer` of elements of one byte, as the argument of a callback
is, is the pointer `i` bytes further, so that the offset is `9 * i`. -/
def rbAsk (little : Bool) (num : Nat) (array : Option Bytes) (count : Bool) (r : Reply (List Item × Nat)) : Option Effect :=
  fillWith little true 9 (fun _ ret => ret) num array count r

/-- The count is the length of the list. -/
def counted : Reply (List Item) → Reply (List Item × Nat)
  | .gives xs => .gives (xs, xs.length)
  | .raises e => .raises e

/-- `get_optima_wrapper` and `get_history_wrapper`, `bindings/python/cconfigspace/tuner.py:214-252`, `features_tuner.py:230-268`,
`tree_tuner.py:214-252`, and `get_optimawrapper` and `get_historywrapper`, `bindings/ruby/lib/cconfigspace/tuner.rb:176-207`,
`features_tuner.rb:177-208`, `tree_tuner.rb:176-207`. -/
def listEvaluations (little : Bool) (num : Nat) (array : Option Bytes) (count : Bool) (r : Reply (List Item)) : Option Effect :=
  fillWith little false 8 (fun items _ => items.length) num array count (counted r)

/-! ### The state of the user -/

/-- `serialize_wrapper`, `bindings/python/cconfigspace/tuner.py:268-285`, `features_tuner.py:284-301`, `tree_tuner.py:268-285`, as a callback of
the library; the program gives the bytes of its state, and is told whether only their number is wanted. -/
def pySave {τ : Type} (serialize : Bool → τ → τ × Reply Bytes) (num : Nat) (array count : Bool) (s : τ) : τ × Out (Option Bytes × Option Nat) :=
  match serialize (num == 0) s with
  | (s, .raises e) => (s, .err e)
  | (s, .gives state) =>
    if array && decide (num < state.length) then (s, .err .invalidValue)
    else (s, .ok (if array then some state else none, if count then some state.length else none))

/-- `deserialize_wrapper`, `bindings/python/cconfigspace/tuner.py:287-311`, `features_tuner.py:303-327`, `tree_tuner.py:287-311`; `state` is none
when the pointer is NULL.  `p_h[i]` and `p_o[i]` index a `c_void_p`, which cannot be indexed; `POINTER` and `c_byte` are names the modules do not
define. -/
def pyRestoreFrom {τ : Type} (deserialize : List (BitVec 64) → List (BitVec 64) → Option Bytes → τ → τ × Reply Unit)
    (history optima : List (BitVec 64)) (state : Option Bytes) (s : τ) : τ × Out Unit :=
  if history ≠ [] then (s, .err .external)
  else if optima ≠ [] then (s, .err .external)
  else match state with
    | some _ => (s, .err .external)
    | none =>
      match deserialize [] [] none s with
      | (s, .gives ()) => (s, .ok ())
      | (s, .raises e) => (s, .err e)

/-- The wrapper as a callback of the library, which gives the address of the state in the message, even when it is empty
(`src/cconfigspace_internal.h:810-822`, `src/tuner_deserialize.h:202-210`). -/
def pyRestore {τ : Type} (deserialize : List (BitVec 64) → List (BitVec 64) → Option Bytes → τ → τ × Reply Unit)
    (history optima : List (BitVec 64)) (state : Bytes) (s : τ) : τ × Out Unit :=
  pyRestoreFrom deserialize history optima (some state) s

/-- `serializewrapper`, `bindings/ruby/lib/cconfigspace/tuner.rb:224-239`, `features_tuner.rb:225-240`, `tree_tuner.rb:224-239`: `serialize(...)`
is a call of a method of that name of module `CCS`, not of the callback, and there is none. -/
def rbSave {τ : Type} (_serialize : Bool → τ → τ × Reply Bytes) (_num : Nat) (_array _count : Bool) (s : τ) : τ × Out (Option Bytes × Option Nat) :=
  (s, .err .external)

/-- `deserializewrapper`, `bindings/ruby/lib/cconfigspace/tuner.rb:240-257`, `features_tuner.rb:241-258`, `tree_tuner.rb:240-257`: `deserialize(...)` is
a call of `CCS.deserialize` (`base.rb:869`), which takes no positional argument; before, `p_p_history` is not defined. -/
def rbRestore {τ : Type} (_deserialize : List (BitVec 64) → List (BitVec 64) → Bytes → τ → τ × Reply Unit)
    (_history _optima : List (BitVec 64)) (_state : Bytes) (s : τ) : τ × Out Unit :=
  (s, .err .external)

end CCS.Py
