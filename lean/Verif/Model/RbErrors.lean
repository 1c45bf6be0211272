import Verif.Model.PyErrors

/-!
# Exceptions that cross callbacks written in Ruby

Class `CCSError` and `CCS.set_error`, `bindings/ruby/lib/cconfigspace/base.rb:510-560`, class `ErrorStack`,
`bindings/ruby/lib/cconfigspace/error_stack.rb:32-47,70-85`, and the `rescue` clauses of the callbacks, for instance
`bindings/ruby/lib/cconfigspace/tuner.rb:137-146`.  Programs are those of `Py.Body`; the text of an exception is what its `inspect` gives, and `exit` is
an exception that is no `StandardError` (`Interrupt`, `SystemExit`, `NotImplementedError`), which `rescue => e` does not catch.

Simplifications: an object of Ruby is freed as soon as nothing refers to it; the strings of the frames are not followed; allocation succeeds.

When a function called by C through `ffi` raises an exception, `ffi` keeps it, gives 0 (success) as its result, and raises it again when the
call of the program that led there returns.  A string with a NUL byte is refused by `ffi` with an `ArgumentError`.
-/

namespace CCS.Rb

open CCS CCS.Stacks CCS.Py

/-- What `inspect` gives for the exception of `ffi`. -/
def nulText : Bytes := "#<ArgumentError: string contains null byte>".toUTF8.toList.map fun b => b.toBitVec

/-- `ErrorStack#initialize`, `bindings/ruby/lib/cconfigspace/error_stack.rb:32-43`; `none` if it raises an exception.  Percent signs are doubled and
read as a format, which gives the same text. -/
def newStack (w : World) (code : Err) (text : Option Bytes) : Out (Option (World × Nat)) :=
  if 0#8 ∈ text.getD [] then .ok none
  else lib w (.create code (text.getD [])) >>= fun x =>
    match x.2 with
    | .handle (some h) => .ok (some (x.1, h))
    | _ => .ub

/-- `CCS.set_error`, `bindings/ruby/lib/cconfigspace/base.rb:546-560`, with `set_thread_error`, `error_stack.rb:79-83`: as in Python from there on;
`none` if it raises an exception itself. -/
def setError (w : World) (e : Exc) (trace : List Frame) : Out (Option (World × Err)) :=
  match e with
  | .error _ (some h) => report w h trace >>= fun x => .ok (some x)
  | .error code none => newStack w code none >>= fun
      | some (w, h) => report w h trace >>= fun x => .ok (some x)
      | none => .ok none
  | .other text => newStack w .external (some text) >>= fun
      | some (w, h) => report w h trace >>= fun x => .ok (some x)
      | none => .ok none
  | .exit => .ok none

/-- A callback called by the library, and the call of the program that led to it: what the library sees of the callback (`none`: success), and what
comes out of the call.  `CCS.error_check` and `CCSError#initialize`, `bindings/ruby/lib/cconfigspace/base.rb:514-526,540-544`, are `newError`. -/
def crossing (w : World) (path : List Frame) (r : Option (Exc × List Frame)) : Out (World × Option Err × Option Exc) :=
  match r with
  | none => .ok (w, none, none)
  | some (.exit, _) => .ok (w, none, some .exit)
  | some (e, trace) => Rb.setError w e trace >>= fun
      | some (w, code) => newError (addFrames w path) code >>= fun x => .ok (x.1, some code, some x.2)
      | none => drop w e >>= fun w => .ok (w, none, some (.other nulText))

/-- A program, with what the library saw of each callback that ended, in order. -/
def exec (w : World) : Py.Body → Out (World × List (Option Err) × Option (Exc × List Frame))
  | .done => .ok (w, [], none)
  | .raise trace text => .ok (w, [], some (.other text, trace))
  | .raiseError trace code => newError w code >>= fun x => .ok (x.1, [], some (x.2, trace))
  | .exit => .ok (w, [], some (.exit, []))
  | .call path callback trace next => exec w callback >>= fun x => crossing x.1 path x.2.2 >>= fun y =>
    match y.2.2 with
    | some e => .ok (y.1, x.2.1 ++ [y.2.1], some (e, trace))
    | none => exec y.1 next >>= fun z => .ok (z.1, x.2.1 ++ y.2.1 :: z.2.1, z.2.2)
  | .attempt path callback next => exec w callback >>= fun x => crossing x.1 path x.2.2 >>= fun y =>
    match y.2.2 with
    | some e => drop y.1 e >>= fun w => exec w next >>= fun z => .ok (z.1, x.2.1 ++ y.2.1 :: z.2.1, z.2.2)
    | none => exec y.1 next >>= fun z => .ok (z.1, x.2.1 ++ y.2.1 :: z.2.1, z.2.2)

end CCS.Rb
