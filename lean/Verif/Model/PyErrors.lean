/-
Exceptions that cross callbacks written in Python: class `Error`, `bindings/python/cconfigspace/base.py:345-377`, class `ErrorStack`,
`bindings/python/cconfigspace/error_stack.py:18-43,75-86`, and the `except` clauses of the callbacks, for instance
`bindings/python/cconfigspace/tuner.py:160-176`.

The error stacks are those of `Stacks`, used by one thread.  Simplifications: an object of Python is freed as soon as nothing refers
to it; the strings of the frames are not followed (see `Registry`); allocation succeeds.

When a function called by C through `ctypes` raises an exception, the exception is printed and ignored, and nothing is written as its
result: the library sees whatever is there, `junk` below.
-/
import Verif.Model.Stacks

namespace CCS.Py
open CCS.Stacks

/-- An exception: an instance of `Error`, with the error stack it holds; another instance of `Exception`, with its text;
an exception that is not an instance of `Exception` (`KeyboardInterrupt`, `SystemExit`). -/
inductive Exc where
  | error (code : Err) (stack : Option Nat)
  | other (text : Bytes)
  | exit
  deriving DecidableEq

/-- A call of `Stacks` by the only thread. -/
def lib (w : World) (c : ErrCall) : Out (World × Reply) :=
  match step w 0 c with
  | (w', .ok r) => .ok (w', r)
  | (_, .err e) => .err e
  | (_, .ub) => .ub

/-- `Error.__init__`, `bindings/python/cconfigspace/base.py:346-358`: the error takes the current error stack of the thread
(`get_thread_error`, `bindings/python/cconfigspace/error_stack.py:75-80`). -/
def newError (w : World) (code : Err) : Out (World × Exc) :=
  lib w .take >>= fun x =>
    match x.2 with
    | .handle h => .ok (x.1, .error code h)
    | _ => .ub

/-- `ErrorStack.__init__`, `bindings/python/cconfigspace/error_stack.py:19-28`.  An empty text is not encoded, and `c_char_p` refuses it:
`none`, an exception.  A C string ends at its first NUL; percent signs are doubled and read as a format, which gives the same text. -/
def newStack (w : World) (code : Err) (text : Option Bytes) : Out (Option (World × Nat)) :=
  if text = some [] then .ok none
  else lib w (.create code ((text.getD []).takeWhile (· ≠ 0#8))) >>= fun x =>
    match x.2 with
    | .handle (some h) => .ok (some (x.1, h))
    | _ => .ub

/-- `stack.push(...)` for each frame, `bindings/python/cconfigspace/base.py:374-375`. -/
def pushAll (w : World) (h : Nat) : List Frame → Out World
  | [] => .ok w
  | f :: fs => lib w (.push (some h) f) >>= fun x => pushAll x.1 h fs

/-- The end of `Error.set_error`, `bindings/python/cconfigspace/base.py:374-377`, with `set_thread_error`,
`bindings/python/cconfigspace/error_stack.py:82-86`, then the release of the stack by Python. -/
def report (w : World) (h : Nat) (trace : List Frame) : Out (World × Err) :=
  pushAll w h trace >>= fun w => lib w (.set (some h)) >>= fun x => lib x.1 (.retain (some h)) >>= fun x =>
  lib x.1 (.read (some h)) >>= fun y =>
    match y.2 with
    | .content c => lib x.1 (.release (some h)) >>= fun x => .ok (x.1, c.code)
    | _ => .ub

/-- `Error.set_error`, `bindings/python/cconfigspace/base.py:365-377`; `none` if it raises an exception itself. -/
def setError (w : World) (e : Exc) (trace : List Frame) : Out (Option (World × Err)) :=
  match e with
  | .error _ (some h) => report w h trace >>= fun x => .ok (some x)
  | .error code none => newStack w code none >>= fun
      | some (w, h) => report w h trace >>= fun x => .ok (some x)
      | none => .ok none
  | .other text => newStack w .external (some text) >>= fun
      | some (w, h) => report w h trace >>= fun x => .ok (some x)
      | none => .ok none
  | .exit => .ok none

/-- The frames that the functions of the library add on the way back, `CCS_VALIDATE`, `src/cconfigspace_internal.h:131-155`. -/
def addFrames (w : World) : List Frame → World
  | [] => w
  | f :: fs => addFrames (step w 0 (.pushCurrent f)).1 fs

/-- What a program in Python does, as far as errors are concerned: end, raise an exception, `raise Error(Result(code))`, call a function
of the library that calls a callback written in Python.  `path` are the functions of the library between the callback and the
program.  If that call raises, the exception goes on (`trace` are the places it crosses) or, with `attempt`, the program drops it. -/
inductive Body where
  | done
  | raise (trace : List Frame) (text : Bytes)
  | raiseError (trace : List Frame) (code : Err)
  | exit
  | call (path : List Frame) (callback : Body) (trace : List Frame) (next : Body)
  | attempt (path : List Frame) (callback : Body) (next : Body)

/-- An exception that nothing refers to any more: its stack is released. -/
def drop (w : World) : Exc → Out World
  | .error _ (some h) => lib w (.release (some h)) >>= fun x => .ok x.1
  | _ => .ok w

/-- A callback called by the library, and the call of the program that led to it: the `try` of the callback, the frames of the
library, and `Error.check`, `bindings/python/cconfigspace/base.py:360-363`. -/
def crossing (junk : Option Err) (w : World) (path : List Frame) (r : Option (Exc × List Frame)) : Out (World × Option Exc) :=
  match r with
  | none => .ok (w, none)
  | some (e, trace) => setError w e trace >>= fun
      | some (w, code) => newError (addFrames w path) code >>= fun x => .ok (x.1, some x.2)
      | none =>
        drop w e >>= fun w =>
        match junk with
        | none => .ok (w, none)
        | some code => newError (addFrames w path) code >>= fun x => .ok (x.1, some x.2)

/-- A program. -/
def exec (junk : Option Err) (w : World) : Body → Out (World × Option (Exc × List Frame))
  | .done => .ok (w, none)
  | .raise trace text => .ok (w, some (.other text, trace))
  | .raiseError trace code => newError w code >>= fun x => .ok (x.1, some (x.2, trace))
  | .exit => .ok (w, some (.exit, []))
  | .call path callback trace next => exec junk w callback >>= fun x => crossing junk x.1 path x.2 >>= fun y =>
    match y.2 with
    | some e => .ok (y.1, some (e, trace))
    | none => exec junk y.1 next
  | .attempt path callback next => exec junk w callback >>= fun x => crossing junk x.1 path x.2 >>= fun y =>
    match y.2 with
    | some e => drop y.1 e >>= fun w => exec junk w next
    | none => exec junk y.1 next

end CCS.Py
