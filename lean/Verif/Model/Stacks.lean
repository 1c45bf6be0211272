import Verif.Model.Object

/-!
# Error stacks as objects, and threads

Models `src/error_stack.c` with the error stacks in memory, their reference counts, and one current error stack per thread
(`static __thread ccs_error_stack_t ccs_error_stack`, `src/error_stack.c:14`).  `Verif.Model.Object` has one thread and
identifies a stack with its content.  A call is one step: two calls on the same stack at the same time are not represented.
Allocation is assumed to succeed; destruction callbacks of error stacks are in the second part.
-/

namespace CCS.Stacks

open CCS

/-- `struct _ccs_error_stack_s`: the content and the reference count. -/
structure Cell where
  content : ErrorStack
  refs : Nat
  deriving DecidableEq

/-- The error stacks in memory (`none`: not allocated, or freed), the next address, and the current stack of each thread. -/
structure World where
  heap : Nat → Option Cell
  next : Nat
  slots : List (Option Nat)

/-- A process with `n` threads. -/
def World.start (n : Nat) : World := ⟨fun _ => none, 0, List.replicate n none⟩

/-- Memory after a write at `h`. -/
def put (heap : Nat → Option Cell) (h : Nat) (c : Option Cell) : Nat → Option Cell := fun a => if a = h then c else heap a

/-- `ccs_error_stack` of thread `t`. -/
def World.slot (w : World) (t : Nat) : Option Nat := w.slots.getD t none

/-- The calls.  A handle is `none` when it is NULL. -/
inductive ErrCall
  /-- `ccs_create_error_stack`. -/
  | create (code : Err) (msg : Bytes)
  /-- `ccs_create_thread_error`. -/
  | raise (code : Err) (msg : Bytes)
  /-- `ccs_thread_error_stack_push`. -/
  | pushCurrent (f : Frame)
  /-- `ccs_error_stack_push`. -/
  | push (h : Option Nat) (f : Frame)
  /-- `ccs_get_thread_error`. -/
  | take
  /-- `ccs_clear_thread_error`. -/
  | clear
  /-- `ccs_set_thread_error`. -/
  | set (h : Option Nat)
  | retain (h : Option Nat)
  | release (h : Option Nat)
  /-- `ccs_error_stack_get_code`, `_get_message` and `_get_elems`, with an output pointer. -/
  | read (h : Option Nat)
  deriving DecidableEq

/-- What a call gives. -/
inductive Reply
  | done
  | handle (h : Option Nat)
  | content (e : ErrorStack)
  deriving DecidableEq

/-- `ccs_retain_object`, `src/cconfigspace.c:44-51`.  Reading freed memory is undefined. -/
def retain (heap : Nat → Option Cell) (h : Nat) : Out (Nat → Option Cell) :=
  match heap h with
  | none => .ub
  | some c => if c.refs = 0 then .err .invalidObject else .ok (put heap h (some { c with refs := c.refs + 1 }))

/-- `ccs_release_object`, `src/cconfigspace.c:53-72`, and `_ccs_error_stack_del`, `src/error_stack.c:48-54`, which succeeds. -/
def release (heap : Nat → Option Cell) (h : Nat) : Out (Nat → Option Cell) :=
  match heap h with
  | none => .ub
  | some c =>
    if c.refs = 0 then .err .invalidObject
    else if c.refs = 1 then .ok (put heap h none)
    else .ok (put heap h (some { c with refs := c.refs - 1 }))

/-- `if (ccs_error_stack) ccs_release_object(ccs_error_stack)`, `src/error_stack.c:27-28,42-43`: the result is ignored. -/
def releaseCurrent (w : World) (t : Nat) : Out (Nat → Option Cell) :=
  match w.slot t with
  | none => .ok w.heap
  | some h =>
    match release w.heap h with
    | .ok heap => .ok heap
    | .err _ => .ok w.heap
    | .ub => .ub

/-- One call of thread `t`: the memory afterwards and what it gives.  `_ccs_create_error_stack`, `src/error_stack.c:73-116`;
`ccs_create_error_stack`, `:118-130`; `ccs_create_thread_error`, `:132-142`; `_ccs_error_stack_push`, `:149-176`;
`ccs_get_thread_error`, `:16-22`; `_ccs_clear_thread_error`, `:24-30`; `ccs_set_thread_error`, `:38-46`;
`ccs_error_stack_get_elems`, `_get_message`, `_get_code`, `:178-219`.  `CCS_CHECK_ERROR_STACK`, `:5-12`, refuses NULL and
reads the memory otherwise. -/
def step (w : World) (t : Nat) : ErrCall → World × Out Reply
  | .create code msg =>
    ({ w with heap := put w.heap w.next (some ⟨⟨code, msg, []⟩, 1⟩), next := w.next + 1 }, .ok (.handle (some w.next)))
  | .raise code msg =>
    match releaseCurrent w t with
    | .ok heap => (⟨put heap w.next (some ⟨⟨code, msg, []⟩, 1⟩), w.next + 1, w.slots.set t (some w.next)⟩, .ok .done)
    | .err e => (w, .err e)
    | .ub => (w, .ub)
  | .pushCurrent f =>
    match w.slot t with
    | none => (w, .err .invalidObject)
    | some h =>
      match w.heap h with
      | none => (w, .ub)
      | some c =>
        ({ w with heap := put w.heap h (some { c with content := { c.content with elems := c.content.elems ++ [f] } }) }, .ok .done)
  | .push none _ => (w, .err .invalidObject)
  | .push (some h) f =>
    match w.heap h with
    | none => (w, .ub)
    | some c =>
      ({ w with heap := put w.heap h (some { c with content := { c.content with elems := c.content.elems ++ [f] } }) }, .ok .done)
  | .take => ({ w with slots := w.slots.set t none }, .ok (.handle (w.slot t)))
  | .clear =>
    match releaseCurrent w t with
    | .ok heap => ({ w with heap := heap, slots := w.slots.set t none }, .ok .done)
    | .err e => (w, .err e)
    | .ub => (w, .ub)
  | .set none => (w, .err .invalidObject)
  | .set (some h) =>
    match w.heap h with
    | none => (w, .ub)
    | some _ =>
      match releaseCurrent w t with
      | .ok heap => ({ w with heap := heap, slots := w.slots.set t (some h) }, .ok .done)
      | .err e => (w, .err e)
      | .ub => (w, .ub)
  | .retain none => (w, .err .invalidObject)
  | .retain (some h) =>
    match retain w.heap h with
    | .ok heap => ({ w with heap := heap }, .ok .done)
    | .err e => (w, .err e)
    | .ub => (w, .ub)
  | .release none => (w, .err .invalidObject)
  | .release (some h) =>
    match release w.heap h with
    | .ok heap => ({ w with heap := heap }, .ok .done)
    | .err e => (w, .err e)
    | .ub => (w, .ub)
  | .read none => (w, .err .invalidObject)
  | .read (some h) =>
    match w.heap h with
    | none => (w, .ub)
    | some c => (w, .ok (.content c.content))

/-- `set_thread_error` of the Python binding, `bindings/python/cconfigspace/error_stack.py:82-86`: the object of the binding
keeps its own reference. -/
def bindingSet (w : World) (t : Nat) (h : Option Nat) : World × Out Reply :=
  match step w t (.set h) with
  | (w', .ok _) => step w' t (.retain h)
  | r => r

/-- The memory after a schedule of calls, each by the given thread. -/
def run (w : World) : List (Nat × ErrCall) → World
  | [] => w
  | (t, c) :: rest => run (step w t c).1 rest

/-! ## Destruction callbacks of an error stack -/

/-- What the destruction callbacks of an error stack do: `true` when one of them makes a call of the library that is
refused (the others are not represented). -/
structure Watched where
  refs : Int
  failing : Bool

/-- One thread whose current error stack may have destruction callbacks. -/
abbrev Watch := Option Watched

mutual

/-- `ccs_create_thread_error`, `src/error_stack.c:132-142`, reached from `CCS_RAISE`.  `fuel` bounds the depth of the calls;
`none`: deeper. -/
def raiseError : Nat → Watch → Option Watch
  | 0, _ => none
  | fuel + 1, s =>
    match clearCurrent fuel s with
    | none => none
    | some _ => some (some ⟨1, false⟩)

/-- `_ccs_clear_thread_error`, `src/error_stack.c:24-30`: the variable is reset after the release. -/
def clearCurrent : Nat → Watch → Option Watch
  | 0, _ => none
  | fuel + 1, s =>
    match s with
    | none => some none
    | some o =>
      match releaseWatched fuel o with
      | none => none
      | some _ => some none

/-- `ccs_release_object` on the current stack, `src/cconfigspace.c:53-72`: a count that is not positive is refused, which
raises an error; when the count reaches 0 the callbacks run, while the variable of the thread still designates the stack. -/
def releaseWatched : Nat → Watched → Option Watch
  | 0, _ => none
  | fuel + 1, o =>
    if o.refs ≤ 0 then raiseError fuel (some o)
    else if o.refs - 1 = 0 then
      if o.failing then raiseError fuel (some { o with refs := 0 }) else some none
    else some (some { o with refs := o.refs - 1 })

end

end CCS.Stacks
