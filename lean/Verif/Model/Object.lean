import Verif.Model.Basic

/-!
# Object lifetime and thread error stack

Models `src/cconfigspace.c:44-111` (reference counting, destruction callbacks),
`src/error_stack.c` and the error macros of `src/cconfigspace_internal.h:37-144`.
-/

namespace CCS

/-! ## Lifetime of one object -/

/-- What is observed when an object is destroyed. -/
inductive LifeEvent
  /-- The attached callback number `id` ran. -/
  | callback (id : Nat)
  /-- The destructor `ops->del` ran. -/
  | del
  /-- The memory was freed. -/
  | free
  deriving DecidableEq, Repr

/-- State of the object: its header (`src/cconfigspace_internal.h:231-252`) while the memory exists. -/
inductive Life
  | alive (refcount : Int) (callbacks : List Nat)
  /-- Count 0 but not freed, because `del` failed; the callback array has been freed. -/
  | zombie
  | freed
  deriving DecidableEq, Repr

/-- Object and trace of events so far. -/
structure LifeState where
  obj : Life
  events : List LifeEvent
  deriving DecidableEq, Repr

/-- Calls on the object. -/
inductive LifeOp
  | retain
  | release
  /-- `ccs_object_set_destroy_callback` with a non-NULL callback, identified by a number. -/
  | attach (id : Nat)
  deriving DecidableEq, Repr

/-- `_ccs_object_init`, `src/cconfigspace_internal.h:255-268`. -/
def lifeInit : LifeState := ⟨.alive 1 [], []⟩

/-- `utarray_prev` loop of `ccs_release_object`, `src/cconfigspace.c:59-66`: last element first. -/
def runCallbacks (cbs : List Nat) : List LifeEvent := cbs.reverse.map .callback

/-- One call.  `delRes` is what the destructor of this kind of object returns.  The reference count is
an `int32_t`: incrementing `INT32_MAX` is undefined, and so is any use of freed memory.  Callbacks
are assumed not to call functions on the object being destroyed. -/
def lifeStep (delRes : Option Err) (s : LifeState) : LifeOp → Call LifeState
  -- `ccs_retain_object`, `src/cconfigspace.c:44-51`
  | .retain =>
    match s.obj with
    | .freed => .ub
    | .zombie => .ret (some .invalidObject) s
    | .alive n cbs =>
      if n ≤ 0 then .ret (some .invalidObject) s
      else if n = 2 ^ 31 - 1 then .ub
      else .ret none ⟨.alive (n + 1) cbs, s.events⟩
  -- `ccs_release_object`, `src/cconfigspace.c:53-72`
  | .release =>
    match s.obj with
    | .freed => .ub
    | .zombie => .ret (some .invalidObject) s
    | .alive n cbs =>
      if n ≤ 0 then .ret (some .invalidObject) s
      else if n - 1 = 0 then
        let ev := s.events ++ runCallbacks cbs ++ [.del]
        match delRes with
        | none => .ret none ⟨.freed, ev ++ [.free]⟩
        | some e => .ret (some e) ⟨.zombie, ev⟩
      else .ret none ⟨.alive (n - 1) cbs, s.events⟩
  -- `ccs_object_set_destroy_callback`, `src/cconfigspace.c:97-111`
  | .attach id =>
    match s.obj with
    | .freed => .ub
    | .zombie => .ub
    | .alive n cbs => .ret none ⟨.alive n (cbs ++ [id]), s.events⟩

/-! ## Thread error stack -/

/-- A frame: `ccs_error_stack_elem_t` (file, line, function), identified by a number. -/
abbrev Frame := Nat

/-- `_ccs_error_stack_data_t`, `src/error_stack_internal.h:5-10`. -/
structure ErrorStack where
  code : Err
  msg : Bytes
  elems : List Frame
  deriving DecidableEq, Repr

/-- The thread-local `ccs_error_stack`, `src/error_stack.c:14`; it owns its reference, so the stack
is represented by its content. -/
abbrev Slot := Option ErrorStack

/-- `ccs_get_thread_error`, `src/error_stack.c:16-22`: returns the stack, leaves none. -/
def takeError (s : Slot) : Option ErrorStack × Slot := (s, none)

/-- `ccs_clear_thread_error`, `src/error_stack.c:24-36`. -/
def clearError (_ : Slot) : Slot := none

/-- `ccs_set_thread_error` with a valid error stack, `src/error_stack.c:38-46`. -/
def setError (_ : Slot) (e : ErrorStack) : Slot := some e

/-- `ccs_create_thread_error`, `src/error_stack.c:132-142`. -/
def createError (s : Slot) (code : Err) (msg : Bytes) : Slot :=
  let _ := clearError s
  some ⟨code, msg, []⟩

/-- `ccs_thread_error_stack_push`, `src/error_stack.c:149-176`; refused without a stack. -/
def pushError (s : Slot) (f : Frame) : Option Err × Slot :=
  match s with
  | none => (some .invalidObject, none)
  | some e => (none, some { e with elems := e.elems ++ [f] })

/-- `CCS_ADD_STACK_ELEM`, `src/cconfigspace_internal.h:40-43`: the result is ignored. -/
def addElem (s : Slot) (f : Frame) : Slot := (pushError s f).2

/-- Operations of the error-stack interface. -/
inductive SlotOp
  | create (code : Err) (msg : Bytes)
  | push (f : Frame)
  | take
  | clear
  | set (e : ErrorStack)
  deriving DecidableEq, Repr

def slotStep (s : Slot) : SlotOp → Slot
  | .create c m => createError s c m
  | .push f => (pushError s f).2
  | .take => (takeError s).2
  | .clear => clearError s
  | .set e => setError s e

def slotRun (s : Slot) (ops : List SlotOp) : Slot := ops.foldl slotStep s

/-- The control flow of a library function, as far as errors are concerned: which error macros it
goes through in this execution. -/
inductive Body
  /-- `return CCS_RESULT_SUCCESS`. -/
  | done
  /-- `CCS_RAISE` / a `CCS_REFUTE` whose condition holds (`src/cconfigspace_internal.h:66-84`). -/
  | raise (code : Err) (msg : Bytes) (f : Frame)
  /-- Same with a cleanup before returning (`CCS_RAISE_ERR_GOTO`,
  `src/cconfigspace_internal.h:72-77`). -/
  | raiseGoto (code : Err) (msg : Bytes) (f : Frame) (cleanup : Body)
  /-- `CCS_VALIDATE(callee)`, then the rest (`src/cconfigspace_internal.h:131-144`). -/
  | validate (callee : Body) (f : Frame) (rest : Body)
  /-- `CCS_VALIDATE_ERR_GOTO(err, callee, label)` where `label` runs a cleanup whose results are
  ignored and returns `err` (`src/cconfigspace_internal.h:122-129`). -/
  | validateGoto (callee : Body) (f : Frame) (cleanup rest : Body)
  /-- A call whose result is ignored. -/
  | ignore (callee rest : Body)
  /-- A function supplied by the user (callback of a user-defined object) that returns an error
  without recording it. -/
  | foreign (code : Err)
  deriving DecidableEq, Repr

/-- Execution: result code and error slot. -/
def Body.exec : Body → Slot → Option Err × Slot
  | .done, s => (none, s)
  | .raise c m f, s => (some c, addElem (createError s c m) f)
  | .raiseGoto c m f cl, s => (some c, (cl.exec (addElem (createError s c m) f)).2)
  | .validate b f r, s =>
    match b.exec s with
    | (none, s) => r.exec s
    | (some c, s) => (some c, addElem s f)
  | .validateGoto b f cl r, s =>
    match b.exec s with
    | (none, s) => r.exec s
    | (some c, s) => (some c, (cl.exec (addElem s f)).2)
  | .ignore b r, s => r.exec (b.exec s).2
  | .foreign c, s => (some c, s)

end CCS
