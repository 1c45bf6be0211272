import Verif.Model.Stacks

/-!
# Who owns an error stack

References belong to the program (`held`) or to the current error of a thread.  The documentation
(`include/cconfigspace/error_stack.h:13-29`): getting the error of a thread gives its reference to the program, setting it takes
one from the program.
-/

namespace CCS.Stacks.Spec

open CCS CCS.Stacks

/-- The references of the program, by stack. -/
abbrev Ledger := Nat → Nat

def noReference : Ledger := fun _ => 0

def gain (l : Ledger) (h : Nat) : Ledger := fun a => if a = h then l a + 1 else l a

def lose (l : Ledger) (h : Nat) : Ledger := fun a => if a = h then l a - 1 else l a

/-- The references of the program after a successful call. -/
def settle (l : Ledger) : ErrCall → Reply → Ledger
  | .create _ _, .handle (some h) => gain l h
  | .take, .handle (some h) => gain l h
  | .retain (some h), _ => gain l h
  | .release (some h), _ => lose l h
  | .set (some h), _ => lose l h
  | _, _ => l

/-- A program only names stacks it has a reference to (or NULL). -/
def Permitted (l : Ledger) : ErrCall → Prop
  | .push (some h) _ => 0 < l h
  | .set (some h) => 0 < l h
  | .retain (some h) => 0 < l h
  | .release (some h) => 0 < l h
  | .read (some h) => 0 < l h
  | _ => True

instance (l : Ledger) (c : ErrCall) : Decidable (Permitted l c) := by
  unfold Permitted
  split <;> infer_instance

/-- The references of the program after a call, whatever its outcome. -/
def after (l : Ledger) (c : ErrCall) : Out Reply → Ledger
  | .ok r => settle l c r
  | _ => l

/-- A schedule of calls by the threads of the process, in any order, each permitted when it is made. -/
def Lawful (w : World) (l : Ledger) : List (Nat × ErrCall) → Prop
  | [] => True
  | (t, c) :: rest => t < w.slots.length ∧ Permitted l c ∧ Lawful (step w t c).1 (after l c (step w t c).2) rest

/-- The references of the program after a schedule. -/
def owned (w : World) (l : Ledger) : List (Nat × ErrCall) → Ledger
  | [] => l
  | (t, c) :: rest => owned (step w t c).1 (after l c (step w t c).2) rest

/-- The answers to a schedule. -/
def answers (w : World) : List (Nat × ErrCall) → List (Out Reply)
  | [] => []
  | (t, c) :: rest => (step w t c).2 :: answers (step w t c).1 rest

/-- All the references to a stack: those of the program and those of the threads. -/
def references (w : World) (l : Ledger) (h : Nat) : Nat := l h + w.slots.count (some h)

/-- What a thread would see if it asked for its error: the content of its current stack. -/
def seen (w : World) (t : Nat) : Slot := (w.slot t).bind fun h => (w.heap h).map (·.content)

/-- The threads keep to themselves: a call does not add a frame to a stack that is the current error of another thread. -/
def Apart (w : World) (t : Nat) : ErrCall → Prop
  | .push (some h) _ => ∀ u, u ≠ t → w.slot u ≠ some h
  | .pushCurrent _ => ∀ h, w.slot t = some h → ∀ u, u ≠ t → w.slot u ≠ some h
  | _ => True

/-- A call pushing on the current stack of the thread itself through a handle. -/
def own (w : World) (t : Nat) (h : Nat) : Bool := w.slot t == some h

/-- What a call of thread `t` means for its own error, in the model of one thread (`Verif.Model.Object`). -/
def meaning (w : World) (t : Nat) : ErrCall → List SlotOp
  | .raise code msg => [.create code msg]
  | .pushCurrent f => [.push f]
  | .push (some h) f => if own w t h then [.push f] else []
  | .take => [.take]
  | .clear => [.clear]
  | .set (some h) => match w.heap h with
    | some c => [.set c.content]
    | none => []
  | _ => []

/-- The part of a schedule that thread `t` makes, as operations on its own error. -/
def part (w : World) (t : Nat) : List (Nat × ErrCall) → List SlotOp
  | [] => []
  | (u, c) :: rest => (if u = t then meaning w t c else []) ++ part (step w u c).1 t rest

/-- Threads keep to themselves all along a schedule. -/
def AllApart (w : World) : List (Nat × ErrCall) → Prop
  | [] => True
  | (t, c) :: rest => Apart w t c ∧ AllApart (step w t c).1 rest

end CCS.Stacks.Spec
