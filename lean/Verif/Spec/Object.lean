import Verif.Model.Object

/-! # Specification: lifetime and error reporting -/

namespace CCS.Spec

open CCS

/-- References held on a new object after some calls: one for the creator, plus retains, minus
releases. -/
def balance (ops : List LifeOp) : Int :=
  1 + (ops.count .retain : Int) - (ops.count .release : Int)

/-- At every point of the history the program holds at least one reference, and at most
`INT32_MAX`. -/
def Held (ops : List LifeOp) : Prop :=
  ∀ k, k ≤ ops.length → 0 < balance (ops.take k) ∧ balance (ops.take k) ≤ 2 ^ 31 - 1

/-- The callbacks attached by some calls, in order. -/
def attached : List LifeOp → List Nat
  | [] => []
  | .attach id :: ops => id :: attached ops
  | _ :: ops => attached ops

/-- A failure: code, message, and the frames from the place it was raised outwards. -/
structure Failure where
  code : Err
  msg : Bytes
  path : List Frame
  deriving DecidableEq

/-- The failure of an execution, if it fails, read off its control flow: where it was raised,
followed by the frames that propagated it. -/
def failureOf : Body → Option Failure
  | .done => none
  | .raise c m f => some ⟨c, m, [f]⟩
  | .raiseGoto c m f _ => some ⟨c, m, [f]⟩
  | .validate b f r =>
    match failureOf b with
    | some x => some { x with path := x.path ++ [f] }
    | none => failureOf r
  | .validateGoto b f _ r =>
    match failureOf b with
    | some x => some { x with path := x.path ++ [f] }
    | none => failureOf r
  | .ignore _ r => failureOf r
  | .foreign c => some ⟨c, [], []⟩

/-- Nothing in it fails. -/
def Quiet : Body → Prop
  | .done => True
  | .raise .. => False
  | .raiseGoto .. => False
  | .validate b _ r => Quiet b ∧ Quiet r
  | .validateGoto b _ _ r => Quiet b ∧ Quiet r
  | .ignore b r => Quiet b ∧ Quiet r
  | .foreign _ => False

/-- No user function fails without recording the error, and nothing fails in the cleanups. -/
def Disciplined : Body → Prop
  | .done => True
  | .raise .. => True
  | .raiseGoto _ _ _ cl => Quiet cl
  | .validate b _ r => Disciplined b ∧ Disciplined r
  | .validateGoto b _ cl r => Disciplined b ∧ Quiet cl ∧ Disciplined r
  | .ignore _ r => Disciplined r
  | .foreign _ => False

end CCS.Spec
