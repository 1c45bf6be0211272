import Verif.Model.Kokkos
import Verif.Spec.Ieee

/-!
# Specification of the Kokkos connector
-/

namespace CCS.Spec

open CCS

/-- The conversion of a double to a 64-bit integer in C: truncation, without a result outside the integers of 64 bits. -/
def truncated (x : F64) : Option (BitVec 64) :=
  match realValue x with
  | none => none
  | some r =>
    let i := Int.tdiv r ((2 ^ 1074 : Nat) : Int)
    if -2 ^ 63 ≤ i ∧ i < 2 ^ 63 then some (BitVec.ofInt 64 i) else none

/-- What a value of a Kokkos variable of the type is: a double, an integer, or a string of at most 63 characters. -/
inductive Means : Kokkos.ValueType → Kokkos.Raw → Value → Prop
  | double (w) : Means .double (.word w) (.float w)
  | int64 (w) : Means .int64 (.word w) (.int w)
  | string (s) : s.length < 64 → Means .string (.text s) (.str (some s))

/-- The integers of a range: between the bounds, included or not as it says, and at a multiple of the step from the lower one. -/
def InIntRange (r : Kokkos.Range) (x : Int) : Prop :=
  (if r.openLower then r.lower.toInt < x else r.lower.toInt ≤ x) ∧
  (if r.openUpper then x < r.upper.toInt else x ≤ r.upper.toInt) ∧
  (r.step ≠ 0#64 → r.step.toInt ∣ x - r.lower.toInt)

/-! ## Regions -/

/-- Two requests are for the same region when they have the same variables, in whatever order. -/
def SameRegion (a b : List Nat) : Prop := (∀ x ∈ a, x ∈ b) ∧ ∀ x ∈ b, x ∈ a

instance (a b : List Nat) : Decidable (SameRegion a b) := inferInstanceAs (Decidable (_ ∧ _))

/-- An open context: its number, the variables of its region, and whether it is being measured. -/
structure Opened where
  id : Nat
  vars : List Nat
  measured : Bool
  deriving DecidableEq, Repr

/-- What is to be known of the past: the open contexts, the last one first, and the variables of each context that was measured. -/
structure Ledger where
  opened : List Opened
  done : List (List Nat)
  deriving DecidableEq, Repr

/-- How many contexts of the region were measured. -/
def Ledger.count (l : Ledger) (vars : List Nat) : Nat := (l.done.filter fun d => decide (SameRegion d vars)).length

/-- Some open context is being measured. -/
def Ledger.measuring (l : Ledger) : Bool := l.opened.any (·.measured)

/-- The variables of a request. -/
def requestVars (contextVars tuningVars : List Kokkos.Var) : List Nat := contextVars.map (·.id) ++ tuningVars.map (·.id)

/-- What happens to the past, `none` when contexts are not properly nested: a context is opened by a request and closed by its end before those
opened earlier.  A region is measured until it has been 500 times. -/
def Ledger.next (l : Ledger) : Kokkos.Event → Option Ledger
  | .request c cv tv _ =>
    if l.opened.any (·.id = c) then none
    else some { l with opened := ⟨c, requestVars cv tv, decide (l.count (requestVars cv tv) < 500)⟩ :: l.opened }
  | .endContext c _ _ =>
    if l.opened.any (·.id = c) then
      match l.opened with
      | [] => none
      | o :: os => if o.id = c then some ⟨os, if o.measured then o.vars :: l.done else l.done⟩ else none
    else some l
  | .init _ => none
  | .finalize => none
  | _ => some l

/-- The past after a sequence of callbacks. -/
def Ledger.follow (l : Ledger) : List Kokkos.Event → Option Ledger
  | [] => some l
  | e :: es =>
    match l.next e with
    | some l' => l'.follow es
    | none => none

/-- The addresses that the host would give to new tuners. -/
def tunerAddresses : List Kokkos.Event → List (BitVec 64)
  | [] => []
  | .request _ _ _ g :: es => g.tuner :: tunerAddresses es
  | _ :: es => tunerAddresses es

end CCS.Spec
