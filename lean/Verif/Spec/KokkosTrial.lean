import Verif.Spec.Kokkos
import Verif.Spec.Num

/-!
# What a program using the Kokkos connector knows of its contexts

`Journal` is made from the callbacks and their replies only.
-/

namespace CCS.Spec

open CCS

/-- One context: the values of its context variables, the values it was sent for its tuning variables, when it began, and whether it is
measured. -/
structure Trial where
  given : List (Nat × Kokkos.Raw)
  sent : List (Nat × Kokkos.Raw)
  start : Kokkos.Timespec
  measured : Bool

/-- The variables of the context. -/
def Trial.vars (t : Trial) : List Nat := t.given.map (·.1) ++ t.sent.map (·.1)

/-- The same variables have the same values, in whatever order. -/
def SameValues (a b : List (Nat × Kokkos.Raw)) : Prop := (∀ x ∈ a, x ∈ b) ∧ ∀ x ∈ b, x ∈ a

/-- What a program knows: the variables it declared, its open contexts by number, and the contexts that were measured with the time
they took in nanoseconds, oldest first. -/
structure Journal where
  inputs : List (Nat × Bytes × Kokkos.Info)
  outputs : List (Nat × Bytes × Kokkos.Info)
  opened : List (Nat × Trial)
  done : List (Trial × Int)

def Journal.empty : Journal := ⟨[], [], [], []⟩

/-- The contexts of a region that were measured. -/
def Journal.of (j : Journal) (vars : List Nat) : List (Trial × Int) := j.done.filter fun m => decide (SameRegion m.1.vars vars)

/-- A time in nanoseconds. -/
def nanoseconds (t : Kokkos.Timespec) : Int := t.sec.toInt * 1000000000 + t.nsec.toInt

/-- The context of a request and the values it was sent: it is measured until its region has been 500 times. -/
def Journal.trial (j : Journal) (cv tv : List Kokkos.Var) (sent : List Kokkos.Raw) (start : Kokkos.Timespec) : Trial :=
  ⟨cv.map fun x => (x.id, x.value), (tv.map (·.id)).zip sent, start, decide ((j.of (requestVars cv tv)).length < 500)⟩

/-- What is known after a callback. -/
def Journal.next (j : Journal) (e : Kokkos.Event) (r : Kokkos.Reply) : Journal :=
  match e, r with
  | .declareInput name id info _, _ => { j with inputs := (id, name, info) :: j.inputs }
  | .declareOutput name id info _, _ => { j with outputs := (id, name, info) :: j.outputs }
  | .request c cv tv g, .values sent =>
    { j with opened := (c, j.trial cv tv sent g.clock) :: j.opened.filter fun o => decide (o.1 ≠ c) }
  | .endContext c stop _, _ =>
    match j.opened.find? fun o => decide (o.1 = c) with
    | none => j
    | some o =>
      { j with
        opened := j.opened.filter fun o => decide (o.1 ≠ c)
        done := if o.2.measured then j.done ++ [(o.2, nanoseconds stop - nanoseconds o.2.start)] else j.done }
  | _, _ => j

/-- What is known after a list of callbacks. -/
def Journal.after (j : Journal) : List (Kokkos.Event × Kokkos.Reply) → Journal
  | [] => j
  | x :: xs => (j.next x.1 x.2).after xs

/-! ## What is asked of the program -/

/-- The declared bounds of a variable are numbers. -/
def NumberBounds (ops : FloatOps) (toInt : F64 → Option (BitVec 64)) (jen : Bytes → BitVec 32) (little : Bool) (name : Bytes)
    (info : Kokkos.Info) : Prop :=
  ∀ p, Kokkos.variableParameter ops toInt jen little name info = .ok p → Proper p.interval

/-- The library is initialized and finalized only once.  A variable is declared once, and its bounds are numbers.  Requests are
about declared variables, which come with their type. -/
def Orderly (ops : FloatOps) (toInt : F64 → Option (BitVec 64)) (jen : Bytes → BitVec 32) (little : Bool) (j : Journal) :
    Kokkos.Event → Prop
  | .init _ => False
  | .finalize => False
  | .declareInput name id info _ => (∀ x ∈ j.inputs ++ j.outputs, x.1 ≠ id) ∧ NumberBounds ops toInt jen little name info
  | .declareOutput name id info _ => (∀ x ∈ j.inputs ++ j.outputs, x.1 ≠ id) ∧ NumberBounds ops toInt jen little name info
  | .request _ cv tv _ =>
    cv.length < 2 ^ 32 ∧
    (∀ x ∈ cv, ∃ name info, (x.id, name, info) ∈ j.inputs ∧ x.type = info.type) ∧
    ∀ x ∈ tv, ∃ name info, (x.id, name, info) ∈ j.outputs ∧ x.type = info.type
  | _ => True

/-! ## What is asked of the host -/

/-- The tuners of the connector. -/
def TunerInUse (st : Kokkos.State) (t : BitVec 64) : Prop := ∃ k c, Kokkos.look st.tuners k = some (t, c)

/-- The parameters of the connector. -/
def ParameterInUse (st : Kokkos.State) (a : BitVec 64) : Prop :=
  ∃ id, Kokkos.look st.features id = some a ∨ Kokkos.look st.parameters id = some a

/-- The evaluations of the tuners. -/
def EvaluationInUse (st : Kokkos.State) (e : BitVec 64) : Prop := ∃ t, TunerInUse st t ∧ e ∈ (st.regions t).tuner.history

/-- The features of evaluations and open contexts. -/
def FeaturesInUse (st : Kokkos.State) (f : BitVec 64) : Prop :=
  (∃ e, EvaluationInUse st e ∧ (st.evals e).features = f) ∨ ∃ c x, Kokkos.look st.contexts c = some x ∧ x.features = f

/-- The configurations of evaluations and open contexts. -/
def ConfigurationInUse (st : Kokkos.State) (a : BitVec 64) : Prop :=
  (∃ e, EvaluationInUse st e ∧ (st.evals e).evaluation.configuration = a) ∨ ∃ c x, Kokkos.look st.contexts c = some x ∧ x.configuration = a

/-- New objects are not put where others are. -/
def Allocated (st : Kokkos.State) : Kokkos.Event → Prop
  | .declareInput _ _ _ a => ¬ ParameterInUse st a
  | .declareOutput _ _ _ a => ¬ ParameterInUse st a
  | .request _ _ _ g =>
    ¬ ParameterInUse st g.htime ∧ ¬ TunerInUse st g.tuner ∧ (∀ t, TunerInUse st t → (st.regions t).ospace ≠ g.ospace) ∧
    ¬ FeaturesInUse st g.features ∧ ¬ ConfigurationInUse st g.configuration
  | .endContext _ _ e => ¬ EvaluationInUse st e
  | _ => True

section
variable (ops : FloatOps) (toInt : F64 → Option (BitVec 64)) (jen : Bytes → BitVec 32) (little : Bool) (mk : Nat → Param → Out Dist)

/-- The program and the host do what is asked of them at each callback. -/
def Sensible (st : Kokkos.State) (j : Journal) : List Kokkos.Event → Prop
  | [] => True
  | e :: es => Allocated st e ∧ Orderly ops toInt jen little j e ∧
      ∀ st' r, Kokkos.step ops toInt jen little mk st e = .ok (st', r) → Sensible st' (j.next e r) es

end

/-! ## A simple way to be sensible -/

/-- The addresses that the host gives at a callback. -/
def eventAddresses : Kokkos.Event → List (BitVec 64)
  | .declareInput _ _ _ a => [a]
  | .declareOutput _ _ _ a => [a]
  | .request _ _ _ g => [g.htime, g.tuner, g.ospace, g.features, g.configuration]
  | .endContext _ _ e => [e]
  | _ => []

/-- The program does what is asked of it, whatever the replies. -/
def AllAnnounced (ops : FloatOps) (toInt : F64 → Option (BitVec 64)) (jen : Bytes → BitVec 32) (little : Bool) (j : Journal) :
    List Kokkos.Event → Prop
  | [] => True
  | e :: es => Orderly ops toInt jen little j e ∧ AllAnnounced ops toInt jen little (j.next e .nothing) es

end CCS.Spec
