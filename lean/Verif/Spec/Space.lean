import Verif.Spec.Graph
import Verif.Spec.Joint

/-!
# Specification of configuration spaces

Which spaces can exist, when a parameter is active, and when a configuration is valid.
-/

namespace CCS.Spec

open CCS

/-- What the API asks of its callers: expressions come from the constructors, and the array of indexes has at
least as many entries as the dimension of the distribution, which is not zero. -/
def WellCalled : SpaceOp → Prop
  | .setDistribution d indexes => 0 < d.dim ∧ d.dim ≤ indexes.length
  | .setCondition _ e => Built e
  | .addClause e => Built e
  | _ => True

/-- A space obtained from an empty one by any list of calls, successful or not. -/
def Reachable (ops : FloatOps) (jen : Bytes → BitVec 32) (little : Bool) (mem : BitVec 64 → Param)
    (mk : Nat → Param → Out Dist) (s : Space) : Prop :=
  ∃ history, (∀ op ∈ history, WellCalled op) ∧ s = Space.empty.run ops jen little mem mk history

/-- The distributions given by a call. -/
def SpaceOp.given : SpaceOp → List Dist
  | .addParameter _ (some d) => [d]
  | .setDistribution d _ => [d]
  | _ => []

/-- Whether a call with this outcome leaves the space settled, `p` telling whether it was. -/
def settles (op : SpaceOp) (r : Out Unit) (p : Prop) : Prop :=
  match op, r with
  | .setCondition _ _, .ok _ => True
  | .setCondition _ _, _ => False
  | .check _, _ => True
  | .sample _, _ => True
  | _, _ => p

/-- Since the last refused condition, if any, a condition was accepted or a configuration was checked or
sampled.  `p` tells whether this holds at the start. -/
def Settled (ops : FloatOps) (jen : Bytes → BitVec 32) (little : Bool) (mem : BitVec 64 → Param)
    (mk : Nat → Param → Out Dist) : Space → Prop → List SpaceOp → Prop
  | _, p, [] => p
  | s, p, op :: rest =>
    Settled ops jen little mem mk (Space.step ops jen little mem mk s op).1
      (settles op (Space.step ops jen little mem mk s op).2 p) rest

/-- Default distributions have one dimension. -/
def OneDimensional (mk : Nat → Param → Out Dist) : Prop := ∀ id p d, mk id p = .ok d → d.dim = 1

section
variable (ops : FloatOps) (jen : Bytes → BitVec 32) (little : Bool)

/-- The value of an expression on a configuration of a space: its variables stand for the values of the
parameters with these addresses. -/
def evalOn (s : Space) (vals : List Value) (e : Expr) : Out Value :=
  eval ops jen little ⟨some s.handles, some vals⟩ e

/-- A parameter should be active in a configuration: it has no condition, or its condition is true. -/
def ShouldBeActive (s : Space) (vals : List Value) (c : Option Expr) : Prop :=
  ∀ e, c = some e → evalOn ops jen little s vals e = .ok (.bool 1#64)

/-- The activity of every parameter of a configuration is what its condition says. -/
def ActivityRight (s : Space) (vals : List Value) : Prop :=
  ∀ (i : Nat) h c v, (conditions s)[i]? = some (h, c) → vals[i]? = some v →
    (v ≠ .inactive ↔ ShouldBeActive ops jen little s vals c)

/-- Valid configurations: as many values as parameters, activity as the conditions say, legal values for the
active parameters, and no forbidden clause true. -/
def Valid (s : Space) (vals : List Value) : Prop :=
  vals.length = s.params.length ∧
  ActivityRight ops jen little s vals ∧
  (∀ (i : Nat) w v, s.params[i]? = some w → vals[i]? = some v → v ≠ .inactive → Legal w.param v) ∧
  (∀ c ∈ s.clauses, evalOn ops jen little s vals c ≠ .ok (.bool 1#64))

/-- Every condition and every clause of the space has a value on the configuration. -/
def AllEvaluate (s : Space) (vals : List Value) : Prop :=
  (∀ (i : Nat) w e, s.params[i]? = some w → w.condition = some e → ∃ r, evalOn ops jen little s vals e = .ok r) ∧
  (∀ c ∈ s.clauses, ∃ r, evalOn ops jen little s vals c = .ok r)

end

/-- What is asked of distributions: answers have the right shape and respect the declared bounds. -/
def WellBehaved (d : Dist) : Prop := Shaped d ∧ InBounds d

/-- The configurations found by the attempts numbered `t`, …, `t + m - 1`, in order. -/
def hits (f : Nat → Out (Bool × List Value)) : Nat → Nat → List (List Value)
  | _, 0 => []
  | t, m + 1 =>
    match f t with
    | .ok (true, v) => v :: hits f (t + 1) m
    | _ => hits f (t + 1) m

/-- `vals` is `raw` with some values replaced by inactive. -/
def Masks (raw vals : List Value) : Prop :=
  vals.length = raw.length ∧ ∀ (i : Nat) v, vals[i]? = some v → v = .inactive ∨ raw[i]? = some v

end CCS.Spec
