import Verif.Model.Evaluation
import Verif.Spec.Num
import Verif.Spec.Binding
import Verif.Spec.Expr

/-!
# Specification of the comparison of evaluations

Pareto dominance over the objective values of two evaluations.
-/

namespace CCS.Spec

open CCS

/-- The number an objective value stands for, with its type; `none` for other values and for NaN. -/
def score : Value → Option (NumType × Int)
  | .int x => (num .int x).map fun n => (.int, n)
  | .float x => (num .float x).map fun n => (.float, n)
  | _ => none

/-- `vs` are the values of the objectives on an evaluation with values `ds`. -/
def Rated (ops : FloatOps) (jen : Bytes → BitVec 32) (little : Bool) (s : ObjSpace) (ds : List Datum)
    (vs : List Value) : Prop :=
  vs.length = s.objectives.length ∧ ∀ (i : Nat) o v, s.objectives[i]? = some o → vs[i]? = some v →
    eval ops jen little ⟨some (s.ctx.params.map (·.1)), some (ds.map (·.v))⟩ o.expression = .ok v

/-- Value `a` is strictly better than `b` for objective `o`: smaller, or larger when the objective is maximized. -/
def Beats (o : Objective) (a b : Value) : Prop :=
  ∃ t x y, score a = some (t, x) ∧ score b = some (t, y) ∧ if o.type = 1#32 then y < x else x < y

/-- The two values are the same number. -/
def Level (a b : Value) : Prop := ∃ t x, score a = some (t, x) ∧ score b = some (t, x)

/-- At least as good on all objectives and strictly better on one. -/
def Dominates (os : List Objective) (vs ws : List Value) : Prop :=
  (∀ (i : Nat) o a b, os[i]? = some o → vs[i]? = some a → ws[i]? = some b → Beats o a b ∨ Level a b) ∧
  ∃ (i : Nat) (o : Objective) (a b : Value), os[i]? = some o ∧ vs[i]? = some a ∧ ws[i]? = some b ∧ Beats o a b

/-- The same number on all objectives. -/
def Tied (vs ws : List Value) : Prop :=
  ∀ (i : Nat) a b, vs[i]? = some a → ws[i]? = some b → Level a b

/-- On every objective the two values are numbers of the same type. -/
def Commensurable (vs ws : List Value) : Prop :=
  ∀ (i : Nat) a b, vs[i]? = some a → ws[i]? = some b → ∃ t x y, score a = some (t, x) ∧ score b = some (t, y)

/-- Integers against integers, or doubles against doubles, NaN included. -/
def SameNumericType : Value → Value → Prop
  | .int _, .int _ => True
  | .float _, .float _ => True
  | _, _ => False

/-- No objective value of the evaluation is NaN. -/
def NoNaN (ops : FloatOps) (jen : Bytes → BitVec 32) (little : Bool) (s : ObjSpace) (ds : List Datum) : Prop :=
  ∀ o ∈ s.objectives, ∀ f,
    eval ops jen little ⟨some (s.ctx.params.map (·.1)), some (ds.map (·.v))⟩ o.expression = .ok (.float f) →
    num .float f ≠ none

/-- The answer seen from the other side. -/
def _root_.CCS.Comparison.swap : Comparison → Comparison
  | .better => .worse
  | .worse => .better
  | r => r

end CCS.Spec

namespace CCS.Spec

open CCS

/-- An objective space obtained from an empty one by any calls, successful or not, with expressions made by the API. -/
inductive ObjReachable (mem : BitVec 64 → Param) : ObjSpace → Prop
  | empty : ObjReachable mem ObjSpace.empty
  | parameter {s} (h : BitVec 64) : ObjReachable mem s → ObjReachable mem (s.addParameter mem h).1
  | objective {s} {o : Objective} : ObjReachable mem s → Built o.expression → ObjReachable mem (s.addObjective o).1
  | objectives {s} {os : List Objective} : ObjReachable mem s → (∀ o ∈ os, Built o.expression) →
      ObjReachable mem (s.addObjectives os).1

/-- Every parameter the objective mentions belongs to the space. -/
def ObjKnown (s : ObjSpace) (o : Objective) : Prop := ∀ h, Occurs h o.expression → ∃ i p, Holds s.ctx i h p

end CCS.Spec
