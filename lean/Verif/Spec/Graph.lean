import Verif.Model.Space
import Verif.Spec.Expr

/-!
# Specification of dependencies

Which parameter depends on which, what a cycle is, and what an evaluation order is.  A list of pairs
(address, condition) stands for the parameters of a space.
-/

namespace CCS.Spec

open CCS

/-- The parameters of a space with their conditions. -/
def conditions (s : Space) : List (BitVec 64 × Option Expr) := s.params.map fun w => (w.handle, w.condition)

/-- The condition of parameter `i` mentions parameter `j`. -/
def DependsOn (ps : List (BitVec 64 × Option Expr)) (i j : Nat) : Prop :=
  ∃ h e h' c, ps[i]? = some (h, some e) ∧ ps[j]? = some (h', c) ∧ Occurs h' e

/-- One or more steps of a relation. -/
inductive Chain (R : Nat → Nat → Prop) : Nat → Nat → Prop
  | one {i j} : R i j → Chain R i j
  | more {i j k} : R i j → Chain R j k → Chain R i k

/-- No parameter depends on itself, directly or not. -/
def Acyclic (ps : List (BitVec 64 × Option Expr)) : Prop := ∀ i, ¬ Chain (DependsOn ps) i i

/-- Every parameter mentioned is in the space. -/
def Known (ps : List (BitVec 64 × Option Expr)) (e : Expr) : Prop :=
  ∀ h, Occurs h e → ∃ (j : Nat) (c : Option Expr), ps[j]? = some (h, c)

/-- An evaluation order: every parameter once, after the parameters its condition mentions. -/
def EvalOrder (ps : List (BitVec 64 × Option Expr)) (l : List Nat) : Prop :=
  l.Perm (List.range ps.length) ∧
  ∀ before i after, l = before ++ i :: after → ∀ j, DependsOn ps i j → j ∈ before

end CCS.Spec
