import Verif.Model.Tuner
import Verif.Spec.Evaluation

/-!
# Specification of tuners: the Pareto front of a history
-/

namespace CCS.Spec

open CCS

/-- Entry `i` of the history belongs to the front: no entry is better, no earlier entry is as good. -/
def InFront (better same : BitVec 64 → BitVec 64 → Prop) (history : List (BitVec 64)) (i : Nat) : Prop :=
  ∃ e, history[i]? = some e ∧ (∀ (j : Nat) f, history[j]? = some f → ¬ better f e) ∧
    ∀ (j : Nat) f, j < i → history[j]? = some f → ¬ same f e

/-- `optima` lists the front of the history in order of arrival. -/
def IsFront (better same : BitVec 64 → BitVec 64 → Prop) (history optima : List (BitVec 64)) : Prop :=
  ∃ indexes : List Nat, indexes.Pairwise (· < ·) ∧ (∀ i, i ∈ indexes ↔ InFront better same history i) ∧
    optima.map some = indexes.map (history[·]?)

/-- The evaluations are not NULL and `vals e` are numbers rating each successful evaluation `e` of the list on the objectives of the space `sp`. -/
structure AllRated (ops : FloatOps) (jen : Bytes → BitVec 32) (little : Bool) (s : ObjSpace) (sp : BitVec 64)
    (evals : BitVec 64 → Evaluation) (vals : BitVec 64 → List Value) (l : List (BitVec 64)) : Prop where
  notNull : ∀ e ∈ l, e ≠ 0#64
  space : ∀ e ∈ l, (evals e).result = 0#32 → (evals e).binding.context = sp
  rated : ∀ e ∈ l, (evals e).result = 0#32 → Rated ops jen little s (evals e).binding.values (vals e)
  numbers : ∀ e ∈ l, (evals e).result = 0#32 → ∀ f ∈ l, (evals f).result = 0#32 → Commensurable (vals e) (vals f)

/-- The same for evaluations with features: only the ratings of evaluations with the same features have to be
numbers of the same types. -/
structure AllRatedFor (ops : FloatOps) (jen : Bytes → BitVec 32) (little : Bool) (s : ObjSpace) (sp : BitVec 64)
    (feats : BitVec 64 → Binding) (evals : BitVec 64 → FeaturesEvaluation) (vals : BitVec 64 → List Value)
    (l : List (BitVec 64)) : Prop where
  notNull : ∀ e ∈ l, e ≠ 0#64
  space : ∀ e ∈ l, (evals e).evaluation.result = 0#32 → (evals e).evaluation.binding.context = sp
  rated : ∀ e ∈ l, (evals e).evaluation.result = 0#32 →
    Rated ops jen little s (evals e).evaluation.binding.values (vals e)
  numbers : ∀ e ∈ l, (evals e).evaluation.result = 0#32 → ∀ f ∈ l, (evals f).evaluation.result = 0#32 →
    SameBinding (feats (evals e).features) (feats (evals f).features) → Commensurable (vals e) (vals f)

end CCS.Spec
