import Verif.Model.Kinds
import Verif.Spec.Binding
import Verif.Spec.Order

/-! # Specification: bindings of any kind -/

namespace CCS.Kinds.Spec

open CCS CCS.Kinds CCS.Spec

/-- The kind of space a binding belongs to: configuration spaces, features spaces, objective spaces. -/
def spaceOf : Kind → Option Nat
  | .configuration => some 0
  | .features => some 1
  | .evaluation => some 2
  | .featuresEvaluation => some 2
  | .treeEvaluation => some 2
  | .treeConfiguration => none
  | .other => none

/-- The object at an address is a binding. -/
def IsBinding (heap : BitVec 64 → Item) (x : BitVec 64) : Prop := (spaceOf (heap x).kind).isSome

/-- Objects made by the library: a space is of one kind, and evaluations refer to objects of the right kinds. -/
structure Typed (heap : BitVec 64 → Item) : Prop where
  spaces : ∀ x y, IsBinding heap x → IsBinding heap y → (heap x).binding.context = (heap y).binding.context →
    spaceOf (heap x).kind = spaceOf (heap y).kind
  evaluation : ∀ x e, heap x = .evaluation e → (heap e.configuration).kind = .configuration
  featuresEvaluation : ∀ x e, heap x = .featuresEvaluation e →
    (heap e.evaluation.configuration).kind = .configuration ∧ (heap e.features).kind = .features
  treeEvaluation : ∀ x e, heap x = .treeEvaluation e → (heap e.configuration).kind = .treeConfiguration

/-- Two bindings of the same kind with the same contents: space, values and, for evaluations, result code and the contents of the
configuration and of the features. -/
def Same (heap : BitVec 64 → Item) (x y : BitVec 64) : Prop :=
  match heap x, heap y with
  | .configuration a, .configuration b => SameBinding a b
  | .features a, .features b => SameBinding a b
  | .evaluation e, .evaluation f => SameBinding e.binding f.binding ∧ e.result = f.result ∧
      SameBinding (heap e.configuration).binding (heap f.configuration).binding
  | .featuresEvaluation e, .featuresEvaluation f => SameBinding e.evaluation.binding f.evaluation.binding ∧
      e.evaluation.result = f.evaluation.result ∧
      SameBinding (heap e.evaluation.configuration).binding (heap f.evaluation.configuration).binding ∧
      SameBinding (heap e.features).binding (heap f.features).binding
  | .treeEvaluation e, .treeEvaluation f => SameBinding e.binding f.binding ∧ e.result = f.result ∧
      (heap e.configuration).tree = (heap f.configuration).tree
  | _, _ => False

/-- The result code of an evaluation of any kind. -/
def resultOf : Item → Option (BitVec 32)
  | .evaluation e => some e.result
  | .featuresEvaluation e => some e.evaluation.result
  | .treeEvaluation e => some e.result
  | _ => none

/-- Evaluations of different kinds that cannot be told apart by their space and values. -/
def Clash (heap : BitVec 64 → Item) (x y : BitVec 64) : Prop :=
  SameBinding (heap x).binding (heap y).binding ∧ (heap x).kind ≠ (heap y).kind

end CCS.Kinds.Spec
