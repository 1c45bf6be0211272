import Verif.Model.BoundIdentity
import Verif.Spec.Binding

/-! # What equality of objects of the languages should mean -/

namespace CCS.BoundIdentity.Spec

open CCS CCS.Api CCS.BoundIdentity

/-- An object of the language that stands for a parameter has the class of that parameter. -/
def Stands (memory : BitVec 64 → Param) (r : Ref) : Prop := r.cls = .parameter (shapeOf (memory r.handle))

/-- The kinds of objects that are not parameters, and are not compared through the library. -/
def Plain (k : Kind) : Prop := k ≠ .parameter ∧ k ≠ .configuration ∧ k ≠ .features ∧ k ≠ .evaluation ∧ k ≠ .featuresEvaluation ∧ k ≠ .treeEvaluation ∧
  k ≠ .treeConfiguration

end CCS.BoundIdentity.Spec
