import Verif.Model.Param
import Verif.Spec.Num

/-!
# Specification of parameters

Which parameters can exist, which values are legal for one, and what a well-behaved distribution is.
-/

namespace CCS.Spec

open CCS

/-- A parameter obtained from one of the constructors of the API. -/
inductive Created (ops : FloatOps) (jen : Bytes → BitVec 32) (little : Bool) : Param → Prop
  | numerical {name t lower upper quantization default p} :
      createNumerical ops name t lower upper quantization default = .ok p →
      Created ops jen little p
  | categorical {kind name values index p} :
      createCategorical jen little kind name values index = .ok p → Created ops jen little p
  | string (name) : Created ops jen little (createString name)

/-- The values a parameter stands for: the numbers of its type in `[lower, upper)`, the listed values,
or all strings. -/
def Legal (p : Param) (v : Value) : Prop :=
  match p.kind with
  | .numerical iv _ =>
    match iv.type with
    | .int => ∃ x, v = .int x ∧ Mem iv x
    | .float => ∃ x, v = .float x ∧ Mem iv x
  | .categorical _ values => v ∈ values
  | .string => ∃ s, v = .str s

/-- Values that may be listed in a categorical, ordinal or discrete parameter. -/
def Listable (kind : CatKind) (v : Value) : Prop :=
  match kind with
  | .discrete => (∃ x, v = .int x) ∨ (∃ x, v = .float x)
  | _ => v = .none ∨ (∃ x, v = .int x) ∨ (∃ x, v = .float x) ∨ (∃ x, v = .bool x) ∨
      (∃ s, v = .str (some s))

/-- A distribution that answers each request with the requested count of numbers in its declared
bounds. -/
def Respects (bounds : Interval) (draw : Draws) : Prop :=
  ∀ k n vs, draw k n = .ok vs → vs.length = n ∧ ∀ x ∈ vs, Mem bounds x

end CCS.Spec
