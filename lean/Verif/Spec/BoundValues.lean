/-
What a program in Python or Ruby expects of the values of a configuration, features or an evaluation.
-/
import Verif.Model.BoundValues
import Verif.Spec.Binding
import Verif.Spec.PyDatum
import Verif.Spec.RbDatum

namespace CCS.Py.Spec
open CCS CCS.Py CCS.Spec

/-- The key stands for position `i`: it is the parameter there, its name, or `i`. -/
def Names (c : Ctx) (i : Nat) : Key → Prop
  | .parameter h => ∃ p, Holds c i h p
  | .name s => 0#8 ∉ s ∧ ∃ h p, Holds c i h p ∧ p.name = s
  | .position j => j = i
  | .other => False

/-- Position `i` may be given the value: a text has to be one of the values of the parameter. -/
def Takes (c : Ctx) (i : Nat) (v : Val) : Prop := ∀ s, v = .str s → ∃ h p, Holds c i h p ∧ Legal p (.str (some s))

/-- The value as the library sees it. -/
def asValue : Val → Value
  | .none => .none
  | .bool b => .bool (if b then 1#64 else 0#64)
  | .int i => .int (BitVec.ofInt 64 i)
  | .float f => .float f
  | .str s => .str (some s)
  | .inactive => .inactive
  | .other => .none

/-- A dictionary gives each name its value. -/
def Pairs (c : Ctx) (vs : List Val) (d : List (Bytes × Val)) : Prop :=
  (d.map (·.1)).Nodup ∧ d.length = c.params.length ∧
    ∀ i h p v, Holds c i h p → vs[i]? = some v → (p.name, v) ∈ d

end CCS.Py.Spec

namespace CCS.Rb.Spec
open CCS CCS.Rb CCS.Spec

/-- The key stands for position `i`: it is the parameter there, its name, or `i`. -/
def Names (c : Ctx) (i : Nat) : Key → Prop
  | .parameter h => ∃ p, Holds c i h p
  | .name s => 0#8 ∉ s ∧ ∃ h p, Holds c i h p ∧ p.name = s
  | .symbol s => 0#8 ∉ s ∧ ∃ h p, Holds c i h p ∧ p.name = s
  | .position j => j.toNat = i
  | .other => False

/-- A value that is no object of the library. -/
def Plain : Val → Prop
  | .obj _ => False
  | .ident _ => False
  | _ => True

/-- A value that is no object, as the library sees it. -/
def asValue : Val → Value
  | .nil => .none
  | .bool b => .bool (if b then 1#64 else 0#64)
  | .int i => .int (BitVec.ofInt 64 i)
  | .float f => .float f
  | .str s _ => .str (some s)
  | .inactive => .inactive
  | _ => .none

/-- Position `i` may be given the value: a text has to be one of the values of the parameter. -/
def Takes (c : Ctx) (i : Nat) (v : Val) : Prop := ∀ s b, v = .str s b → ∃ h p, Holds c i h p ∧ Legal p (.str (some s))

end CCS.Rb.Spec
