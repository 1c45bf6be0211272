import Verif.Model.BoundConfig
import Verif.Spec.Binding
import Verif.Spec.BoundValues
import Verif.Spec.Space

/-!
# What a program in Python or Ruby expects of configurations and features
-/

namespace CCS.BoundConfig.Spec

open CCS CCS.Spec CCS.BoundTree

/-- A value that the bindings show as it is: a Boolean that is 0 or 1, a text without NUL, and what is no object. -/
def Faithful : Value → Prop
  | .bool b => b = 0#64 ∨ b = 1#64
  | .str (some s) => 0#8 ∉ s
  | .str none => False
  | .obj _ => False
  | _ => True

/-- A language that gives back what it took; only texts are given with the demand that the library keeps a copy. -/
def Returns {α : Type} (t : Tongue α) : Prop :=
  ∀ v, Faithful v → ∃ x d, t.take { v := v } = .ok x ∧ t.give x = .ok d ∧ d.v = v ∧ (d.transient = true → ∃ s, v = .str (some s))

/-- The texts among the values are ones that their parameters have. -/
def TextsLegal (c : Ctx) (vals : List Value) : Prop :=
  ∀ (i : Nat) s, vals[i]? = some (.str s) → ∃ h p, Holds c i h p ∧ Legal p (.str s)

/-- A seed that is an unsigned integer of 64 bits. -/
def Seed (i : Int) : Prop := 0 ≤ i ∧ i < 2 ^ 64

end CCS.BoundConfig.Spec
