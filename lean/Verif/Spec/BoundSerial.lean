import Verif.Model.BoundSerial
import Verif.Spec.Channel

/-! # Specification: what a program asks for when it serializes and reads -/

namespace CCS.BoundSerial.Spec

open CCS CCS.BoundInterval CCS.BoundSerial CCS.Spec

/-- Arguments that mean something for the system: a path without a NUL. -/
def Clean (path : Option Bytes) : Prop := ∀ p, path = some p → 0#8 ∉ p

/-- Arguments that Python does not take for missing ones. -/
def Noticed (lang : Lang) (path : Option Bytes) (fd : Option Nat) : Prop :=
  lang = .python → path ≠ some [] ∧ fd ≠ some 0

/-- The options that the library is to use for what the program gives. -/
def wanted {V : Type} (r : Reading V) : DeOpts V :=
  ⟨r.map, r.vector, (r.data.map (·.address)).getD 0#64, none, some r.callback⟩

/-- Arguments that the language does not take for missing ones. -/
def Heeded {V : Type} (lang : Lang) (r : Reading V) : Prop :=
  (lang = .python → r.map ≠ some []) ∧ ∀ d, r.data = some d → d.truth lang = true

end CCS.BoundSerial.Spec
