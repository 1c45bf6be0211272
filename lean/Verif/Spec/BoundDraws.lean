import Verif.Model.BoundDraws
import Verif.Spec.Distribution

/-!
# Specification of distributions used from Python and Ruby
-/

namespace CCS.Spec

open CCS

/-- The number `x` of Python or Ruby is the value `v` of the library: the same integer, or the same double. -/
def Number (t : NumType) (v : BitVec 64) (x : Num) : Prop :=
  match t, x with
  | .int, .int i => i = v.toInt
  | .float, .float f => f = v
  | _, _ => False

/-- What a program is shown of a sample: its number when the distribution has one dimension, otherwise the list of its numbers. -/
inductive Shown : List NumType → List (BitVec 64) → Draw → Prop
  | one {t v x} : Number t v x → Shown [t] [v] (.one x)
  | many {ts row xs} : ts.length ≠ 1 → row.length = ts.length → xs.length = ts.length →
      (∀ (i : Nat) t v x, ts[i]? = some t → row[i]? = some v → xs[i]? = some x → Number t v x) → Shown ts row (.many xs)

/-- A call of a binding ends as the call of the library does, and shows all the samples of it in order. -/
def Reports {α σ : Type} (shown : Rows → α → Prop) (out : Option (Out (Rows × σ))) (r : Option (Out (α × σ))) : Prop :=
  match out with
  | none => r = none
  | some .ub => r = some .ub
  | some (.err e) => r = some (.err e)
  | some (.ok (rows, g')) => ∃ x, r = some (.ok (x, g')) ∧ shown rows x

/-- One sample. -/
def ShownOne (types : List NumType) (rows : Rows) (x : Draw) : Prop := ∃ row, rows = [row] ∧ Shown types row x

/-- Several samples. -/
def ShownAll (types : List NumType) (rows : Rows) (xs : List Draw) : Prop :=
  xs.length = rows.length ∧ ∀ (i : Nat) row x, rows[i]? = some row → xs[i]? = some x → Shown types row x

end CCS.Spec
