import Verif.Model.Binding
import Verif.Spec.Param
import Verif.Spec.Space

/-!
# Specification of bindings

When two bindings are the same, which parameters a context holds, and which values a call writes.
-/

namespace CCS.Spec

open CCS

/-- Same space, same values; the flags of the datums do not count. -/
def SameBinding (a b : Binding) : Prop :=
  a.context = b.context ∧ a.values.map (·.v) = b.values.map (·.v)

/-- The parameter at position `i` has handle `h` and contents `p`. -/
def Holds (c : Ctx) (i : Nat) (h : BitVec 64) (p : Param) : Prop := c.params[i]? = some (h, p)

/-- A features space or an objective space obtained by adding parameters to an empty one. -/
inductive Grown (mem : BitVec 64 → Param) : Ctx → Prop
  | empty : Grown mem Ctx.empty
  | add {c} (h : BitVec 64) : Grown mem c → Grown mem (c.add mem h).1

/-- A features space, an objective space or a configuration space as the API builds them. -/
inductive Context : Ctx → Prop
  | grown {mem c} : Grown mem c → Context c
  | space {ops jen little mem mk s} : OneDimensional mk → Reachable ops jen little mem mk s → Context s.ctx

/-- The space has at least the parameters the binding of `n` values was created with (parameters are never removed),
and fewer than 2^32 of them. -/
def FitsIn (n : Nat) (c : Ctx) : Prop := n ≤ c.params.length ∧ c.params.length < 4294967296

/-- The datum may be stored at position `i`: transient ones (typically strings owned by the caller) have to be
legal for the parameter there. -/
def Accepts (c : Ctx) (i : Nat) (d : Datum) : Prop :=
  d.transient = true → ∃ h p, Holds c i h p ∧ Legal p d.v

/-- The call asks for `d` to be stored at position `i` of a binding of `n` values, and that is allowed.  A bulk write
proceeds up to the first value that is not allowed. -/
inductive Stores (c : Ctx) (n : Nat) : BindingOp → Nat → Datum → Prop
  | set {i d} : i < n → Accepts c i d → Stores c n (.set i d) i d
  | byName {i d h p} : i < n → Holds c i h p → Accepts c i d → Stores c n (.setByName p.name d) i d
  | byParameter {i d h p} : i < n → Holds c i h p → Accepts c i d → Stores c n (.setByParameter h d) i d
  | all {i d ds} : ds.length = n → ds[i]? = some d → (∀ (j : Nat) e, j ≤ i → ds[j]? = some e → Accepts c j e) →
      Stores c n (.setAll ds) i d

/-- `v` is what position `i` holds after `history`: stored by the last call that stored something there, or still
the value `v₀` held before. -/
def LastStored (n : Nat) (history : List (Ctx × BindingOp)) (i : Nat) (v₀ v : Value) : Prop :=
  (∃ (k : Nat) (c : Ctx) (op : BindingOp) (d : Datum), history[k]? = some (c, op) ∧ Stores c n op i d ∧ v = d.v ∧
    ∀ (k' : Nat) (c' : Ctx) (op' : BindingOp) (d' : Datum), k < k' → history[k']? = some (c', op') →
      ¬ Stores c' n op' i d') ∨
  (v = v₀ ∧ ∀ (k : Nat) (c : Ctx) (op : BindingOp) (d : Datum), history[k]? = some (c, op) → ¬ Stores c n op i d)

/-- Each value is legal for the parameter at its position. -/
def AllLegal (c : Ctx) (vs : List Datum) : Prop :=
  ∀ (i : Nat) h p d, Holds c i h p → vs[i]? = some d → Legal p d.v

end CCS.Spec
