import Verif.Model.Joint
import Verif.Spec.Param

/-!
# Specification of joint sampling

What a well-behaved distribution answers, which value a raw number stands for, and where the rows of a
result come from.
-/

namespace CCS.Spec

open CCS

/-- Every draw of `n` rows answers one column of `n` numbers per dimension. -/
def Shaped (d : Dist) : Prop :=
  d.bounds.length = d.dim ∧
  ∀ t k n cols, d.soa t k n = .ok cols → cols.length = d.dim ∧ ∀ c ∈ cols, c.length = n

/-- Every number of a column lies in the bounds declared for that dimension. -/
def InBounds (d : Dist) : Prop :=
  ∀ t k n cols, d.soa t k n = .ok cols →
    ∀ (i : Nat) c b, cols[i]? = some c → d.bounds[i]? = some b → ∀ x ∈ c, Mem b x

/-- The value a raw number stands for: the number itself, or the listed value at that position. -/
def Denotes (p : Param) (x : BitVec 64) (v : Value) : Prop :=
  match p.kind with
  | .numerical iv _ =>
    match iv.type with
    | .int => v = .int x
    | .float => v = .float x
  | .categorical _ values => 0 ≤ x.toInt ∧ values[x.toInt.toNat]? = some v
  | .string => False

/-- Row `r` of the flat array `out` (`dim` cells per row) is row `j` of the `k`-th draw, of `m` rows, cell
for cell. -/
def RowFrom (d : Dist) (t : Nat) (ps : List Param) (out : List Value) (r k m j : Nat) : Prop :=
  ∃ cols, d.soa t k m = .ok cols ∧
    ∀ (i : Nat) p, ps[i]? = some p → ∃ c x v, cols[i]? = some c ∧ c[j]? = some x ∧
      out[r * d.dim + i]? = some v ∧ Denotes p x v

/-- Order of draws, and of rows in a draw. -/
def Before (a b : Nat × Nat × Nat) : Prop := a.1 < b.1 ∨ (a.1 = b.1 ∧ a.2.2 < b.2.2)

end CCS.Spec
