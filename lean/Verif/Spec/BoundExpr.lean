/-
What a program in Python or Ruby expects of expressions.
-/
import Verif.Model.BoundExpr

namespace CCS.Spec
open CCS

/-- The operator that a class stands for. -/
def operator : ExprClass → Op
  | .or => .or
  | .and => .and
  | .equal => .equal
  | .notEqual => .notEqual
  | .less => .less
  | .greater => .greater
  | .lessOrEqual => .lessEq
  | .greaterOrEqual => .greaterEq
  | .add => .add
  | .substract => .sub
  | .multiply => .mul
  | .divide => .div
  | .modulo => .mod
  | .positive => .positive
  | .negative => .negative
  | .not => .not
  | .isIn => .isIn
  | .list => .list

/-- A value that a program may get: no object of the library, no NULL string. -/
def Showable : Value → Prop
  | .obj _ => False
  | .str none => False
  | _ => True

/-- A value as programs give them: booleans are 0 or 1, strings end at their first NUL. -/
def Usual : Value → Prop
  | .bool i => i = 0#64 ∨ i = 1#64
  | .str (some s) => 0#8 ∉ s
  | _ => True

/-- Two lists are related one by one. -/
def OneByOne {α β : Type} (R : α → β → Prop) (xs : List α) (ys : List β) : Prop :=
  xs.length = ys.length ∧ ∀ (i : Nat) x y, xs[i]? = some x → ys[i]? = some y → R x y

/-- A program gets what the library gives: its errors, and its results in the form that the language has for them. -/
def Gets {β : Type} (R : β → Value → Prop) (given : Out Value) (got : Out β) : Prop :=
  match given with
  | .ub => got = .ub
  | .err e => got = .err e
  | .ok w => Showable w → ∃ x, got = .ok x ∧ R x w

end CCS.Spec

namespace CCS.Py.Spec
open CCS CCS.Py CCS.Spec

/-- A value of Python and a value of the library are the same. -/
def Denotes : Val → Value → Prop
  | .none, .none => True
  | .bool b, .bool i => (b = true ↔ i ≠ 0#64)
  | .int n, .int i => n = i.toInt
  | .float f, .float g => f = g
  | .str s, .str (some t) => s = t
  | .inactive, .inactive => True
  | _, _ => False

/-- An operand of an expression is what was given to build it: an expression, the variable of a parameter, a literal. -/
def Stands : Operand → Expr → Prop
  | .expr e, e' => e' = e
  | .param h p, .var _ h' p' => h' = h ∧ p' = p
  | .val v, .literal _ w => Denotes v w
  | _, _ => False

/-- What an expression can be built from: existing objects, and values that the library can represent in a literal. -/
def Usable : Operand → Prop
  | .expr _ => True
  | .param h _ => h ≠ 0#64
  | .val v => v ≠ .inactive ∧ ∃ w, Denotes v w ∧ Usual w

end CCS.Py.Spec

namespace CCS.Rb.Spec
open CCS CCS.Rb CCS.Spec

/-- A value of Ruby and a value of the library are the same. -/
def Denotes : Val → Value → Prop
  | .nil, .none => True
  | .bool b, .bool i => (b = true ↔ i ≠ 0#64)
  | .int n, .int i => n = i.toInt
  | .float f, .float g => f = g
  | .str s _, .str (some t) => s = t
  | .inactive, .inactive => True
  | _, _ => False

/-- An operand of an expression is what was given to build it: an expression, the variable of a parameter, a literal. -/
def Stands : Operand → Expr → Prop
  | .expr e, e' => e' = e
  | .param h p, .var _ h' p' => h' = h ∧ p' = p
  | .val v, .literal _ w => Denotes v w
  | _, _ => False

/-- What an expression can be built from: existing objects, and values that the library can represent in a literal. -/
def Usable : Operand → Prop
  | .expr _ => True
  | .param h _ => h ≠ 0#64
  | .val v => v ≠ .inactive ∧ ∃ w, Denotes v w ∧ Usual w

/-- A result of Ruby, and the references that were not touched to get it. -/
def Result (r : Refs) (x : Val × Refs) (w : Value) : Prop := Denotes x.1 w ∧ x.2 = r

end CCS.Rb.Spec
