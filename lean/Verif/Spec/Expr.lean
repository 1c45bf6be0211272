import Verif.Model.Expr
import Verif.Spec.Param

/-!
# Specification of expressions

Which expressions can exist, which parameters occur in one, the three-valued logic, and equality of
values.
-/

namespace CCS.Spec

open CCS

/-- Expressions obtained from the constructors of the API. -/
inductive Built : Expr → Prop
  | literal {o v e} : createLiteral o v = .ok e → Built e
  | var {o h p e} : createVariable o h p = .ok e → Built e
  | expression {o os type nodes e} : createExpression o os type nodes = .ok e →
      (∀ x, Node.expr x ∈ nodes → Built x) → Built e

/-- Parameter `h` occurs in an expression. -/
inductive Occurs (h : BitVec 64) : Expr → Prop
  | here {o p} : Occurs h (.var o h p)
  | inside {o op args a} : a ∈ args → Occurs h a → Occurs h (.node o op args)

/-- Truth values: true, false, inactive. -/
inductive Tri
  | yes | no | inactive
  deriving DecidableEq

/-- The truth value of a datum: booleans are false when zero; other data have none. -/
def tri : Value → Option Tri
  | .bool b => some (if b = 0#64 then .no else .yes)
  | .inactive => some .inactive
  | _ => none

/-- The datum of a truth value. -/
def Tri.value : Tri → Value
  | .yes => .bool 1#64
  | .no => .bool 0#64
  | .inactive => .inactive

/-- Truth table of OR: one true operand suffices. -/
def Tri.or : Tri → Tri → Tri
  | .yes, _ => .yes
  | _, .yes => .yes
  | .no, .no => .no
  | _, _ => .inactive

/-- Truth table of AND: an inactive operand wins. -/
def Tri.and : Tri → Tri → Tri
  | .inactive, _ => .inactive
  | _, .inactive => .inactive
  | .yes, .yes => .yes
  | _, _ => .no

/-- Truth table of NOT. -/
def Tri.not : Tri → Tri
  | .yes => .no
  | .no => .yes
  | .inactive => .inactive

/-- Two values are equal: the same type and the same content, or an integer and a double denoting the same
number once the integer is converted. -/
def SameValue (a b : Value) : Prop :=
  a = b ∨
  (∃ i f n, (a = .int i ∧ b = .float f ∨ a = .float f ∧ b = .int i) ∧
    realValue (F64.ofInt i) = some n ∧ realValue f = some n)

/-- Values whose comparison involves no rounding and no signed zero: integers of magnitude at most `2^53`,
doubles other than `-0.0`. -/
def Roundless : Value → Prop
  | .int i => -2 ^ 53 ≤ i.toInt ∧ i.toInt ≤ 2 ^ 53
  | .float f => f ≠ 0x8000000000000000#64
  | _ => True

/-- The number denoted by an integer or a double, times `2^1074`; `none` for a NaN and other types. -/
def number : Value → Option Int
  | .int i => some (i.toInt * ((2 ^ 1074 : Nat) : Int))
  | .float f => realValue f
  | _ => none

/-- Integers of magnitude at most `2^53` are doubles; nothing is required of other values. -/
def Convertible : Value → Prop
  | .int i => -2 ^ 53 ≤ i.toInt ∧ i.toInt ≤ 2 ^ 53
  | _ => True

/-- The mathematical result of an integer operator, with C truncation for the quotient and the remainder;
`none` for a zero divisor and for operators that are not arithmetic. -/
def exact : Op → Int → Int → Option Int
  | .add, x, y => some (x + y)
  | .sub, x, y => some (x - y)
  | .mul, x, y => some (x * y)
  | .div, x, y => if y = 0 then none else some (x.tdiv y)
  | .mod, x, y => if y = 0 then none else some (x.tmod y)
  | _, _, _ => none

/-- The arithmetic operators. -/
def Arithmetic (op : Op) : Prop := op = .add ∨ op = .sub ∨ op = .mul ∨ op = .div ∨ op = .mod

/-- A number that fits in a 64-bit signed integer. -/
def Fits (n : Int) : Prop := -2 ^ 63 ≤ n ∧ n < 2 ^ 63

/-- Two outcomes agree: the same value, or both failures. -/
def Agree (r s : Out Value) : Prop := r = s ∨ ((∃ e, r = .err e) ∧ ∃ e, s = .err e)

/-- The outcome with the boolean, if any, reversed. -/
def negated : Out Value → Out Value
  | .ok (.bool b) => .ok (.bool (if b = 0#64 then 1#64 else 0#64))
  | r => r

mutual
/-- The same expression with its variables replaced: `f` gives the new parameter of each old one.  Shape,
operators, literals and user data are unchanged. -/
def relabel (f : BitVec 64 → BitVec 64 × Param) : Expr → Expr
  | .literal o v => .literal o v
  | .var o h _ => .var o (f h).1 (f h).2
  | .node o op args => .node o op (relabelAll f args)

def relabelAll (f : BitVec 64 → BitVec 64 × Param) : List Expr → List Expr
  | [] => []
  | e :: es => relabel f e :: relabelAll f es
end

/-- A literal that can be stored: a string that is a C string, a boolean that fits in 32 bits. -/
def StorableValue : Value → Prop
  | .str s => ∃ t, s = some t ∧ 0#8 ∉ t ∧ t.length + 1 < 2 ^ 64
  | .bool b => -2 ^ 31 ≤ b.toInt ∧ b.toInt < 2 ^ 31
  | _ => True

/-- An expression that can be stored and read back with the handle map `m`: its literals can be stored, its
sizes fit in 64 bits, and `m` sends each of its variables to the parameter given by `f`. -/
inductive Storable (m : BitVec 64 → Option Target) (f : BitVec 64 → BitVec 64 × Param) : Expr → Prop
  | literal {o v} : o.ud.length < 2 ^ 64 → StorableValue v → Storable m f (.literal o v)
  | var {o h p} : o.ud.length < 2 ^ 64 → m h = some (.param (f h).1 (f h).2) → (f h).1 ≠ 0#64 →
      Storable m f (.var o h p)
  | node {o op args} : o.ud.length < 2 ^ 64 → args.length < 2 ^ 64 → (∀ a ∈ args, Storable m f a) →
      Storable m f (.node o op args)

/-- Parameter `p`, at address `h`, occurs in an expression. -/
inductive OccursAs (h : BitVec 64) (p : Param) : Expr → Prop
  | here {o} : OccursAs h p (.var o h p)
  | inside {o op args a} : a ∈ args → OccursAs h p a → OccursAs h p (.node o op args)

end CCS.Spec
