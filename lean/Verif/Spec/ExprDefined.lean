import Verif.Spec.Expr

/-!
# Specification of the creation of expressions, and of what can go wrong in an evaluation

Which operands an operator takes, what an operand given by the caller becomes, and what a signed overflow is.
-/

namespace CCS.Spec

open CCS

/-- Number of operands of an operator, by its number in `ccs_expression_type_t`: 13 to 15 are the unary plus and
minus and NOT, 17 is LIST, and the others up to 16 are binary. -/
def TakesOperands (type count : Nat) : Prop :=
  ((type ≤ 12 ∨ type = 16) ∧ count = 2) ∨ ((13 ≤ type ∧ type ≤ 15) ∧ count = 1) ∨ type = 17

/-- What may be given as an operand: an expression, a parameter, or a plain value: none, an integer, a double, a
boolean or a string. -/
def UsableOperand : Node → Prop
  | .value v => v ≠ .inactive ∧ ∀ h, v ≠ .obj h
  | .expr _ => True
  | .param h _ => h ≠ 0#64
  | .object => False

/-- What an operand given by the caller becomes: an expression stays what it is, a value becomes a literal and a
parameter a variable. -/
def StandsFor : Node → Expr → Prop
  | .expr e, e' => e' = e
  | .value v, e' => ∃ o, e' = .literal o v
  | .param h p, e' => ∃ o, e' = .var o h p
  | .object, _ => False

/-- `x` is a part of an expression. -/
inductive Part (x : Expr) : Expr → Prop
  | self : Part x x
  | inside {o op args a} : a ∈ args → Part x a → Part x (.node o op args)

/-- An expression applies an integer operator to integers whose exact result does not fit in 64 bits, or takes
the remainder of the least integer by minus one, whose quotient does not fit. -/
def Overflows (value : Expr → Out Value) (x : Expr) : Prop :=
  (∃ o op l r a b, x = .node o op [l, r] ∧ Arithmetic op ∧ value l = .ok (.int a) ∧ value r = .ok (.int b) ∧
    ((∃ n, exact op a.toInt b.toInt = some n ∧ ¬ Fits n) ∨ (op = .mod ∧ a.toInt = -2 ^ 63 ∧ b.toInt = -1))) ∨
  (∃ o l a, x = .node o .negative [l] ∧ value l = .ok (.int a) ∧ ¬ Fits (-a.toInt))

/-- The array of values has an entry for each parameter of the context. -/
def LongEnough (env : Env) : Prop :=
  ∀ ps vs, env.params = some ps → env.values = some vs → ps.length ≤ vs.length

end CCS.Spec
