import Verif.Model.Text

/-!
# Specification of expressions as text

Which expressions the grammar can express, when two expressions are the same, and how a text without parentheses is grouped.
-/

namespace CCS.Text.Spec

open CCS CCS.Text

/-- The bytes of a text in ASCII. -/
def ascii (s : String) : Bytes := s.toList.map fun c => BitVec.ofNat 8 c.toNat

/-- A name the grammar takes for an identifier: letters, digits and underscores, no digit first, and `none`, `true` or `false` does not
begin it. -/
def Identifier (n : Bytes) : Prop :=
  (∃ c cs, n = c :: cs ∧ c ∈ ascii "abcdefghijklmnopqrstuvwxyzABCDEFGHIJKLMNOPQRSTUVWXYZ_" ∧
    ∀ d ∈ cs, d ∈ ascii "abcdefghijklmnopqrstuvwxyzABCDEFGHIJKLMNOPQRSTUVWXYZ_0123456789") ∧
  ∀ k ∈ ["none", "true", "false"], ¬ ascii k <+: n

/-- A character a string can have: from the space to `~`, tabulations and ends of lines. -/
def Plain (c : Byte) : Prop := 32 ≤ c.toNat ∧ c.toNat ≤ 126 ∨ c ∈ ascii "\t\n\r"

instance (c : Byte) : Decidable (Plain c) := by unfold Plain; infer_instance

/-- The precedences of the operators: those of C; `#` and lists bind tighter. -/
def tiers : List (List Op) :=
  [[.or], [.and], [.equal, .notEqual], [.less, .greater, .lessEq, .greaterEq], [.add, .sub], [.mul, .div, .mod],
    [.positive, .negative, .not], [.isIn], [.list]]

/-- `op'` binds less tightly than `op`. -/
def Looser (op' op : Op) : Prop :=
  ∃ j, (∃ i, i < j ∧ op' ∈ tiers.getD i []) ∧ op ∈ tiers.getD j []

/-- The text of an operand of `op`: between parentheses if it is made with an operator that binds less tightly. -/
def Operand (op : Op) (e : Expr) (text : List Tok) : Prop :=
  (∃ o op' args, e = .node o op' args ∧ Looser op' op) ∧ text = .open :: print e ++ [.close] ∨
  ¬ (∃ o op' args, e = .node o op' args ∧ Looser op' op) ∧ text = print e

/-- A value with a text the grammar recognises. -/
def Writable : Value → Prop
  | .none => True
  | .bool b => b = 0#64 ∨ b = 1#64
  | .int _ => True
  | .float f => f.isFinite = true
  | .str (some s) => s ≠ [] ∧ ∀ c ∈ s, Plain c
  | _ => False

instance (v : Value) : Decidable (Writable v) := by
  cases v <;> unfold Writable <;> (try split) <;> infer_instance

/-- A terminal value or variable. -/
inductive Leaf (names : Names) : Expr → Prop
  | literal {o v} : Writable v → Leaf names (.literal o v)
  | var {o h p} : Identifier p.name → names p.name = some (h, p) → Leaf names (.var o h p)

/-- The operand of `#` begins with a minus sign. -/
def Signed : Expr → Prop
  | .literal _ v => negative v = true
  | _ => False

instance (e : Expr) : Decidable (Signed e) := by
  cases e <;> unfold Signed <;> infer_instance

/-- Expressions the grammar can express, the names being known to the reader: lists only on the right of `#`, made of values and
variables, and no negative number on its left. -/
inductive Legible (names : Names) : Expr → Prop
  | leaf {e} : Leaf names e → Legible names e
  | before {o op a} : op ∈ prefixes → Legible names a → Legible names (.node o op [a])
  | between {o op a b} : op ∈ infixes → Legible names a → Legible names b → Legible names (.node o op [a, b])
  | within {o a o' items} : Legible names a → ¬ Signed a → (∀ i ∈ items, Leaf names i) →
      Legible names (.node o .isIn [a, .node o' .list items])

/-- No operand on the right of an operator is itself made with an operator of the same precedence (`a - (b - c)`). -/
inductive Upright : Expr → Prop
  | literal {o v} : Upright (.literal o v)
  | var {o h p} : Upright (.var o h p)
  | before {o op a} : op ∈ prefixes → Upright a → Upright (.node o op [a])
  | between {o op a b} : op ∈ infixes → Upright a → Upright b → level b ≠ precedence op → Upright (.node o op [a, b])
  | within {o a b} : Upright a → Upright (.node o .isIn [a, b])

/-- Contains no negative number, outside of lists. -/
inductive Unsigned : Expr → Prop
  | literal {o v} : negative v = false → Unsigned (.literal o v)
  | var {o h p} : Unsigned (.var o h p)
  | before {o op a} : op ∈ prefixes → Unsigned a → Unsigned (.node o op [a])
  | between {o op a b} : op ∈ infixes → Unsigned a → Unsigned b → Unsigned (.node o op [a, b])
  | within {o a b} : Unsigned a → Unsigned (.node o .isIn [a, b])

/-- Does not contain the least integer, outside of lists. -/
inductive Moderate : Expr → Prop
  | literal {o v} : v ≠ .int 0x8000000000000000#64 → Moderate (.literal o v)
  | var {o h p} : Moderate (.var o h p)
  | before {o op a} : op ∈ prefixes → Moderate a → Moderate (.node o op [a])
  | between {o op a b} : op ∈ infixes → Moderate a → Moderate b → Moderate (.node o op [a, b])
  | within {o a b} : Moderate a → Moderate (.node o .isIn [a, b])

mutual
/-- The same expression, the addresses and user data of the expression objects forgotten. -/
def blank : Expr → Expr
  | .literal _ v => .literal fresh v
  | .var _ h p => .var fresh h p
  | .node _ op args => .node fresh op (blankAll args)

def blankAll : List Expr → List Expr
  | [] => []
  | e :: es => blank e :: blankAll es
end

/-- An expression read as the right operand of what precedes it. -/
def joined : Option (Expr × Op) → Expr → Expr
  | none, x => x
  | some (l, op), x => .node fresh op [l, x]

/-- The expression read when the text of `e` follows `c` (an operand and an operator), operators of the same precedence being grouped from
the left whatever their grouping in `e`, and the sign of a number being taken for an operator. -/
def regroup (c : Option (Expr × Op)) : Expr → Expr
  | .literal _ v =>
    joined c (if negative v then .node fresh .negative [.literal fresh (unsigned v)] else .literal fresh v)
  | .var _ h p => joined c (.var fresh h p)
  | .node _ .isIn [a, b] => joined c (.node fresh .isIn [regroup none a, blank b])
  | .node _ op [a] => joined c (.node fresh op [regroup none a])
  | .node _ op [a, b] =>
    match c with
    | some (l, op') =>
      if precedence op' = precedence op then regroup (some (regroup (some (l, op')) a, op)) b
      else joined c (regroup (some (regroup none a, op)) b)
    | none => regroup (some (regroup none a, op)) b
  | e => joined c (blank e)

end CCS.Text.Spec
