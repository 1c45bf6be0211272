import Verif.Model.Expr
import Verif.Model.Roulette

/-!
# Expressions as text

Models the grammar tables of `src/expression.c:8-83`, the printing of expressions by the bindings
(`bindings/python/cconfigspace/expression.py`, `bindings/ruby/lib/cconfigspace/expression.rb`) and the parser the bindings build
from the tables (`bindings/python/cconfigspace/expression_parser.py`).

Text is represented by the sequence of the terminals it is made of.  The parser generator itself is not part of the repository: it is
modelled as a shift-reduce parser that settles conflicts by the priorities and the associativities written in the grammar.
-/

namespace CCS.Text

open CCS

/-! ## Tables -/

/-- `ccs_expression_precedence`, `src/expression.c:8-19`; the last two entries are `atomPrecedence`. -/
def precedence : Op → Nat
  | .or => 0
  | .and => 1
  | .equal | .notEqual => 2
  | .less | .greater | .lessEq | .greaterEq => 3
  | .add | .sub => 4
  | .mul | .div | .mod => 5
  | .positive | .negative | .not => 6
  | .isIn => 7
  | .list => 8

/-- `ccs_expression_precedence` of LITERAL and VARIABLE, `src/expression.c:18`. -/
def atomPrecedence : Nat := 9

/-- `ccs_expression_associativity`, `src/expression.c:21-32`: left to right. -/
def fromLeft : Op → Bool
  | .positive | .negative | .not => false
  | _ => true

/-- `ccs_expression_symbols`, `src/expression.c:34-45` (LIST has none). -/
def symbol : Op → String
  | .or => "||" | .and => "&&" | .equal => "==" | .notEqual => "!=" | .less => "<" | .greater => ">" | .lessEq => "<="
  | .greaterEq => ">=" | .add => "+" | .sub => "-" | .mul => "*" | .div => "/" | .mod => "%" | .positive => "+"
  | .negative => "-" | .not => "!" | .isIn => "#" | .list => ""

/-! ## Text -/

/-- A terminal of a text.  `value` is the text of a value, `name` an identifier, `other` a piece of text that is none of the terminals
of the grammar. -/
inductive Tok
  | open | close | openList | closeList | comma
  | symbol (s : String)
  | value (v : Value)
  | name (n : Bytes)
  | other
  deriving DecidableEq, Repr

/-- Characters the pattern of strings accepts as they are, or that are printed as one of the escapes it accepts
(`src/expression.c:69`): printable ASCII, tabulation, newline and carriage return. -/
def plainChar (c : Byte) : Bool :=
  (decide (32 ≤ c.toNat) && decide (c.toNat ≤ 126)) || decide (c.toNat = 9) || decide (c.toNat = 10) || decide (c.toNat = 13)

/-- Letters and the underscore, `src/expression.c:70`. -/
def letter (c : Byte) : Bool :=
  (decide (97 ≤ c.toNat) && decide (c.toNat ≤ 122)) || (decide (65 ≤ c.toNat) && decide (c.toNat ≤ 90)) || decide (c.toNat = 95)

/-- Digits, `src/expression.c:70`. -/
def digit (c : Byte) : Bool := decide (48 ≤ c.toNat) && decide (c.toNat ≤ 57)

/-- The three keywords `none`, `true`, `false`, which win over identifiers they begin (`src/expression.c:60-71`). -/
def keywords : List Bytes := [[110, 111, 110, 101], [116, 114, 117, 101], [102, 97, 108, 115, 101]]

/-- A name is read back as an identifier: it matches the pattern of `src/expression.c:70` and begins with no keyword. -/
def identifier (n : Bytes) : Bool :=
  match n with
  | [] => false
  | c :: cs => letter c && cs.all (fun d => letter d || digit d) && keywords.all (fun k => !k.isPrefixOf n)

/-- `ExpressionLiteral.__str__`, `bindings/python/cconfigspace/expression.py:415-426`.  Booleans print as `true` or `false`; numbers and
strings as the language prints them.  What the language prints for infinities, NaN, empty strings, strings with unusual characters or
NULL matches no terminal (or not the one of a value). -/
def literalText : Value → Tok
  | .none => .value .none
  | .bool b => .value (.ofBool (decide (b ≠ 0#64)))
  | .int i => .value (.int i)
  | .float f => if f.isFinite then .value (.float f) else .other
  | .str (some s) => if s ≠ [] ∧ s.all plainChar then .value (.str (some s)) else .other
  | _ => .other

/-- Precedence of an expression, by its type. -/
def level : Expr → Nat
  | .node _ op _ => precedence op
  | _ => atomPrecedence

/-- `"({})".format(n) if … < prec else n.__str__()`, `bindings/python/cconfigspace/expression.py:176`. -/
def wrap (p : Nat) (e : Expr) (text : List Tok) : List Tok :=
  if level e < p then .open :: text ++ [.close] else text

/-- `", ".join`. -/
def join : List (List Tok) → List Tok
  | [] => []
  | [t] => t
  | t :: ts => t ++ .comma :: join ts

mutual
/-- `Expression.__str__`, `bindings/python/cconfigspace/expression.py:172-180` (`to_s`,
`bindings/ruby/lib/cconfigspace/expression.rb:194-211`), with the texts of literals (`:415-426`), variables (`:451-452`) and lists
(`:496-497`).  White space is not represented. -/
def print : Expr → List Tok
  | .literal _ v => [literalText v]
  | .var _ _ p => [if identifier p.name then .name p.name else .other]
  | .node _ op args =>
    if op = .list then .openList :: join (printAll args) ++ [.closeList]
    else match printWrapped (precedence op) args with
      | [] => []
      | [t] => .symbol (symbol op) :: t
      | t :: u :: _ => t ++ .symbol (symbol op) :: u

/-- The texts of the items of a list. -/
def printAll : List Expr → List (List Tok)
  | [] => []
  | e :: es => print e :: printAll es

/-- The texts of the operands, parenthesised where their precedence is lower. -/
def printWrapped (p : Nat) : List Expr → List (List Tok)
  | [] => []
  | e :: es => wrap p e (print e) :: printWrapped p es
end

/-! ## Reading -/

/-- Addresses of the expressions created by the parser are not represented. -/
def fresh : ObjMeta := ⟨0#64, []⟩

/-- Operators written before their operand, `bindings/python/cconfigspace/expression_parser.py:10-12`. -/
def prefixes : List Op := [.positive, .negative, .not]

/-- Operators written between their operands, `bindings/python/cconfigspace/expression_parser.py:13-14`. -/
def infixes : List Op := [.or, .and, .equal, .notEqual, .less, .greater, .lessEq, .greaterEq, .add, .sub, .mul, .div, .mod]

/-- What the parser has read and not yet reduced. -/
inductive Frame
  | paren
  | before (op : Op)
  | between (l : Expr) (op : Op)

/-- State of the parser: an operand is expected; an operand has been read; after `#`; after `[`; after an item; after a comma. -/
inductive State
  | want (s : List Frame)
  | got (x : Expr) (s : List Frame)
  | afterIn (x : Expr) (s : List Frame)
  | inList (x : Expr) (s : List Frame)
  | afterItem (x : Expr) (items : List Expr) (s : List Frame)
  | afterComma (x : Expr) (items : List Expr) (s : List Frame)

/-- A conflict between reducing the production of `op` and shifting an operator of priority `q` is settled for the reduction if the
production has the higher priority, or the same and is left associative
(`bindings/python/cconfigspace/expression_parser.py:12-16`: `{{{}, {}}}`). -/
def reduces (op : Op) (q : Nat) : Bool := decide (q < precedence op) || (decide (q = precedence op) && fromLeft op)

/-- Reductions before an operator of priority `q` is shifted; the actions of
`bindings/python/cconfigspace/expression_parser.py:47-52` create the expressions. -/
def reduceBefore (q : Nat) : Expr → List Frame → Expr × List Frame
  | x, .between l op :: s => if reduces op q then reduceBefore q (.node fresh op [l, x]) s else (x, .between l op :: s)
  | x, .before op :: s => if reduces op q then reduceBefore q (.node fresh op [x]) s else (x, .before op :: s)
  | x, s => (x, s)

/-- Reductions before a closing parenthesis and at the end of the text. -/
def reduceAll : Expr → List Frame → Expr × List Frame
  | x, .between l op :: s => reduceAll (.node fresh op [l, x]) s
  | x, .before op :: s => reduceAll (.node fresh op [x]) s
  | x, s => (x, s)

/-- A number whose text begins with a minus sign. -/
def negative : Value → Bool
  | .int i => decide (i.toInt < 0)
  | .float f => decide (2 ^ 63 ≤ f.toNat)
  | _ => false

/-- The number after the minus sign.  (The absolute value of the least integer does not fit: `ctypes` keeps its 64 low bits.) -/
def unsigned : Value → Value
  | .int i => .int (-i)
  | .float f => .float (F64.neg f)
  | v => v

/-- Finding the parameter of an identifier: `p.extra.parameter_by_name`,
`bindings/python/cconfigspace/expression_parser.py:68`; `context.parameter_by_name`,
`bindings/ruby/lib/cconfigspace/expression_parser.rb:57-58`. -/
abbrev Names := Bytes → Option (BitVec 64 × Param)

/-- A value of a list, `bindings/python/cconfigspace/expression_parser.py:20-29`: only here a minus sign belongs to the number. -/
def item (names : Names) : Tok → Option Expr
  | .value v => some (.literal fresh v)
  | .name n => (names n).map fun x => .var fresh x.1 x.2
  | _ => none

/-- One terminal read, by the grammar of `bindings/python/cconfigspace/expression_parser.py:8-29`.  `none` is a syntax error or an
unknown name.  Where an operand is expected the operator `-` (priority 10 by default) wins over the number it begins (priority 0). -/
def feed (names : Names) : State → Tok → Option State
  | .want s, .open => some (.want (.paren :: s))
  | .want s, .symbol t => (prefixes.find? fun op => symbol op = t).map fun op => .want (.before op :: s)
  | .want s, .value v =>
    if negative v then some (.got (.literal fresh (unsigned v)) (.before .negative :: s))
    else some (.got (.literal fresh v) s)
  | .want s, .name n => (names n).map fun x => .got (.var fresh x.1 x.2) s
  | .got x s, .close =>
    match reduceAll x s with
    | (x, .paren :: s) => some (.got x s)
    | _ => none
  | .got x s, .symbol t =>
    match infixes.find? fun op => symbol op = t with
    | some op =>
      let r := reduceBefore (precedence op) x s
      some (.want (.between r.1 op :: r.2))
    | none =>
      if t = symbol .isIn then
        let r := reduceBefore (precedence .isIn) x s
        some (.afterIn r.1 r.2)
      else none
  | .afterIn x s, .openList => some (.inList x s)
  | .inList x s, .closeList => some (.got (.node fresh .isIn [x, .node fresh .list []]) s)
  | .inList x s, t => (item names t).map fun i => .afterItem x [i] s
  | .afterItem x items s, .comma => some (.afterComma x items s)
  | .afterItem x items s, .closeList => some (.got (.node fresh .isIn [x, .node fresh .list items]) s)
  | .afterComma x items s, t => (item names t).map fun i => .afterItem x (items ++ [i]) s
  | _, _ => none

/-- A sequence of terminals. -/
def feedAll (names : Names) : State → List Tok → Option State
  | st, [] => some st
  | st, t :: ts => (feed names st t).bind fun st => feedAll names st ts

/-- The end of the text. -/
def finish : State → Option Expr
  | .got x s =>
    match reduceAll x s with
    | (x, []) => some x
    | _ => none
  | _ => none

/-- `parse`, `bindings/python/cconfigspace/expression_parser.py:75-76`
(`bindings/ruby/lib/cconfigspace/expression_parser.rb:24-27`, where the parser is given a context). -/
def parse (names : Names) (ts : List Tok) : Option Expr := (feedAll names (.want []) ts).bind finish

/-- The names known to `parse` of the Python binding: the parser is given no `extra` object
(`bindings/python/cconfigspace/expression_parser.py:68,75-76`), so looking up any identifier fails. -/
def noNames : Names := fun _ => none

end CCS.Text
