import Verif.Model.Param

/-!
# Expressions

Models `src/expression.c` (creation, evaluation, reported parameters, serialization),
`src/expression_deserialize.h` and `ccs_context_get_parameter_index` (`src/context.c:10-20`).
-/

namespace CCS

/-! ## Conversion of integers to doubles -/

/-- Rounding of a magnitude `m < 2^64` to a double (round to nearest, ties to even): bit pattern of the
non-negative double.  `m = q * 2^s + r` with `2^52 ≤ q < 2^53`; the carry of the increment
propagates to the exponent field. -/
def F64.ofNat (m : Nat) : Nat :=
  if m = 0 then 0
  else
    let e := m.log2
    if e ≤ 52 then (e + 1022) * 2 ^ 52 + m * 2 ^ (52 - e)
    else
      let s := e - 52
      let q := m / 2 ^ s
      let r := m % 2 ^ s
      let up := if 2 ^ (s - 1) < r ∨ (r = 2 ^ (s - 1) ∧ q % 2 = 1) then 1 else 0
      (e + 1022) * 2 ^ 52 + q + up

/-- Implicit conversion of a `ccs_int_t` to `double` by the mixed comparisons and arithmetic of
`src/expression.c` (C11 6.3.1.4p2, IEEE-754 default rounding). -/
def F64.ofInt (i : BitVec 64) : F64 :=
  if i.toInt < 0 then BitVec.ofNat 64 (2 ^ 63 + F64.ofNat i.toInt.natAbs)
  else BitVec.ofNat 64 (F64.ofNat i.toInt.natAbs)

/-- Unary minus on a double flips the sign bit. -/
def F64.neg (f : F64) : F64 := f ^^^ 0x8000000000000000#64

/-! ## Expressions -/

/-- `ccs_expression_type_t` up to LIST, `include/cconfigspace/expression.h`. -/
inductive Op
  | or | and | equal | notEqual | less | greater | lessEq | greaterEq
  | add | sub | mul | div | mod | positive | negative | not | isIn | list
  deriving DecidableEq, Repr

/-- Number of an operator in the enumeration. -/
def Op.code : Op → Nat
  | .or => 0 | .and => 1 | .equal => 2 | .notEqual => 3 | .less => 4 | .greater => 5
  | .lessEq => 6 | .greaterEq => 7 | .add => 8 | .sub => 9 | .mul => 10 | .div => 11 | .mod => 12
  | .positive => 13 | .negative => 14 | .not => 15 | .isIn => 16 | .list => 17

/-- Operator of a number, `none` above LIST. -/
def Op.ofCode : Nat → Option Op
  | 0 => some .or | 1 => some .and | 2 => some .equal | 3 => some .notEqual | 4 => some .less
  | 5 => some .greater | 6 => some .lessEq | 7 => some .greaterEq | 8 => some .add | 9 => some .sub
  | 10 => some .mul | 11 => some .div | 12 => some .mod | 13 => some .positive | 14 => some .negative
  | 15 => some .not | 16 => some .isIn | 17 => some .list | _ => none

/-- `ccs_expression_arity`, `src/expression.c:47-58` (`none` for `-1`). -/
def Op.arity : Op → Option Nat
  | .positive | .negative | .not => some 1
  | .list => none
  | _ => some 2

/-- What serialization needs to know about an object: its address and what the user-data callback
produces for it. -/
structure ObjMeta where
  handle : BitVec 64
  ud : Bytes
  deriving DecidableEq, Repr

/-- `_ccs_expression_s` with its data (`src/expression_internal.h:18-39`).  Expressions and parameters are
immutable once created, so a node is represented by its content (sharing of sub-expressions is not
represented) and a variable by the address and the content of its parameter. -/
inductive Expr
  | node (o : ObjMeta) (op : Op) (args : List Expr)
  | literal (o : ObjMeta) (v : Value)
  | var (o : ObjMeta) (h : BitVec 64) (p : Param)
  deriving Repr

/-- Address and user data of an expression object. -/
def Expr.info : Expr → ObjMeta
  | .node o _ _ => o
  | .literal o _ => o
  | .var o _ _ => o

/-- The parameter of a variable: the type recorded in `htl`/`htr` by `_ccs_expr_node_eval`
(`src/expression.c:211-227`), `none` standing for `CCS_PARAMETER_TYPE_MAX`. -/
def Expr.param? : Expr → Option Param
  | .var _ _ p => some p
  | _ => none

/-! ### Creation -/

/-- An element of the `nodes` array of `ccs_create_expression`: a plain value, or an object that is an
expression, a parameter, or something else. -/
inductive Node
  | value (v : Value)
  | expr (e : Expr)
  | param (h : BitVec 64) (p : Param)
  | object

/-- `ccs_create_literal`, `src/expression.c:1386-1426`: types NONE to STRING.  The string is copied. -/
def createLiteral (o : ObjMeta) (v : Value) : Out Expr :=
  if 4 < v.tag then .err .invalidValue else .ok (.literal o v)

/-- `ccs_create_variable`, `src/expression.c:1428-1458`: the parameter is a valid object. -/
def createVariable (o : ObjMeta) (h : BitVec 64) (p : Param) : Out Expr :=
  if h = 0#64 then .err .invalidObject else .ok (.var o h p)

/-- Type test of a node, `src/expression.c:1478-1493` (`ccs_object_get_type` refuses a NULL object). -/
def Node.refusal : Node → Option Err
  | .value v => if 4 < v.tag then some .invalidValue else none
  | .expr _ => none
  | .param h _ => if h = 0#64 then some .invalidObject else none
  | .object => some .invalidValue

/-- The loop of `src/expression.c:1513-1542`: expressions are taken as they are, parameters and values are
wrapped; `os` gives the addresses of the created objects. -/
def makeNodes : List ObjMeta → List Node → Out (List Expr)
  | _, [] => .ok []
  | os, .expr e :: ns => do
    let es ← makeNodes os ns
    .ok (e :: es)
  | os, .param h p :: ns => do
    let e ← createVariable (os.headD ⟨0#64, []⟩) h p
    let es ← makeNodes os.tail ns
    .ok (e :: es)
  | os, .value v :: ns => do
    let e ← createLiteral (os.headD ⟨0#64, []⟩) v
    let es ← makeNodes os.tail ns
    .ok (e :: es)
  | _, .object :: _ => .err .invalidValue

/-- `arity >= 0 && num_nodes != (size_t)arity`, `src/expression.c:1474-1476`. -/
def arityMismatch (op : Op) (n : Nat) : Bool :=
  match op.arity with
  | some a => decide (n ≠ a)
  | none => false

/-- `ccs_create_expression`, `src/expression.c:1460-1553`, type given by its number. -/
def createExpression (o : ObjMeta) (os : List ObjMeta) (type : Nat) (nodes : List Node) : Out Expr :=
  match Op.ofCode type with
  | none => .err .invalidValue
  | some op =>
    if arityMismatch op nodes.length then .err .invalidValue
    else match nodes.findSome? Node.refusal with
      | some e => .err e
      | none => do
        let es ← makeNodes os nodes
        .ok (.node o op es)

/-! ### Evaluation -/

/-- What an evaluation is given: the context (addresses of its parameters in order; `none` for a NULL
context) and the array of values (`none` for NULL). -/
structure Env where
  params : Option (List (BitVec 64))
  values : Option (List Value)

/-- `_ccs_context_get_parameter_index`, `src/context_internal.h` (`HASH_FIND` by address). -/
def paramIndex (params : List (BitVec 64)) (h : BitVec 64) : Out Nat :=
  match params.findIdx? (fun x => decide (x = h)) with
  | some i => .ok i
  | none => .err .invalidParameter

/-- `_ccs_expr_variable_eval`, `src/expression.c:1295-1310`.  Reading past the array is undefined. -/
def Env.lookup (env : Env) (h : BitVec 64) : Out Value :=
  match env.values with
  | none => .err .invalidValue
  | some values =>
    match env.params with
    | none => .err .invalidObject
    | some params => do
      let i ← paramIndex params h
      match values[i]? with
      | some v => .ok v
      | none => .ub

/-- `_ccs_expr_or_eval`, `src/expression.c:251-286`, on the outcomes of the two operands. -/
def evalOr (l r : Out Value) : Out Value := do
  let a ← l
  let b ← r
  if a.tag ≠ 3 ∧ a.tag ≠ 5 then .err .invalidValue
  else if b.tag ≠ 3 ∧ b.tag ≠ 5 then .err .invalidValue
  else match a, b with
    | .bool x, .bool y => .ok (.ofBool (decide (x ≠ 0#64) || decide (y ≠ 0#64)))
    | .bool x, _ => .ok (if x ≠ 0#64 then .ofBool true else .inactive)
    | _, .bool y => .ok (if y ≠ 0#64 then .ofBool true else .inactive)
    | _, _ => .ok .inactive

/-- `_ccs_expr_and_eval`, `src/expression.c:293-311`. -/
def evalAnd (l r : Out Value) : Out Value := do
  let a ← l
  let b ← r
  if a = .inactive then .ok .inactive
  else if b = .inactive then .ok .inactive
  else match a, b with
    | .bool x, .bool y => .ok (.ofBool (decide (x ≠ 0#64) && decide (y ≠ 0#64)))
    | _, _ => .err .invalidValue

/-- `_ccs_expr_not_eval`, `src/expression.c:1019-1034`. -/
def evalNot (n : Out Value) : Out Value := do
  let a ← n
  match a with
  | .inactive => .ok .inactive
  | .bool x => .ok (.ofBool (decide (x = 0#64)))
  | _ => .err .invalidValue

section
variable (ops : FloatOps) (jen : Bytes → BitVec 32) (little : Bool)

/-- `CHECK_PARAMETERS`, `src/expression.c:318-339`. -/
def checkParameters (p : Option Param) (v : Value) : Out Unit :=
  match p with
  | none => .ok ()
  | some p =>
    match p.kind with
    | .categorical .ordinal _ => refute (checkValue jen little p v = false) .invalidValue
    | .categorical .categorical _ => refute (checkValue jen little p v = false) .invalidValue
    | .categorical .discrete _ => refute (v.tag ≠ 1 ∧ v.tag ≠ 2) .invalidValue
    | .numerical _ _ => refute (v.tag ≠ 1 ∧ v.tag ≠ 2) .invalidValue
    | .string => .ok ()

/-- `_ccs_datum_test_equal_generic`, `src/expression.c:353-388`: (valid, equal).  The default case compares
the 8 bytes of the value union; the payload of an INACTIVE datum (`ccs_inactive`) is zero. -/
def testEqual (a b : Value) : Bool × Bool :=
  match a, b with
  | .str s, .str t => (true, decide (strOptCmp s t = .eq))
  | .none, .none => (true, true)
  | .inactive, .inactive => (true, true)
  | .int x, .int y => (true, decide (memcmp8 little x y = .eq))
  | .float x, .float y => (true, decide (memcmp8 little x y = .eq))
  | .bool x, .bool y => (true, decide (memcmp8 little x y = .eq))
  | .obj x, .obj y => (true, decide (memcmp8 little x y = .eq))
  | .int x, .float y => (true, F64.feq (F64.ofInt x) y)
  | .float x, .int y => (true, F64.feq x (F64.ofInt y))
  | _, _ => (false, false)

/-- `_ccs_datum_cmp_generic`, `src/expression.c:390-433`. -/
def cmpGeneric (a b : Value) : Out Ordering :=
  match a, b with
  | .str s, .str t => .ok (strOptCmp s t)
  | .int x, .int y => .ok (intCmp x y)
  | .float x, .float y => .ok (floatCmp x y)
  | .int x, .float y => .ok (floatCmp (F64.ofInt x) y)
  | .float x, .int y => .ok (floatCmp x (F64.ofInt y))
  | _, _ => .err .invalidValue

/-- `_ccs_expr_equal_eval` (`negated = false`), `src/expression.c:435-463`, and
`_ccs_expr_not_equal_eval` (`negated = true`), `src/expression.c:470-498`; `pl`, `pr` are the parameters of
the operands that are variables. -/
def evalEqual (negated : Bool) (pl pr : Option Param) (l r : Out Value) : Out Value := do
  let a ← l
  let b ← r
  if a = .inactive then .ok .inactive
  else if b = .inactive then .ok .inactive
  else do
    checkParameters jen little pl b
    checkParameters jen little pr a
    let t := testEqual little a b
    if pl = none ∧ pr = none ∧ t.1 = false then .err .invalidValue
    else .ok (.ofBool (if negated then !t.2 else t.2))

/-- The type recorded for an operand is CATEGORICAL. -/
def isCategorical : Option Param → Bool
  | some p => match p.kind with
    | .categorical .categorical _ => true
    | _ => false
  | none => false

/-- The ordinal parameter of an operand, if it is a variable on an ordinal parameter. -/
def ordinal? : Option Param → Option Param
  | some p => match p.kind with
    | .categorical .ordinal _ => some p
    | _ => none
  | none => none

/-- Comparison of two active operands, `src/expression.c:524-546`. -/
def compareOperands (pl pr : Option Param) (a b : Value) : Out Ordering := do
  checkParameters jen little pl b
  checkParameters jen little pr a
  match ordinal? pl, ordinal? pr with
  | some p, _ => ordinalCompare jen little p a b
  | none, some p => ordinalCompare jen little p a b
  | none, none => cmpGeneric a b

/-- `_ccs_expr_less_eval` (`src/expression.c:505-548`), `_ccs_expr_greater_eval` (`:555-598`),
`_ccs_expr_less_or_equal_eval` (`:605-648`), `_ccs_expr_greater_or_equal_eval` (`:655-698`), which differ
only in the test on the sign of the comparison. -/
def evalCompare (test : Ordering → Bool) (pl pr : Option Param) (l r : Out Value) : Out Value := do
  let a ← l
  let b ← r
  if isCategorical pl ∨ isCategorical pr then .err .invalidValue
  else if a = .inactive then .ok .inactive
  else if b = .inactive then .ok .inactive
  else do
    let c ← compareOperands jen little pl pr a b
    .ok (.ofBool (test c))

/-- The loop of `_ccs_expr_in_eval`, `src/expression.c:724-742`, on the outcomes of the items left. -/
def evalInLoop (pl : Option Param) (a : Value) : Bool → List (Out Value) → Out Value
  | inactive, [] => .ok (if inactive then .inactive else .ofBool false)
  | inactive, r :: rs => do
    let b ← r
    checkParameters jen little pl b
    if (testEqual little a b).2 then .ok (.ofBool true)
    else evalInLoop pl a (inactive || decide (b = .inactive)) rs

/-- `_ccs_expr_in_eval`, `src/expression.c:705-743`; `items` are the outcomes of the items when the right
operand is a LIST. -/
def evalIn (pl : Option Param) (l : Out Value) (items : Option (List (Out Value))) : Out Value :=
  match items with
  | none => .err .invalidValue
  | some rs => do
    let a ← l
    if a = .inactive then .ok .inactive
    else evalInLoop jen little pl a false rs

/-- A 64-bit signed result; overflow is undefined behaviour. -/
def intResult (i : Int) : Out Value :=
  if -2 ^ 63 ≤ i ∧ i < 2 ^ 63 then .ok (.int (BitVec.ofInt 64 i)) else .ub

/-- Integer case of the arithmetic operators: `src/expression.c:763-765`, `:803-805`, `:841-843`,
`:880-885` and `:931-936` (C division truncates; `INT64_MIN % -1` overflows like the quotient). -/
def intArith : Op → BitVec 64 → BitVec 64 → Out Value
  | .add, x, y => intResult (x.toInt + y.toInt)
  | .sub, x, y => intResult (x.toInt - y.toInt)
  | .mul, x, y => intResult (x.toInt * y.toInt)
  | .div, x, y =>
    if y = 0#64 then .err .invalidValue else intResult (x.toInt.tdiv y.toInt)
  | .mod, x, y =>
    if y = 0#64 then .err .invalidValue
    else if x.toInt.tdiv y.toInt < 2 ^ 63 then intResult (x.toInt.tmod y.toInt) else .ub
  | _, _, _ => .ub

/-- Floating point case of the arithmetic operators, after the conversions: `src/expression.c:767-776`,
`:806-816`, `:844-855`, `:886-906`, `:937-957`. -/
def floatArith : Op → F64 → F64 → Out Value
  | .add, x, y => .ok (.float (ops.add x y))
  | .sub, x, y => .ok (.float (ops.sub x y))
  | .mul, x, y => .ok (.float (ops.mul x y))
  | .div, x, y => if F64.feq y 0#64 then .err .invalidValue else .ok (.float (ops.div x y))
  | .mod, x, y => if F64.feq y 0#64 then .err .invalidValue else .ok (.float (ops.rem x y))
  | _, _, _ => .ub

/-- `_ccs_expr_{add,substract,multiply,divide,modulo}_eval`, `src/expression.c:750-962`.  When the divisor is
an integer its test for zero is made before the conversion, which preserves zero. -/
def evalArith (op : Op) (l r : Out Value) : Out Value := do
  let a ← l
  let b ← r
  if a = .inactive then .ok .inactive
  else if b = .inactive then .ok .inactive
  else match a, b with
    | .int x, .int y => intArith op x y
    | .int x, .float y => floatArith ops op (F64.ofInt x) y
    | .float x, .int y => floatArith ops op x (F64.ofInt y)
    | .float x, .float y => floatArith ops op x y
    | _, _ => .err .invalidValue

/-- `_ccs_expr_positive_eval`, `src/expression.c:969-985`. -/
def evalPositive (n : Out Value) : Out Value := do
  let a ← n
  match a with
  | .inactive => .ok .inactive
  | .int x => .ok (.int x)
  | .float x => .ok (.float x)
  | _ => .err .invalidValue

/-- `_ccs_expr_negative_eval`, `src/expression.c:992-1012`. -/
def evalNegative (n : Out Value) : Out Value := do
  let a ← n
  match a with
  | .inactive => .ok .inactive
  | .int x => intResult (-x.toInt)
  | .float x => .ok (.float (F64.neg x))
  | _ => .err .invalidValue

/-- Dispatch of `_ccs_expression_ops_broker`, `src/expression.c:1317-1384`, on operands of known
parameters `ps` and outcomes `rs`; `items` are the outcomes of the items of the second operand when it is
a LIST.  A node always has as many operands as its arity: reading a missing one is undefined. -/
def evalOp (op : Op) (ps : List (Option Param)) (rs : List (Out Value))
    (items : Option (List (Out Value))) : Out Value :=
  match op, ps, rs with
  | .list, _, _ => .err .unsupportedOperation
  | .positive, _, n :: _ => evalPositive n
  | .negative, _, n :: _ => evalNegative n
  | .not, _, n :: _ => evalNot n
  | .or, _, l :: r :: _ => evalOr l r
  | .and, _, l :: r :: _ => evalAnd l r
  | .equal, pl :: pr :: _, l :: r :: _ => evalEqual jen little false pl pr l r
  | .notEqual, pl :: pr :: _, l :: r :: _ => evalEqual jen little true pl pr l r
  | .less, pl :: pr :: _, l :: r :: _ => evalCompare jen little (fun c => decide (c = .lt)) pl pr l r
  | .greater, pl :: pr :: _, l :: r :: _ => evalCompare jen little (fun c => decide (c = .gt)) pl pr l r
  | .lessEq, pl :: pr :: _, l :: r :: _ => evalCompare jen little (fun c => decide (c ≠ .gt)) pl pr l r
  | .greaterEq, pl :: pr :: _, l :: r :: _ => evalCompare jen little (fun c => decide (c ≠ .lt)) pl pr l r
  | .isIn, pl :: _, l :: _ :: _ => evalIn jen little pl l items
  | .add, _, l :: r :: _ => evalArith ops .add l r
  | .sub, _, l :: r :: _ => evalArith ops .sub l r
  | .mul, _, l :: r :: _ => evalArith ops .mul l r
  | .div, _, l :: r :: _ => evalArith ops .div l r
  | .mod, _, l :: r :: _ => evalArith ops .mod l r
  | _, _, _ => .ub

variable (env : Env)

mutual
/-- `ccs_expression_eval`, `src/expression.c:1579-1591`, with the operation of each type; literals:
`src/expression.c:1164-1177`; lists: `:1041-1055`.  Evaluation changes nothing, so operands are given by
their outcomes, and a C evaluation order appears as the order in which outcomes are inspected.
Simplification: the flags of the resulting datum are not modelled. -/
def eval : Expr → Out Value
  | .literal _ v => .ok v
  | .var _ h _ => env.lookup h
  | .node _ op args =>
    evalOp ops jen little op (args.map Expr.param?) (evalAll args) (evalSecond args)

/-- Outcomes of the operands. -/
def evalAll : List Expr → List (Out Value)
  | [] => []
  | e :: es => eval e :: evalAll es

/-- Outcomes of the items (`ccs_expression_list_eval_node`, `src/expression.c:1626-1647`) of the second
operand, if it is a LIST (`src/expression.c:712-716`). -/
def evalSecond : List Expr → Option (List (Out Value))
  | [] => none
  | _ :: es => evalHeadItems es

/-- Outcomes of the items of the first expression, if it is a LIST. -/
def evalHeadItems : List Expr → Option (List (Out Value))
  | [] => none
  | e :: _ => evalItems e

/-- Outcomes of the items of a LIST. -/
def evalItems : Expr → Option (List (Out Value))
  | .node _ op args => if op = .list then some (evalAll args) else none
  | _ => none
end

end

/-! ### Reported parameters -/

mutual
/-- `_get_parameters`, `src/expression.c:1698-1711`: addresses in order of traversal. -/
def Expr.collect : Expr → List (BitVec 64)
  | .var _ h _ => [h]
  | .node _ _ args => collectAll args
  | .literal _ _ => []

def collectAll : List Expr → List (BitVec 64)
  | [] => []
  | e :: es => e.collect ++ collectAll es
end

/-- Insertion in a list sorted by address. -/
def insertAddr (x : BitVec 64) : List (BitVec 64) → List (BitVec 64)
  | [] => [x]
  | y :: ys => if x.toNat ≤ y.toNat then x :: y :: ys else y :: insertAddr x ys

/-- `utarray_sort(array, &_parameter_sort)`, `src/expression.c:1746`.  Elements that compare equal are
identical, so every sorting algorithm gives this result. -/
def sortAddr : List (BitVec 64) → List (BitVec 64)
  | [] => []
  | x :: xs => insertAddr x (sortAddr xs)

/-- The loops `if (*p_h != previous)`, `src/expression.c:1750-1755,1765-1770`; `previous` starts as NULL. -/
def skipRepeats : BitVec 64 → List (BitVec 64) → List (BitVec 64)
  | _, [] => []
  | prev, x :: xs => if x ≠ prev then x :: skipRepeats x xs else skipRepeats prev xs

/-- The sorted addresses without repetition. -/
def Expr.parameters (e : Expr) : List (BitVec 64) := skipRepeats 0#64 (sortAddr e.collect)

/-- `ccs_expression_get_parameters`, `src/expression.c:1728-1779`, with an array of `n` entries (`none` when
the array is NULL): the array written, if any, and the count. -/
def getParameters (e : Expr) (n : Option Nat) : Out (Option (List (BitVec 64)) × Nat) :=
  let ps := e.parameters
  match n with
  | none => .ok (none, ps.length)
  | some n =>
    if n < ps.length then .err .invalidValue
    else .ok (some (ps ++ List.replicate (n - ps.length) 0#64), ps.length)

/-- `ccs_expression_check_context`, `src/expression.c:1781-1812`. -/
def checkContext (e : Expr) (params : Option (List (BitVec 64))) : Out Unit :=
  let ps := e.parameters
  if e.collect.length = 0 then .ok ()
  else match params with
    | none => .err .invalidValue
    | some ctx => if ps.all (fun h => decide (h ∈ ctx)) then .ok () else .err .invalidParameter

/-! ### Serialization -/

/-- `CCS_OBJECT_TYPE_EXPRESSION`. -/
def expressionType : BitVec 32 := 3#32

/-- `ccs_expression_type_t` as a 32-bit number: operators, then LITERAL = 18, VARIABLE = 19. -/
def Expr.typeCode : Expr → BitVec 32
  | .node _ op _ => BitVec.ofNat 32 op.code
  | .literal _ _ => 18#32
  | .var _ _ _ => 19#32

mutual
/-- `_ccs_expression_serialize_size` (`src/expression.c:102-115,135-148,166-186`),
`_ccs_expression_literal_serialize_size` (`:1062-1072,1088-1101,1119-1139`) and
`_ccs_expression_variable_serialize_size` (`:1193-1203,1219-1232,1250-1270`). -/
def szExpr : Expr → Out Nat
  | .node o op args => do
    let a ← szExprs args
    .ok (szObj expressionType o.handle + szEnum (BitVec.ofNat 32 op.code) + szSize args.length + a +
      szUserData o.ud)
  | .literal o v => do
    let d ← szDatum v
    .ok (szObj expressionType o.handle + szEnum 18#32 + szSize 0 + d + szUserData o.ud)
  | .var o h _ =>
    .ok (szObj expressionType o.handle + szEnum 19#32 + szSize 0 + szHandle h + szUserData o.ud)

def szExprs : List Expr → Out Nat
  | [] => .ok 0
  | e :: es => do
    let a ← szExpr e
    let b ← szExprs es
    .ok (a + b)
end

mutual
/-- `_ccs_expression_serialize` (`src/expression.c:117-133,150-164,188-209`),
`_ccs_expression_literal_serialize` (`:1074-1086,1103-1117,1141-1162`) and
`_ccs_expression_variable_serialize` (`:1205-1217,1234-1248,1272-1293`). -/
def serExpr (little : Bool) : Expr → Wr
  | .node o op args =>
    serObj expressionType o.handle ⨟ serEnum (BitVec.ofNat 32 op.code) ⨟ serSize args.length ⨟
    serExprs little args ⨟ serUserData o.ud
  | .literal o v =>
    serObj expressionType o.handle ⨟ serEnum 18#32 ⨟ serSize 0 ⨟ serDatum little v ⨟ serUserData o.ud
  | .var o h _ =>
    serObj expressionType o.handle ⨟ serEnum 19#32 ⨟ serSize 0 ⨟ serHandle h ⨟ serUserData o.ud

def serExprs (little : Bool) : List Expr → Wr
  | [] => Wr.nop
  | e :: es => serExpr little e ⨟ serExprs little es
end

/-- What the handle map associates with a handle. -/
inductive Target
  | param (h : BitVec 64) (p : Param)
  | other

/-- The handle map given to the deserializer: `none` when it is NULL. -/
abbrev HandleMap := Option (BitVec 64 → Option Target)

/-- `ccs_map_get` and `ccs_create_variable`, `src/expression_deserialize.h:127-135`. -/
def targetVariable (map : HandleMap) (o : ObjMeta) (h : BitVec 64) : Out Expr :=
  match map with
  | none => .err .invalidObject
  | some m =>
    match m h with
    | none => .err .invalidHandle
    | some .other => .err .invalidObject
    | some (.param h' p) => createVariable o h' p

/-- `_ccs_deserialize_bin_ccs_expression_data` with `opts = NULL`, `src/expression_deserialize.h:30-57` called
from `:73-74` and `:108-109`: a node count different from 0 leads to `*opts` with a NULL pointer (`:177`). -/
def deNoNodes : Rd Unit := do
  let _ ← deEnum
  let n ← deSize
  if n = 0 then pure () else Rd.undef

/-- `_ccs_deserialize_bin_expression_literal`, `src/expression_deserialize.h:66-92`.  The address of the new
object is not known; the model keeps the one read. -/
def deLiteral (little : Bool) (h : BitVec 64) : Rd Expr := do
  deNoNodes
  let d ← deDatum little
  Rd.lift (createLiteral ⟨h, []⟩ d.v)

/-- Replace the user data of an object. -/
def Expr.withUserData (ud : Bytes) : Expr → Expr
  | .node o op args => .node ⟨o.handle, ud⟩ op args
  | .literal o v => .literal ⟨o.handle, ud⟩ v
  | .var o h p => .var ⟨o.handle, ud⟩ h p

/-- `_ccs_deserialize_bin_expression_variable`, `src/expression_deserialize.h:101-137`. -/
def deVariable (map : HandleMap) (h : BitVec 64) : Rd Expr := do
  Rd.lift (refute (map.isNone = true) .invalidObject)
  deNoNodes
  let ph ← deHandle
  Rd.lift (targetVariable map ⟨h, []⟩ ph)

/-- `_ccs_deserialize_bin_expression_general`, `src/expression_deserialize.h:139-167`; `sub` reads one
sub-expression. -/
def deGeneral (sub : Rd Expr) (h : BitVec 64) : Rd Expr := do
  let t ← deEnum
  let n ← deSize
  let es ← sub.times n
  Rd.lift (createExpression ⟨h, []⟩ [] t.toNat (es.map Node.expr))

/-- The `switch` of `_ccs_deserialize_bin_expression`, `src/expression_deserialize.h:191-209`. -/
def deExprBody (little : Bool) (map : HandleMap) (sub : Rd Expr) (t : BitVec 32) (h : BitVec 64) :
    Rd Expr :=
  if t = 18#32 then deLiteral little h
  else if t = 19#32 then deVariable map h
  else if 20 ≤ t.toNat then Rd.fail .unsupportedOperation
  else deGeneral sub h

/-- `_ccs_deserialize_bin_expression` and `_ccs_expression_deserialize`, `src/expression_deserialize.h:169-247`,
down to nesting depth `fuel`.  The insertion of the expression itself in the handle map is modelled with
the containing objects. -/
def deExprFuel (little : Bool) (map : HandleMap) : Nat → Rd Expr
  | 0 => Rd.undef
  | fuel + 1 => do
    let o ← deObj
    Rd.lift (refute (o.1 ≠ expressionType) .invalidType)
    let t ← Rd.peek deEnum
    let e ← deExprBody little map (deExprFuel little map fuel) t o.2
    let ud ← deUserData
    pure (e.withUserData ud)

/-- Same, with as much fuel as there are bytes: each level consumes at least one byte, so that the fuel is
never exhausted. -/
def deExpr (little : Bool) (map : HandleMap) : Rd Expr := fun bs =>
  deExprFuel little map (bs.length + 1) bs

end CCS
