/-
Expressions built and evaluated from Python and Ruby: `bindings/python/cconfigspace/expression.py` and
`bindings/ruby/lib/cconfigspace/expression.rb`.

What is asked of `ctypes` and FFI is modelled as in `BoundValues`: a `c_size_t` takes an integer modulo 2^64, a list given where a pointer
is expected is refused.  Exceptions of Python and Ruby (names and attributes that do not exist, types that are wrong) are
`.err .external`.

Simplifications: those of `PyDatum` and `RbDatum`; a context is the addresses of its parameters, as in `Expr`; positions given from Ruby
fit a `size_t`; attributes that are kept once they were asked for (`_type`, `_parameters`, ...) are asked each time, expressions never
change.
-/
import Verif.Model.Expr
import Verif.Model.BoundValues

namespace CCS

/-- `ccs_expression_list_eval_node`, `src/expression.c:1626-1647`. -/
def listEvalNode (ops : FloatOps) (jen : Bytes → BitVec 32) (little : Bool) (env : Env) (e : Expr) (i : Nat) : Out Value :=
  match evalItems ops jen little env e with
  | none => .err .invalidExpression
  | some items =>
    match items[i]? with
    | none => .err .outOfBounds
    | some r => r

/-- `ccs_create_binary_expression`, `src/expression.c:1555-1567`. -/
def createBinary (o : ObjMeta) (os : List ObjMeta) (type : Nat) (l r : Node) : Out Expr := createExpression o os type [l, r]

/-- `ccs_create_unary_expression`, `src/expression.c:1569-1577`. -/
def createUnary (o : ObjMeta) (os : List ObjMeta) (type : Nat) (n : Node) : Out Expr := createExpression o os type [n]

/-- The classes of expressions of the bindings that have operands. -/
inductive ExprClass
  | or | and | equal | notEqual | less | greater | lessOrEqual | greaterOrEqual | add | substract | multiply | divide | modulo
  | positive | negative | not | isIn | list
  deriving DecidableEq

/-- The members of `ExpressionType` in order: the first one is 0 and each of the others one more than the one before it,
`bindings/python/cconfigspace/expression.py:6-27`, `bindings/ruby/lib/cconfigspace/expression.rb:2-23`. -/
def exprMembers : List ExprClass :=
  [.or, .and, .equal, .notEqual, .less, .greater, .lessOrEqual, .greaterOrEqual, .add, .substract, .multiply, .divide, .modulo,
    .positive, .negative, .not, .isIn, .list]

/-- The number that the constructor of a class gives to the library. -/
def ExprClass.number (k : ExprClass) : Nat := exprMembers.findIdx (· = k)

namespace Py

/-- What an expression is built from: an `Expression`, a `Parameter`, a value. -/
inductive Operand where
  | expr (e : Expr)
  | param (h : BitVec 64) (p : Param)
  | val (v : Val)

/-- The datum of an operand, as the library takes it: `Datum.set_value`, `bindings/python/cconfigspace/base.py:297-337`. -/
def toNode : Operand → Out Node
  | .expr e => .ok (.expr e)
  | .param h p => .ok (.param h p)
  | .val v => toDatum v >>= fun d => .ok (.value d.v)

/-- An array of these. -/
def toNodes : List Operand → Out (List Node)
  | [] => .ok []
  | x :: xs => toNode x >>= fun n => toNodes xs >>= fun ns => .ok (n :: ns)

/-- The constructors of the classes with two operands, `Expression._create_binary`,
`bindings/python/cconfigspace/expression.py:84-92` and `:182-384`. -/
def newBinary (o : ObjMeta) (os : List ObjMeta) (k : ExprClass) (l r : Operand) : Out Expr :=
  toNode l >>= fun l => toNode r >>= fun r => createBinary o os k.number l r

/-- Those of the classes with one, `Expression._create_unary`, `bindings/python/cconfigspace/expression.py:94-101` and `:338-372`. -/
def newUnary (o : ObjMeta) (os : List ObjMeta) (k : ExprClass) (x : Operand) : Out Expr :=
  toNode x >>= fun n => createUnary o os k.number n

/-- `ExpressionList.__init__`, `bindings/python/cconfigspace/expression.py:455-468`. -/
def newList (o : ObjMeta) (os : List ObjMeta) (xs : List Operand) : Out Expr :=
  toNodes xs >>= fun ns => createExpression o os ExprClass.list.number ns

/-- The arguments of `eval`, `bindings/python/cconfigspace/expression.py:151-162`: `context and values` is false for an empty list; a list
that is given to `ctypes` as it is, is refused. -/
def evalArgs (context : Option (List (BitVec 64))) (values : Option (List Val)) : Out Env :=
  match context, values with
  | some ps, some (v :: vs) =>
    if ps.length ≠ (v :: vs).length then .err .invalidValue
    else giveAll (v :: vs) >>= fun ds => .ok ⟨some ps, some (ds.map (·.v))⟩
  | some _, _ => .err .invalidValue
  | none, some (_ :: _) => .err .invalidValue
  | none, some [] => .err .external
  | none, none => .ok ⟨none, none⟩

section
variable (ops : FloatOps) (jen : Bytes → BitVec 32) (little : Bool)

/-- `Expression.eval`, `bindings/python/cconfigspace/expression.py:150-166`. -/
def evalExpr (e : Expr) (context : Option (List (BitVec 64))) (values : Option (List Val)) : Out Val :=
  evalArgs context values >>= fun env => eval ops jen little env e >>= fun v => fromDatum { v := v }

/-- `ExpressionList.eval`, `bindings/python/cconfigspace/expression.py:470-486`. -/
def evalNode (e : Expr) (i : Int) (context : Option (List (BitVec 64))) (values : Option (List Val)) : Out Val :=
  evalArgs context values >>= fun env => listEvalNode ops jen little env e (BitVec.ofInt 64 i).toNat >>= fun v => fromDatum { v := v }

end

/-- `Expression.parameters`, `bindings/python/cconfigspace/expression.py:133-148`: `sz` is an `int` once it was assigned `sz.value`, and
`sz.value` is asked of it again unless it is 0. -/
def parametersOf (e : Expr) : Out (List (BitVec 64)) :=
  getParameters e none >>= fun r => if r.2 = 0 then .ok [] else .err .external

/-- `ExpressionLiteral.value`, `bindings/python/cconfigspace/expression.py:403-411`, with `ccs_literal_get_value`,
`src/expression.c:1662-1673`. -/
def literalValue : Expr → Out Val
  | .literal _ v => fromDatum { v := v }
  | _ => .err .invalidExpression

end Py

namespace Rb

/-- What an expression is built from: an `Expression`, a `Parameter`, a value. -/
inductive Operand where
  | expr (e : Expr)
  | param (h : BitVec 64) (p : Param)
  | val (v : Val)

/-- The datum of an operand, as the library takes it: `Datum.from_value`, `bindings/ruby/lib/cconfigspace/base.rb:436-482`.  Other objects
than expressions and parameters are `.object`. -/
def toNode : Operand → Out Node
  | .expr e => .ok (.expr e)
  | .param h p => .ok (.param h p)
  | .val v => toDatum v >>= fun d =>
    match d.v with
    | .obj _ => .ok .object
    | v => .ok (.value v)

/-- An array of these. -/
def toNodes : List Operand → Out (List Node)
  | [] => .ok []
  | x :: xs => toNode x >>= fun n => toNodes xs >>= fun ns => .ok (n :: ns)

/-- The constructors of the classes with two operands, `create_binary`, `bindings/ruby/lib/cconfigspace/expression.rb:135-139` and
`:214-436`. -/
def newBinary (o : ObjMeta) (os : List ObjMeta) (k : ExprClass) (l r : Operand) : Out Expr :=
  toNode l >>= fun l => toNode r >>= fun r => createBinary o os k.number l r

/-- Those of the classes with one, `create_unary`, `bindings/ruby/lib/cconfigspace/expression.rb:143-147` and `:438-484`. -/
def newUnary (o : ObjMeta) (os : List ObjMeta) (k : ExprClass) (x : Operand) : Out Expr :=
  toNode x >>= fun n => createUnary o os k.number n

/-- `ExpressionList#initialize`, `bindings/ruby/lib/cconfigspace/expression.rb:552-565`. -/
def newList (o : ObjMeta) (os : List ObjMeta) (xs : List Operand) : Out Expr :=
  toNodes xs >>= fun ns => createExpression o os ExprClass.list.number ns

/-- The arguments of `eval`, `bindings/ruby/lib/cconfigspace/expression.rb:159-168`. -/
def evalArgs (context : Option (List (BitVec 64))) (values : Option (List Val)) : Out Env :=
  match context, values with
  | some ps, some vs =>
    if vs.length ≠ ps.length then .err .external else giveAll vs >>= fun ds => .ok ⟨some ps, some (ds.map (·.v))⟩
  | some _, none => .err .external
  | none, some _ => .err .external
  | none, none => .ok ⟨none, none⟩

section
variable (ops : FloatOps) (jen : Bytes → BitVec 32) (little : Bool)

/-- `Expression#eval`, `bindings/ruby/lib/cconfigspace/expression.rb:158-172`. -/
def evalExpr (e : Expr) (context : Option (List (BitVec 64))) (values : Option (List Val)) (r : Refs) : Out (Val × Refs) :=
  evalArgs context values >>= fun env => eval ops jen little env e >>= fun v => fromDatum r { v := v }

/-- `ExpressionList#eval`, `bindings/ruby/lib/cconfigspace/expression.rb:567-581`. -/
def evalNode (e : Expr) (i : BitVec 64) (context : Option (List (BitVec 64))) (values : Option (List Val)) (r : Refs) :
    Out (Val × Refs) :=
  evalArgs context values >>= fun env => listEvalNode ops jen little env e i.toNat >>= fun v => fromDatum r { v := v }

end

/-- `Expression#parameters`, `bindings/ruby/lib/cconfigspace/expression.rb:174-187`: there is no class `Parameters`. -/
def parametersOf (e : Expr) : Out (List (BitVec 64)) :=
  getParameters e none >>= fun x =>
    if x.2 = 0 then .ok []
    else getParameters e (some x.2) >>= fun _ => .err .external

/-- `ExpressionLiteral#value`, `bindings/ruby/lib/cconfigspace/expression.rb:501-505`. -/
def literalValue (r : Refs) : Expr → Out (Val × Refs)
  | .literal _ v => fromDatum r { v := v }
  | _ => .err .invalidExpression

end Rb

end CCS
