import Verif.Model.Evaluation
import Verif.Model.DistWire

/-!
# Reading objects back

Models the calls that give back what an object is made of: the lists (conditions, forbidden clauses, objectives, nodes of an
expression, components of a distribution), the elements at a position, and the properties given at creation.  A NULL handle is
`none`.
-/

namespace CCS

/-! ## Lists -/

/-- The writes `array[0] = v0; array[1] = v1; …` into the memory of the caller: beyond its end they are undefined. -/
def overwrite {α : Type} : List α → List α → Out (List α)
  | array, [] => .ok array
  | [], _ :: _ => .ub
  | _ :: array, v :: vs => do
    let rest ← overwrite array vs
    .ok (v :: rest)

/-- What the caller passes to a call that lists: the announced size, the array (what its memory holds) and whether the count
is asked for. -/
structure Asked (α : Type) where
  num : Nat
  array : Option (List α)
  count : Bool

/-- The body shared by the calls that list: `CCS_CHECK_ARY` (`src/cconfigspace_internal.h:124-128`), the refusal when nothing
is asked for, the refusal of an array too small, the elements, the padding, the count.
`src/configuration_space.c:1355-1383,1458-1487`, `src/expression.c:1603-1624`, `src/distribution_mixture.c:462-488`,
`src/distribution_multivariate.c:371-398`, `src/tree.c:306-329`. -/
def giveList {α : Type} (pad : α) (l : List α) (a : Asked α) : Out (Option (List α) × Option Nat) :=
  if 0 < a.num ∧ a.array = none then .err .invalidValue
  else if a.array = none ∧ a.count = false then .err .invalidValue
  else do
    let array ← (match a.array with
      | none => .ok none
      | some m =>
        if a.num < l.length then .err .invalidValue
        else (overwrite m (l ++ List.replicate (a.num - l.length) pad)) >>= fun m' => .ok (some m') :
          Out (Option (List α)))
    .ok (array, if a.count then some l.length else none)

/-- `ccs_configuration_space_get_conditions`, `src/configuration_space.c:1355-1383`. -/
def Space.getConditions (s : Space) : Asked (Option Expr) → Out (Option (List (Option Expr)) × Option Nat) :=
  giveList none (s.params.map (·.condition))

/-- `ccs_configuration_space_get_forbidden_clauses`, `src/configuration_space.c:1458-1487`. -/
def Space.getForbiddenClauses (s : Space) : Asked (Option Expr) → Out (Option (List (Option Expr)) × Option Nat) :=
  giveList none (s.clauses.map some)

/-- `ccs_configuration_space_get_forbidden_clause`, `src/configuration_space.c:1440-1455`. -/
def Space.getForbiddenClause (s : Space) (index : Nat) : Out Expr :=
  match s.clauses[toUint index]? with
  | none => .err .outOfBounds
  | some e => .ok e

/-- `ccs_configuration_space_add_forbidden_clauses`, `src/configuration_space.c:1427-1438`: the clauses before a refused one
stay. -/
def addClauseList (ops : FloatOps) (jen : Bytes → BitVec 32) (little : Bool) (s : Space) : List Expr → Space × Out Unit
  | [] => (s, .ok ())
  | e :: es =>
    match addClause ops jen little s e with
    | (s', .ok ()) => addClauseList ops jen little s' es
    | r => r

/-- `ccs_objective_space_get_objectives`, `src/objective_space.c:555-590`: two arrays of the same announced size; the types
are padded with `CCS_OBJECTIVE_TYPE_MINIMIZE` (0).  Writing types through a NULL pointer is undefined, and cannot happen:
without an array of types the announced size is 0 and there is nothing to write. -/
def ObjSpace.getObjectives (s : ObjSpace) (num : Nat) (expressions : Option (List (Option Expr)))
    (types : Option (List (BitVec 32))) (count : Bool) :
    Out (Option (List (Option Expr)) × Option (List (BitVec 32)) × Option Nat) :=
  if 0 < num ∧ expressions = none then .err .invalidValue
  else if 0 < num ∧ types = none then .err .invalidValue
  else if expressions = none ∧ count = false then .err .invalidValue
  else
    let n := if count then some s.objectives.length else none
    match expressions with
    | none => .ok (none, types, n)
    | some m =>
      if num < s.objectives.length then .err .invalidValue
      else do
        let m' ← overwrite m (s.objectives.map (fun o => some o.expression) ++ List.replicate (num - s.objectives.length) none)
        let ts ← overwrite (types.getD []) (s.objectives.map (·.type) ++ List.replicate (num - s.objectives.length) 0#32)
        .ok (some m', types.map fun _ => ts, n)

/-- `data->num_nodes` and `data->nodes`: a literal and a variable have none, `src/expression.c:1386-1458`. -/
def Expr.children : Expr → List Expr
  | .node _ _ args => args
  | _ => []

/-- `ccs_expression_get_num_nodes`, `src/expression.c:1593-1600`. -/
def Expr.getNumNodes (e : Expr) : Nat := e.children.length

/-- `ccs_expression_get_nodes`, `src/expression.c:1602-1625`. -/
def Expr.getNodes (e : Expr) : Asked (Option Expr) → Out (Option (List (Option Expr)) × Option Nat) :=
  giveList none (e.children.map some)

/-- `ccs_expression_get_type`, `src/expression.c:1650-1659`: `CCS_EXPRESSION_TYPE_LITERAL` and `_VARIABLE` follow the
operators, `include/cconfigspace/expression.h:19-63`. -/
def Expr.getType : Expr → Nat
  | .node _ op _ => op.code
  | .literal _ _ => 18
  | .var _ _ _ => 19

/-- `ccs_expression_list_eval_node`, `src/expression.c:1627-1648`. -/
def Expr.evalNode (ops : FloatOps) (jen : Bytes → BitVec 32) (little : Bool) (env : Env) (index : Nat) : Expr → Out Value
  | .node _ op args =>
    if op = .list then
      match args[index]? with
      | none => .err .outOfBounds
      | some e => eval ops jen little env e
    else .err .invalidExpression
  | _ => .err .invalidExpression

/-- `ccs_literal_get_value`, `src/expression.c:1661-1673`. -/
def Expr.getValue : Expr → Out Value
  | .literal _ v => .ok v
  | _ => .err .invalidExpression

/-- `ccs_variable_get_parameter`, `src/expression.c:1675-1689`. -/
def Expr.getParameter : Expr → Out (BitVec 64)
  | .var _ h _ => .ok h
  | _ => .err .invalidExpression

/-- The components of a distribution.  `type`: which of the two pairs of calls was made.
`CCS_CHECK_DISTRIBUTION`, `src/distribution_internal.h:4-11`. -/
def DistObj.mixtureComponents : DistObj → Out (List DistObj)
  | .mixture _ ds _ => .ok ds
  | _ => .err .invalidDistribution

/-- Same, for a multivariate distribution. -/
def DistObj.multivariateComponents : DistObj → Out (List DistObj)
  | .multivariate ds _ => .ok ds
  | _ => .err .invalidDistribution

/-- `ccs_mixture_distribution_get_distributions`, `src/distribution_mixture.c:461-488`, and `_get_num_distributions`,
`src/distribution_mixture.c:448-459`, which gives the count alone. -/
def DistObj.getMixture (d : DistObj) (a : Asked (Option DistObj)) : Out (Option (List (Option DistObj)) × Option Nat) := do
  let ds ← d.mixtureComponents
  giveList none (ds.map some) a

/-- `ccs_multivariate_distribution_get_distributions`, `src/distribution_multivariate.c:370-398`, and
`_get_num_distributions`, `src/distribution_multivariate.c:357-368`. -/
def DistObj.getMultivariate (d : DistObj) (a : Asked (Option DistObj)) : Out (Option (List (Option DistObj)) × Option Nat) := do
  let ds ← d.multivariateComponents
  giveList none (ds.map some) a

/-! ## Properties -/

/-- Writing an asked output: `if (p) *p = v`. -/
def answer {α : Type} (asked : Bool) (v : α) : Option α := if asked then some v else none

/-- `ccs_uniform_distribution_get_properties`, `src/distribution_uniform.c:465-489`; the arguments tell which of lower, upper,
scale and quantization are asked for. -/
def DistObj.getUniform (d : DistObj) (lower upper scale quantization : Bool) :
    Out (Option (BitVec 64) × Option (BitVec 64) × Option Bool × Option (BitVec 64)) :=
  match d with
  | .uniform u _ =>
    if (lower || upper || scale || quantization) = false then .err .invalidValue
    else .ok (answer lower u.lower, answer upper u.upper, answer scale u.log, answer quantization u.quantization)
  | _ => .err .invalidDistribution

/-- `ccs_normal_distribution_get_properties`, `src/distribution_normal.c:589-613`. -/
def DistObj.getNormal (d : DistObj) (mu sigma scale quantization : Bool) :
    Out (Option F64 × Option F64 × Option Bool × Option (BitVec 64)) :=
  match d with
  | .normal n _ =>
    if (mu || sigma || scale || quantization) = false then .err .invalidValue
    else .ok (answer mu n.mu, answer sigma n.sigma, answer scale n.log, answer quantization n.quantization)
  | _ => .err .invalidDistribution

/-- `ccs_numerical_parameter_get_properties`, `src/parameter_numerical.c:347-371`.  `CCS_CHECK_PARAMETER`,
`src/parameter_internal.h:4-11`. -/
def Param.getNumerical (p : Param) (type lower upper quantization : Bool) :
    Out (Option NumType × Option (BitVec 64) × Option (BitVec 64) × Option (BitVec 64)) :=
  match p.kind with
  | .numerical i q =>
    if (type || lower || upper || quantization) = false then .err .invalidValue
    else .ok (answer type i.type, answer lower i.lower, answer upper i.upper, answer quantization q)
  | _ => .err .invalidParameter

end CCS
