import Verif.Model.BoundTree
import Verif.Model.Evaluation

/-!
# Objective spaces and evaluations used from Python and Ruby

Classes `ObjectiveSpace`, `Evaluation`, `FeaturesEvaluation` and `TreeEvaluation` of `bindings/python/cconfigspace/` and
`bindings/ruby/lib/cconfigspace/`, on top of the calls of `Model/Evaluation`.  Where only the class `Evaluation` is cited, the two others have
the same code but for the names of the functions called.

Simplifications: an object of a class is the handle it holds and, for evaluations, the number of objectives it keeps (the references
are those of `Model/Wrappers`); expressions are objects, not texts to parse (texts: `Model/BoundExpr`); FFI converts the symbols of enumerations
where an integer is declared, so that results and types of objectives are integers; exceptions of the languages that do not come from
the library are the code EXTERNAL.
-/

namespace CCS.BoundEval

open CCS CCS.BoundInterval CCS.BoundTree

/-- The three classes of evaluations. -/
inductive Class
  | plain | features | tree
  deriving DecidableEq, Repr

/-- An integer given where `c_int32` or a `CEnumeration` (`bindings/python/cconfigspace/base.py:20`, `:108-128`), or `:int32`
(`bindings/ruby/lib/cconfigspace/base.rb:54`), is declared: `ctypes` keeps the low 32 bits, FFI refuses what does not fit. -/
def int32Given (lang : Lang) (i : Int) : Out (BitVec 32) :=
  match lang with
  | .python => .ok (BitVec.ofInt 32 i)
  | .ruby => if -2 ^ 31 ≤ i ∧ i < 2 ^ 31 then .ok (BitVec.ofInt 32 i) else .err .external

/-! ## Objective spaces -/

/-- `ObjectiveSpace.add_objective`, `bindings/python/cconfigspace/objective_space.py:52-56`, and `ObjectiveSpace#add_objective`,
`bindings/ruby/lib/cconfigspace/objective_space.rb:61-67`; `none` is the type left out. -/
def addObjective (lang : Lang) (s : ObjSpace) (e : Expr) (type : Option Int) : ObjSpace × Out Unit :=
  match int32Given lang (type.getD 0) with
  | .ok b => s.addObjective ⟨e, b⟩
  | .err x => (s, .err x)
  | .ub => (s, .ub)

/-- `(ObjectiveType * sz)(*types)`, `objective_space.py:69`, and `write_array_of_ccs_objective_type_t`, `objective_space.rb:13-15`. -/
def typesGiven (lang : Lang) : List Int → Out (List (BitVec 32))
  | [] => .ok []
  | i :: is => do
    let b ← int32Given lang i
    let bs ← typesGiven lang is
    .ok (b :: bs)

/-- Which types are sent for `n` expressions, `objective_space.py:66-71` (where no types at all are types left out) and
`objective_space.rb:84-90`. -/
def typesChosen (lang : Lang) (n : Nat) (types : Option (List Int)) : Out (List (BitVec 32)) :=
  match lang, types with
  | _, none => .ok (List.replicate n 0#32)
  | .python, some [] => .ok (List.replicate n 0#32)
  | lang, some ts => if ts.length ≠ n then .err .invalidValue else typesGiven lang ts

/-- `ObjectiveSpace.add_objectives`, `objective_space.py:58-74`, and `ObjectiveSpace#add_objectives`, `objective_space.rb:69-95`.  A
dictionary gives its keys and its values. -/
def addObjectives (lang : Lang) (s : ObjSpace) (es : List Expr) (types : Option (List Int)) : ObjSpace × Out Unit :=
  if es.length = 0 then (s, .ok ())
  else match typesChosen lang es.length types with
    | .ok bs => s.addObjectives (List.zipWith Objective.mk es bs)
    | .err x => (s, .err x)
    | .ub => (s, .ub)

/-- `ObjectiveSpace.get_objective`, `objective_space.py:76-81`, where `ObjectiveType()` lacks the argument that `CEnumeration.__init__`
(`base.py:110`) requires, and `ObjectiveSpace#get_objective`, `objective_space.rb:97-102`. -/
def getObjective (lang : Lang) (s : ObjSpace) (index : Int) : Out (Expr × Int) :=
  match lang with
  | .python => .err .external
  | .ruby => do
    let i ← sizeGiven .ruby index
    let o ← s.getObjective i
    .ok (o.expression, o.type.toInt)

/-- `ObjectiveSpace.num_objective`, `objective_space.py:83-88`, and `ObjectiveSpace#num_objectives`, `objective_space.rb:104-108`. -/
def numObjectives (s : ObjSpace) : Nat := s.objectives.length

/-- `ObjectiveSpace.objectives`, `objective_space.py:90-97`, and `ObjectiveSpace#objectives`, `objective_space.rb:110-119`: the arrays have as
many cells as `ccs_objective_space_get_objectives` (`src/objective_space.c:554-590`) has just counted, and it fills them all. -/
def objectives (s : ObjSpace) : List (Expr × Int) := s.objectives.map fun o => (o.expression, o.type.toInt)

/-! ## Evaluations -/

/-- An array of datums filled with values, `evaluation.py:32-33` and `evaluation.rb:37`. -/
def giveAll {α : Type} (t : Tongue α) : List α → Out (List Datum)
  | [] => .ok []
  | v :: vs => do
    let d ← t.give v
    let ds ← giveAll t vs
    .ok (d :: ds)

/-- What is sent for the argument `values`, `evaluation.py:28-35` and `evaluation.rb:32-41`: Python takes an empty list for no list, Ruby
refuses it. -/
def valuesSent {α : Type} (t : Tongue α) : Option (List α) → Out (Option (List Datum))
  | none => .ok none
  | some [] => match t.lang with
    | .python => .ok none
    | .ruby => .err .invalidValue
  | some (v :: vs) => do
    let ds ← giveAll t (v :: vs)
    .ok (some ds)

section
variable {α : Type} (t : Tongue α) (ops : FloatOps) (jen : Bytes → BitVec 32) (little : Bool)

/-- `Evaluation.__init__`, `bindings/python/cconfigspace/evaluation.py:25-42`, and `Evaluation#initialize`,
`bindings/ruby/lib/cconfigspace/evaluation.rb:27-48`: `space` is the address of the objective space `s`. -/
def create (space : BitVec 64) (s : ObjSpace) (configuration : BitVec 64) (result : Int) (values : Option (List α)) : Out Evaluation := do
  let ds ← valuesSent t values
  let r ← int32Given t.lang result
  let b ← createBinding jen little space s.ctx ds
  .ok ⟨b, configuration, r⟩

/-- `Evaluation.result`, `evaluation.py:68-73`, and `evaluation.rb:25`. -/
def result (e : Evaluation) : Int := e.result.toInt

/-- `Evaluation.result = r`, `evaluation.py:75-78`, and `evaluation.rb:54-57`. -/
def setResult (lang : Lang) (e : Evaluation) (r : Int) : Evaluation × Out Unit :=
  match int32Given lang r with
  | .ok b => ({ e with result := b }, .ok ())
  | .err x => (e, .err x)
  | .ub => (e, .ub)

/-- An objective space and the number of objectives that an object `Evaluation` keeps (`_num_objective_values`,
`@num_objective_values`), `none` before it is first asked. -/
structure World where
  space : ObjSpace
  kept : Option Nat

/-- `Evaluation.num_objective_values`, `evaluation.py:80-88`, and `evaluation.rb:59-65`. -/
def numObjectiveValues (w : World) (ds : List Datum) : World × Out Nat :=
  match w.kept with
  | some n => (w, .ok n)
  | none =>
    match getObjectiveValues ops jen little w.space ds none true with
    | .ok (_, some n) => ({ w with kept := some n }, .ok n)
    | .ok (_, none) => (w, .err .external)
    | .err e => (w, .err e)
    | .ub => (w, .ub)

/-- The call made by `Evaluation.objective_values` for an array of `n` cells, and the array read. -/
def valuesRead (s : ObjSpace) (ds : List Datum) (n : Nat) : Out (List α) :=
  if n = 0 then .ok []
  else do
    let x ← getObjectiveValues ops jen little s ds (some (List.replicate n .none)) false
    takeAll t (x.1.getD [])

/-- `Evaluation.objective_values`, `evaluation.py:90-98`, and `evaluation.rb:67-73`. -/
def objectiveValues (w : World) (ds : List Datum) : World × Out (List α) :=
  match numObjectiveValues ops jen little w ds with
  | (w', .ok n) => (w', valuesRead t ops jen little w'.space ds n)
  | (w', .err e) => (w', .err e)
  | (w', .ub) => (w', .ub)

/-- What a program does: give the space objectives or a parameter, ask an evaluation for the number of its objective values or for these. -/
inductive Act
  | objectives (es : List Expr) (types : Option (List Int))
  | parameter (h : BitVec 64)
  | count
  | values

/-- One of these; the program goes on after an exception. -/
def act (mem : BitVec 64 → Param) (ds : List Datum) (w : World) : Act → World
  | .objectives es types => { w with space := (addObjectives t.lang w.space es types).1 }
  | .parameter h => { w with space := (w.space.addParameter mem h).1 }
  | .count => (numObjectiveValues ops jen little w ds).1
  | .values => (objectiveValues t ops jen little w ds).1

/-- A program. -/
def acts (mem : BitVec 64 → Param) (ds : List Datum) : World → List Act → World
  | w, [] => w
  | w, a :: as => acts mem ds (act t ops jen little mem ds w a) as

/-- `check` of the three classes, `evaluation.py:106-110`, `tree_evaluation.py:100-104`, `evaluation.rb:75-79`, `features_evaluation.rb:66-70`,
`tree_evaluation.rb:64-68`; `features_evaluation.py:116-120` calls the type `ccs_features_evaluation`, which takes one argument, in place of the
function. -/
def check (lang : Lang) (k : Class) (s : ObjSpace) (ds : List Datum) : Out Bool :=
  match lang, k with
  | .python, .features => .err .external
  | _, _ => checkEvaluation jen little s.ctx ds

/-- `ObjectiveSpace.check_values`, `objective_space.py:99-110`, and `objective_space.rb:121-130`. -/
def checkValues (s : ObjSpace) (values : List α) : Out Bool :=
  if values.length ≠ s.ctx.params.length then .err .invalidValue
  else do
    let ds ← giveAll t values
    checkEvaluation jen little s.ctx ds

end

/-! ## Comparisons -/

/-- `ccs_comparison_e`, `include/cconfigspace/evaluation.h:19-32`. -/
def code : Comparison → Int
  | .better => -1
  | .equivalent => 0
  | .worse => 1
  | .notComparable => 2

/-- The members of `Comparison`, `evaluation.py:7-12`, and `evaluation.rb:2-7`, in order of declaration. -/
def members : Lang → List (Comparison × Int)
  | .python => [(.better, -1), (.equivalent, 0), (.worse, 1), (.notComparable, 2)]
  | .ruby => [(.better, -1), (.equivalent, 0), (.worse, 1), (.notComparable, 2)]

/-- The member that an integer is. -/
def memberOf (lang : Lang) (i : Int) : Option Comparison := ((members lang).find? fun m => decide (m.2 = i)).map (·.1)

/-- `Evaluation.compare`, `evaluation.py:100-104`, `tree_evaluation.py:94-98`, `features_evaluation.py:110-114`, and `evaluation.rb:81-85`,
`features_evaluation.rb:72-76`, `tree_evaluation.rb:70-74`, on what the library answers. -/
def compareAnswer (lang : Lang) (asked : Out Comparison) : Out (Option Comparison) := do
  let c ← asked
  .ok (memberOf lang (code c))

end CCS.BoundEval
