import Verif.Model.Getters
import Verif.Spec.Space
import Verif.Spec.Graph

/-!
# What reading an object back means

A call that lists, the content of a space as the calls that were accepted, in order.
-/

namespace CCS.Spec

/-- A call lists `l`: asked for the count alone it gives the length; given room for `n ≥ l.length` elements it writes the
elements in order, then `pad` up to `n`, and nothing beyond; too little room, a size without an array and a call asking for
nothing are refused. -/
structure Lists {α : Type} (f : Asked α → Out (Option (List α) × Option Nat)) (pad : α) (l : List α) : Prop where
  counted : f ⟨0, none, true⟩ = .ok (none, some l.length)
  whole : ∀ n m c, l.length ≤ n → n ≤ m.length →
    f ⟨n, some m, c⟩ = .ok (some (l ++ List.replicate (n - l.length) pad ++ m.drop n), if c then some l.length else none)
  small : ∀ n m c, n < l.length → f ⟨n, some m, c⟩ = .err .invalidValue
  missing : ∀ n c, 0 < n → f ⟨n, none, c⟩ = .err .invalidValue
  nothing : f ⟨0, none, false⟩ = .err .invalidValue

/-- What the user of a configuration space put in it: the parameters with their conditions, and the forbidden clauses. -/
structure Content where
  params : List (BitVec 64 × Option Expr)
  clauses : List Expr

/-- What an accepted call puts in a space. -/
def Content.record (c : Content) : SpaceOp → Content
  | .addParameter h _ => { c with params := c.params ++ [(h, none)] }
  | .setCondition i e => { c with params := c.params.modify i fun x => (x.1, some e) }
  | .addClause e => { c with clauses := c.clauses ++ [e] }
  | _ => c

/-- Recording a history of calls with their answers: only those answered with success count. -/
def Content.ledger (c : Content) : List (SpaceOp × Out Unit) → Content
  | [] => c
  | (op, .ok ()) :: rest => (c.record op).ledger rest
  | (_, _) :: rest => c.ledger rest

/-- The answers to a history of calls. -/
def answers (ops : FloatOps) (jen : Bytes → BitVec 32) (little : Bool) (mem : BitVec 64 → Param)
    (mk : Nat → Param → Out Dist) (s : Space) : List SpaceOp → List (Out Unit)
  | [] => []
  | op :: rest => (Space.step ops jen little mem mk s op).2 ::
      answers ops jen little mem mk (Space.step ops jen little mem mk s op).1 rest

/-- The positions named by a call are below `2^32`. -/
def Narrow : SpaceOp → Prop
  | .setCondition i _ => i < 4294967296
  | _ => True

/-- The calls that change an objective space. -/
inductive ObjectiveOp
  | addParameter (h : BitVec 64)
  | addObjective (o : Objective)

/-- One call. -/
def objectiveStep (mem : BitVec 64 → Param) (s : ObjSpace) : ObjectiveOp → ObjSpace × Out Unit
  | .addParameter h => s.addParameter mem h
  | .addObjective o => s.addObjective o

/-- The objective space after a history of calls, and the objectives that were accepted. -/
def objectiveRun (mem : BitVec 64 → Param) (s : ObjSpace) (accepted : List Objective) :
    List ObjectiveOp → ObjSpace × List Objective
  | [] => (s, accepted)
  | op :: rest =>
    let r := objectiveStep mem s op
    objectiveRun mem r.1 (match op, r.2 with
      | .addObjective o, .ok () => accepted ++ [o]
      | _, _ => accepted) rest

/-- The content of a space. -/
def contentOf (s : Space) : Content := ⟨Spec.conditions s, s.clauses⟩

/-- What reading a node of an expression gives back of what was passed at creation: an expression itself, a variable on the
parameter, a literal with the value. -/
def ComesFrom : Node → Expr → Prop
  | .expr e, e' => e' = e
  | .param h _, e' => e'.getType = 19 ∧ e'.getParameter = .ok h
  | .value v, e' => e'.getType = 18 ∧ e'.getValue = .ok v
  | .object, _ => False

end CCS.Spec
