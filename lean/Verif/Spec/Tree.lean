import Verif.Model.Tree
import Verif.Spec.Num

/-!
# Specification of trees

What a history of calls is, what it means for the weights to be consistent, and where a position leads.
-/

namespace CCS.Spec

open CCS

/-- Two doubles denote the same number (or are the same NaN): only the sign of a zero can differ. -/
def SameNumber (a b : F64) : Prop := a = b ∨ ∃ x, realValue a = some x ∧ realValue b = some x

/-- Node `a` is node `t`, or one met when going up from `t` through the parents reported by the library. -/
inductive Above (f : Forest) (a : Nat) : Nat → Prop
  | self : Above f a a
  | up {t p i} : f.getParent t = .ok (some (p, i)) → Above f a p → Above f a t

/-- What a caller has to respect: a node is not attached below itself, and a node that its parent still references
is not destroyed. -/
def Fair (f : Forest) : Forest.Op → Prop
  | .setChild h _ c => ¬ Above f c h
  | .destroy h => f.getParent h = .ok none
  | _ => True

/-- The forests obtained by any sequence of calls that return successfully (a refused call changes nothing). -/
inductive GrownForest (ops : FloatOps) : Forest → Prop
  | empty : GrownForest ops []
  | step {f f' op fuel} : GrownForest ops f → Fair f op → f.step ops fuel op = some (.ok f') → GrownForest ops f'

/-- The weight that slot `i` of a node must have: 1 for a missing child, the biased total of a present one. -/
def SlotWeight (ops : FloatOps) (f : Forest) (child : Option Nat) (w : F64) : Prop :=
  match child with
  | none => w = F64.one
  | some c => ∃ m, f.node c = some m ∧ SameNumber w (ops.mul m.sum m.bias)

/-- The total of a node is the floating point sum of the weights of its slots, in order, and of its own weight. -/
def Balanced (ops : FloatOps) (f : Forest) (n : TreeNode) : Prop :=
  ∃ ws own, ws.length = n.children.length ∧ n.sum = ops.total (ws ++ [own]) ∧ n.weights = ws ++ [own] ∧
    ∀ (i : Nat) c w, n.children[i]? = some c → ws[i]? = some w → SlotWeight ops f c w

/-- Following position `p` down from node `r` reaches node `h`. -/
inductive Leads (f : Forest) : Nat → List Nat → Nat → Prop
  | here {h} : Leads f h [] h
  | down {r i c p h} : f.getChild r i = .ok (some c) → Leads f c p h → Leads f r (i :: p) h

end CCS.Spec
