import Verif.Model.BoundTreeSpace
import Verif.Spec.BoundTree
import Verif.Spec.TreeSpace

/-!
# What a program in Python or Ruby expects of tree spaces and tree configurations
-/

namespace CCS.BoundTreeSpace.Spec

open CCS CCS.Spec CCS.BoundTree CCS.BoundTreeSpace

/-- The lives of a tree configuration `c` of space `s` made in a forest, whichever calls change trees in between, and however often it is asked for its
values and its node.  The tree of the space is held by the space: its root is not destroyed. -/
inductive Lived {α : Type} (ops : FloatOps) (t : Tongue α) (s : Place) (c : TreeConfig) : Forest → Conf α → Prop
  | made {f : Forest} : GrownForest ops f → Lived ops t s c f ⟨c, none, none⟩
  | grow {f g : Forest} {o : Conf α} {op : Forest.Op} {fuel : Nat} : Lived ops t s c f o → Fair f op → op ≠ .destroy s.root →
    f.step ops fuel op = some (.ok g) → Lived ops t s c g o
  | values {f : Forest} {o : Conf α} : Lived ops t s c f o → Lived ops t s c f (BoundTreeSpace.values t f s o).1
  | node {f : Forest} {o : Conf α} : Lived ops t s c f o → Lived ops t s c f (BoundTreeSpace.node f s o).1

/-- Forests after further calls, the root of the space being held. -/
inductive Later (ops : FloatOps) (s : Place) (f : Forest) : Forest → Prop
  | now : Later ops s f f
  | step {g g' : Forest} {op : Forest.Op} {fuel : Nat} : Later ops s f g → Fair g op → op ≠ .destroy s.root →
    g.step ops fuel op = some (.ok g') → Later ops s f g'

/-- The lives of a tree configuration `c` of a dynamic space: whatever is asked of the space in between, and however often the configuration is asked
for its values and its node, the callback doing each time what it likes. -/
inductive DynLived {α : Type} (ops : FloatOps) (t : Tongue α) (c : TreeConfig) : DynTree → Conf α → Prop
  | made {d : DynTree} {n : TreeNode} : GrownForest ops d.forest → d.forest.node d.root = some n → DynLived ops t c d ⟨c, none, none⟩
  | asked {d d' : DynTree} {o : Conf α} : DynLived ops t c d o → Asked ops d d' → DynLived ops t c d' o
  | values {d d' : DynTree} {o o' : Conf α} {cb : List Nat → Out Sprout} {fuel : Nat} {r : Out (List α)} : DynLived ops t c d o →
    dynValues t ops cb fuel d o = some (d', o', r) → DynLived ops t c d' o'
  | node {d d' : DynTree} {o o' : Conf α} {cb : List Nat → Out Sprout} {fuel : Nat} {r : Out Nat} : DynLived ops t c d o →
    dynNode ops cb fuel d o = some (d', o', r) → DynLived ops t c d' o'

end CCS.BoundTreeSpace.Spec
