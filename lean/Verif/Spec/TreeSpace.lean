import Verif.Model.TreeSpace
import Verif.Spec.Tree
import Verif.Spec.Roulette

/-! # Specification of tree spaces -/

namespace CCS.Spec

open CCS

/-- A position drawn from node `h` with the draws `rnd k`, `rnd (k + 1)`, ...: at each node the area chosen satisfies `P`;
the walk stops on the node's own area or on a missing child. -/
inductive Drawn (P : TreeNode → Nat → F64 → Prop) (f : Forest) (rnd : Nat → F64) : Nat → Nat → List Nat → Prop
  | stop {h k n} : f.node h = some n → P n n.arity (rnd k) → Drawn P f rnd h k []
  | leaf {h k n i} : f.node h = some n → f.getChild h i = .ok none → P n i (rnd k) → Drawn P f rnd h k [i]
  | down {h k n i c p} : f.node h = some n → f.getChild h i = .ok (some c) → P n i (rnd k) → Drawn P f rnd c (k + 1) p →
      Drawn P f rnd h k (i :: p)

/-- What a callback may return and have accepted: a value of a kind that trees hold, an arity that fits, a weight and a
bias that are not negative. -/
structure Sound (s : Sprout) : Prop where
  tag : s.value.tag ≤ 4
  arity : s.arity ≤ 2 ^ 63 - 2
  text : s.value ≠ .str none
  weight : F64.lt s.weight F64.zero = false
  bias : F64.lt s.bias F64.zero = false

/-- The callback succeeds on a position. -/
def Works (cb : List Nat → Out Sprout) (p : List Nat) : Prop := ∃ s, cb p = .ok s ∧ Sound s

/-- What a user can see of a node: its value, arity, weight and bias. -/
def Shows (f : Forest) (h : Nat) (s : Sprout) : Prop :=
  f.getValue h = .ok s.value ∧ f.getArity h = .ok s.arity ∧ f.getWeight h = .ok s.weight ∧ f.getBias h = .ok s.bias

/-- The tree below `r` is complete, and the node at each position is the one the callback returns for it. -/
structure BuiltBy (cb : List Nat → Out Sprout) (g : Forest) (r : Nat) : Prop where
  full : ∀ {p q n i}, Leads g r p q → g.node q = some n → i < n.arity → ∃ c, g.getChild q i = .ok (some c)
  node : ∀ {p q}, Leads g r p q → p ≠ [] → ∃ s, cb p = .ok s ∧ Sound s ∧ Shows g q s

/-- Every node of the first tree is, at the same position, a node of the second one that looks the same. -/
def PartOf (f : Forest) (r : Nat) (g : Forest) (gr : Nat) : Prop :=
  ∀ {p h}, Leads f r p h → ∃ q s, Leads g gr p q ∧ Shows f h s ∧ Shows g q s

/-- The answer to a query: what can be seen of the node, the values, whether the position is valid. -/
inductive Answer
  | node (a : Out Sprout)
  | values (a : Out (List Value))
  | valid (a : Out Bool)

/-- What can be seen of a node. -/
def look (f : Forest) (h : Nat) : Out Sprout := do
  let v ← f.getValue h
  let a ← f.getArity h
  let w ← f.getWeight h
  let b ← f.getBias h
  .ok ⟨a, v, w, b⟩

/-- The answer of a static space over the tree at `r`. -/
def staticAnswer (g : Forest) (r : Nat) : DynTree.Query → Answer
  | .node p => .node (do let h ← g.nodeAt r p; look g h)
  | .values p room => .values (g.valuesAt r p room)
  | .valid p => .valid (g.positionIsValid r p)

/-- The answers of a dynamic space to queries asked one after the other, and the space afterwards. -/
def dynAnswers (ops : FloatOps) (cb : List Nat → Out Sprout) (fuel : Nat) :
    DynTree → List DynTree.Query → Option (List Answer × DynTree)
  | t, [] => some ([], t)
  | t, q :: qs =>
    let r : Option (Answer × DynTree) :=
      match q with
      | .node p => (t.nodeAt ops cb fuel p).map fun x => (.node (do let h ← x.2; look x.1.forest h), x.1)
      | .values p room => (t.valuesAt ops cb fuel p room).map fun x => (.values x.2, x.1)
      | .valid p => (t.positionIsValid ops cb fuel p).map fun x => (.valid x.2, x.1)
    match r with
    | none => none
    | some (a, t1) => (dynAnswers ops cb fuel t1 qs).map fun y => (a :: y.1, y.2)

/-- Questions asked one after the other of a dynamic space, each with whatever its callback then does, and whatever they
answer. -/
inductive Asked (ops : FloatOps) (t : DynTree) : DynTree → Prop
  | none : Asked ops t t
  | ask {t1 t2 : DynTree} {cb : List Nat → Out Sprout} {fuel : Nat} {q : DynTree.Query} :
      Asked ops t t1 → t1.query ops cb fuel q = some t2 → Asked ops t t2

end CCS.Spec
