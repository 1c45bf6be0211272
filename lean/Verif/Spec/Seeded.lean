import Verif.Model.Seeded
import Verif.Spec.Space

/-!
# Sampling with seeded generators: what the properties say

What a program does with its generators is followed from its calls alone: how many generators it has made, which generator each of its spaces draws
from, and which generators it has seeded.
-/

namespace CCS.Seeded.Spec

open CCS CCS.Spec

/-- How many generators there are, the generator of each space, and the generators that were seeded. -/
structure Track where
  gens : Nat
  rng : List Nat
  seeded : List Nat

/-- What a call changes. A space is made with a generator of its own. -/
def Track.after (t : Track) : Call → Track
  | .create _ => { t with gens := t.gens + 1 }
  | .createSpace => { t with gens := t.gens + 1, rng := t.rng ++ [t.gens] }
  | .seed i _ => if i < t.gens then { t with seeded := i :: t.seeded } else t
  | .setRng sp i => if sp < t.rng.length ∧ i < t.gens then { t with rng := t.rng.set sp i } else t
  | _ => t

/-- The generator that a call draws from: that of the space, if a space is sampled. -/
def Track.reads (t : Track) : Call → Option Nat
  | .get i | .uniform i | .draw _ i _ => some i
  | .sample sp | .samples sp _ => t.rng[sp]?
  | _ => none

/-- Every generator is seeded before it is drawn from. -/
def SeedsFirst : Track → List Call → Prop
  | _, [] => True
  | t, c :: p => (∀ i, t.reads c = some i → i ∈ t.seeded) ∧ SeedsFirst (t.after c) p

/-- No call draws from generator `j` or seeds it. -/
def Untouched (j : Nat) : Track → List Call → Prop
  | _, [] => True
  | t, c :: p => t.reads c ≠ some j ∧ (∀ s, c ≠ .seed j s) ∧ Untouched j (t.after c) p

/-- What is followed of a program. -/
def afterAll : Track → List Call → Track
  | t, [] => t
  | t, c :: p => afterAll (t.after c) p

variable {σ : Type}

/-- The generators and the spaces of a world. -/
def Tracks (t : Track) (w : World σ) : Prop := t.gens = w.gens.length ∧ t.rng = w.spaces.map (·.rng)

/-- Two worlds that may differ only in the states of the generators that are not in `l`. -/
def Agree (l : List Nat) (w w' : World σ) : Prop :=
  w.spaces = w'.spaces ∧ w.gens.map (·.type) = w'.gens.map (·.type) ∧
    ∀ i ∈ l, (w.gens[i]?).map (·.state) = (w'.gens[i]?).map (·.state)

/-- Two libraries that may differ only in the state of a generator that was never seeded. -/
def SameNumbers (a b : Gsl σ) : Prop := a.set = b.set ∧ a.get = b.get ∧ a.uniform = b.uniform

/-- The world before anything is made. -/
def nothing : World σ := ⟨[], []⟩

/-- The space whose distributions answer as `f` says: draw number `k` of `n` rows, in request `r`. -/
def withStreams (s : Space) (f : Dist → Nat → Nat → Nat → Out (List (List (BitVec 64)))) : Space :=
  { s with dists := s.dists.map fun d => { d with dist := { d.dist with soa := f d.dist } } }

/-- Every answer of the distributions is one that drawing with some state of a generator gives. -/
def Drawn (src : BitVec 64 → Source σ) (f : Dist → Nat → Nat → Nat → Out (List (List (BitVec 64)))) : Prop :=
  ∀ d r k n, ∃ g, f d r k n = (src d.handle n g).1

/-- Whatever the state of the generator, drawing gives columns of the length asked, one for each dimension, of numbers within the bounds declared. -/
def Sampled (src : BitVec 64 → Source σ) (d : Dist) : Prop :=
  d.bounds.length = d.dim ∧
  ∀ n g cols, (src d.handle n g).1 = .ok cols → cols.length = d.dim ∧ (∀ c ∈ cols, c.length = n) ∧
    ∀ (i : Nat) c b, cols[i]? = some c → d.bounds[i]? = some b → ∀ x ∈ c, Mem b x

/-- The spaces of a program are edited with well-formed calls and distributions that answer as they declare. -/
def WellEdited (src : BitVec 64 → Source σ) (p : List Call) : Prop :=
  ∀ sp op, Call.edit sp op ∈ p → WellCalled op ∧ ∀ d ∈ SpaceOp.given op, Sampled src d

end CCS.Seeded.Spec
