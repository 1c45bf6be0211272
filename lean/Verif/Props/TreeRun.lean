import Verif.Model.TreeRun
import Verif.Lemmas.Binding
import Verif.Props.TreeSpace

/-!
# C97, C98: tree evaluations and tree tuners

`Spec.TotalOrder` is in `Verif/Spec/Order.lean`, `Spec.SameBinding` in `Verif/Spec/Binding.lean`, `Spec.Leads` and `Spec.GrownForest` in
`Verif/Spec/Tree.lean`.
-/

namespace CCS

open Spec Props

theorem signOf_eq {x : Int} : signOf x = .eq ↔ x = 0 := by
  unfold signOf
  split
  · simp; omega
  · split <;> simp [*]

theorem signOf_lt {x : Int} : signOf x = .lt ↔ x < 0 := by
  unfold signOf
  split
  · simp [*]
  · split <;> simp <;> omega

theorem signOf_neg {x : Int} : signOf (-x) = (signOf x).swap := by
  unfold signOf
  by_cases h1 : x < 0
  · rw [if_pos h1, if_neg (by omega), if_neg (by omega)]; rfl
  · rw [if_neg h1]
    by_cases h2 : x = 0
    · subst h2; rfl
    · rw [if_neg h2, if_pos (by omega)]; rfl

/-- Comparing tree configurations by address. -/
theorem treeConfigCmp_total (configs : BitVec 64 → TreeConfig) :
    TotalOrder (BitVec 64) (fun x y => signOf (TreeConfig.cmp x y (configs x) (configs y))) (fun x y => configs x = configs y) := by
  have h : ∀ x y, _ := fun x y => C82_cmp (pa := x) (pb := y) (a := configs x) (b := configs y) fun e => by rw [e]
  obtain ⟨o1, o2, o3⟩ := C82_order
  have hlt : ∀ {x y}, signOf (TreeConfig.cmp x y (configs x) (configs y)) = .lt ↔ TreeConfigLt (configs x) (configs y) := fun {x y} =>
    signOf_lt.trans (h x y).2.1
  have hgt : ∀ {x y}, signOf (TreeConfig.cmp x y (configs x) (configs y)) ≠ .gt ↔
      (configs x = configs y ∨ TreeConfigLt (configs x) (configs y)) := by
    intro x y
    rw [← hlt, ← (h x y).1, ← signOf_eq]
    generalize signOf _ = o
    cases o <;> simp
  refine ⟨fun a b => signOf_eq.trans (h a b).1, fun a b => ?_, fun a b c h1 h2 => ?_, fun a b c h1 h2 => ?_⟩
  · rw [(h a b).2.2, signOf_neg]
  · rw [hgt] at h1 h2 ⊢
    rcases h1 with h1 | h1 <;> rcases h2 with h2 | h2
    · exact .inl (h1.trans h2)
    · exact .inr (h1 ▸ h2)
    · exact .inr (h2 ▸ h1)
    · exact .inr (o2 _ _ _ h1 h2)
  · rw [hlt] at h1 h2 ⊢
    exact o2 _ _ _ h1 h2

theorem treeEvaluationCmp_total (little : Bool) (evals : BitVec 64 → TreeEvaluation) (configs : BitVec 64 → TreeConfig) :
    TotalOrder (BitVec 64) (treeEvaluationCmp little evals configs) (fun x y =>
      SameBinding (evals x).binding (evals y).binding ∧ (evals x).result = (evals y).result ∧
      configs (evals x).configuration = configs (evals y).configuration) := by
  have h := thenCmp_both (bindingCmp_total little fun a => (evals a).binding)
    (thenCmp_both (resultCmp_total.comap fun a => (evals a).result)
      ((treeConfigCmp_total configs).comap fun a => (evals a).configuration))
  rw [show treeEvaluationCmp little evals configs = _ from ?_]
  · exact h
  · funext x y
    unfold treeEvaluationCmp
    by_cases hxy : x = y
    · rw [if_pos hxy, hxy]
      exact ((h.eq_iff y y).2 ⟨⟨rfl, rfl⟩, rfl, rfl⟩).symm
    · rw [if_neg hxy]; rfl

namespace Forest

/-- The indexes of a valid position are below the arities of the nodes. -/
theorem validLoop_bound {f : Forest} {b : Nat} (hb : ∀ h n, f.node h = some n → n.arity ≤ b) :
    ∀ (p : List Nat) (o : Option Nat), f.validLoop o p = .ok true → ∀ i ∈ p, i < b
  | [], _, _ => by simp
  | i :: p, none, h => by simp [validLoop] at h
  | i :: p, some q, h => by
    simp only [validLoop] at h
    split at h
    · cases h
    · rename_i n hn
      split at h
      · cases h
      · have := hb q n hn
        intro j hj
        rcases List.mem_cons.1 hj with rfl | hj
        · omega
        · exact validLoop_bound hb p _ h j hj

end Forest

/-- Positions of small indexes are stored as they are. -/
theorem position_kept {p : List Nat} {b : Nat} (hb : b ≤ 2 ^ 64) (h : ∀ i ∈ p, i < b) :
    (p.map (BitVec.ofNat 64)).map (·.toNat) = p := by
  rw [List.map_map]
  conv => rhs; rw [← List.map_id p]
  refine List.map_congr_left fun i hi => ?_
  have := h i hi
  show (BitVec.ofNat 64 i).toNat = i
  rw [BitVec.toNat_ofNat, Nat.mod_eq_of_lt (by omega)]

end CCS

namespace CCS.Props

open CCS Spec

/-! ## C97: comparing and hashing tree evaluations -/

/-- **C97** Comparing tree evaluations is a total order; two compare equal exactly when they have the same values, result code
and the same space and position as configuration. -/
theorem C97_total_order (little : Bool) (evals : BitVec 64 → TreeEvaluation) (configs : BitVec 64 → TreeConfig) :
    TotalOrder (BitVec 64) (treeEvaluationCmp little evals configs) (fun x y =>
      SameBinding (evals x).binding (evals y).binding ∧ (evals x).result = (evals y).result ∧
      configs (evals x).configuration = configs (evals y).configuration) :=
  treeEvaluationCmp_total little evals configs

/-- **C97** Tree evaluations that compare equal have equal hashes. -/
theorem C97_hash (jen : Bytes → BitVec 32) (little : Bool) (evals : BitVec 64 → TreeEvaluation)
    (configs : BitVec 64 → TreeConfig) (x y : BitVec 64) (h : treeEvaluationCmp little evals configs x y = .eq) :
    treeEvaluationHash jen little configs (evals x) = treeEvaluationHash jen little configs (evals y) := by
  obtain ⟨h1, h2, h3⟩ := ((treeEvaluationCmp_total little evals configs).eq_iff x y).1 h
  unfold treeEvaluationHash
  rw [bindingHash_congr little jen h1, h2, h3]

/-- Two evaluations of configurations at distinct addresses with the same position compare equal, and a longer position comes
after. -/
example : treeEvaluationCmp true (fun x => ⟨⟨9#64, []⟩, x, 0#32⟩)
      (fun c => ⟨5#64, if c = 3#64 then [0#64, 1#64] else [1#64]⟩) 1#64 2#64 = .eq ∧
    treeEvaluationCmp true (fun x => ⟨⟨9#64, []⟩, x, 0#32⟩)
      (fun c => ⟨5#64, if c = 3#64 then [0#64, 1#64] else [1#64]⟩) 1#64 3#64 = .lt := by decide +kernel

/-! ## C98: what tree tuners ask and suggest -/

/-- **C98** Asking a tree tuner for configurations ends, whatever the tree, its weights and the arithmetic: either some node has a
zero total and the call reports that there is no distribution, or as many configurations are returned as asked for, all of
the tuner's space and accepted by it. -/
theorem C98_asked_valid {ops : FloatOps} (s : TreeSource) (hg : GrownForest ops s.forest) {n : TreeNode}
    (hn : s.forest.node s.root = some n) (hsize : ∀ h n, s.forest.node h = some n → n.arity < 2 ^ 53)
    {rnd : Nat → F64} (hr : ∀ k, UnitDraw (rnd k)) (num : Nat) (count : Bool) :
    ∃ b res, (∀ fuel turns, b ≤ fuel → b ≤ turns →
        { s with guess := Ieee.guess, fuel := fuel, turns := turns }.ask rnd (some num) count = some res) ∧
      ((res = .err .invalidDistribution ∧ ∃ q m, s.forest.node q = some m ∧ F64.feq m.sum F64.zero = true) ∨
       (∃ cs, res = .ok (cs, if count then some num else none) ∧ cs.length = num ∧
          ∀ c ∈ cs, c.space = s.space ∧ c.checkIn s.forest s.root s.space = .ok true)) := by
  obtain ⟨b, res, h1, h2⟩ := C72_valid hg hn hsize hr num
  rcases h2 with ⟨rfl, h2⟩ | ⟨ps, rfl, h2, h3⟩
  · refine ⟨b, _, fun fuel turns hf ht => ?_, .inl ⟨rfl, h2⟩⟩
    unfold TreeSource.ask TreeSource.sample
    simp only [h1 fuel turns hf ht]
    rfl
  · refine ⟨b, _, fun fuel turns hf ht => ?_, .inr ⟨ps.map fun p => ⟨s.space, p.map (BitVec.ofNat 64)⟩, rfl, ?_, ?_⟩⟩
    · unfold TreeSource.ask TreeSource.sample
      simp only [h1 fuel turns hf ht]
      rfl
    · rw [List.length_map, h2]
    · intro c hc
      obtain ⟨p, hp, rfl⟩ := List.mem_map.1 hc
      refine ⟨rfl, ?_⟩
      have hv := h3 p hp
      unfold TreeConfig.checkIn
      rw [refute_false (by simp), Out.bind_ok, position_kept (b := 2 ^ 53) (by omega)]
      · exact hv
      · simp only [Forest.positionIsValid, hn] at hv
        exact Forest.validLoop_bound (fun h m hm => by have := hsize h m hm; omega) _ _ hv

/-- **C98** The values and the node of an accepted configuration can be fetched, unless its last step goes to a child that is
missing. -/
theorem C98_accepted_values_partial {ops : FloatOps} {f : Forest} (hg : GrownForest ops f) {r : Nat} {n : TreeNode}
    (hn : f.node r = some n) {c : TreeConfig} {space : BitVec 64} (hc : c.checkIn f r space = .ok true) :
    (∃ h vs, c.getNode f r = .ok h ∧ Leads f r (c.position.map (·.toNat)) h ∧
      c.getValues f r (some (c.position.length + 1)) true = .ok (some vs, some (c.position.length + 1)) ∧
      vs.length = c.position.length + 1) ∨
    ∃ pre i q, c.position.map (·.toNat) = pre ++ [i] ∧ Leads f r pre q ∧ f.getChild q i = .ok none := by
  obtain ⟨_, -, hc⟩ := bind_eq_ok hc
  rcases C70_valid_partial hg hn hc with ⟨h, h1, h2, vs, h3, h4⟩ | h
  · rw [List.length_map] at h3 h4
    refine .inl ⟨h, vs, h1, h2, ?_, h4⟩
    unfold TreeConfig.getValues
    simp only [h3]
    rfl
  · exact .inr h

/-- **C98** On a tree without missing children, every configuration a tree tuner asks for has a node and values. -/
theorem C98_complete_tree {ops : FloatOps} (s : TreeSource) (hg : GrownForest ops s.forest) {n : TreeNode}
    (hn : s.forest.node s.root = some n) (hsize : ∀ h n, s.forest.node h = some n → n.arity < 2 ^ 53)
    (hfull : ∀ p q i, Leads s.forest s.root p q → s.forest.getChild q i ≠ .ok none)
    {rnd : Nat → F64} (hr : ∀ k, UnitDraw (rnd k)) {num : Nat} {count : Bool} {fuel turns : Nat} {cs : List TreeConfig} {m : Option Nat}
    (ha : { s with guess := Ieee.guess, fuel := fuel, turns := turns }.ask rnd (some num) count = some (.ok (cs, m))) :
    ∀ c ∈ cs, ∃ h vs, c.getNode s.forest s.root = .ok h ∧
      c.getValues s.forest s.root (some (c.position.length + 1)) true = .ok (some vs, some (c.position.length + 1)) ∧
      vs.length = c.position.length + 1 := by
  obtain ⟨b, res, h1, h2⟩ := C98_asked_valid s hg hn hsize hr num count
  have hres : res = .ok (cs, m) := by
    have h3 := h1 (max b fuel) (max b turns) (Nat.le_max_left _ _) (Nat.le_max_left _ _)
    unfold TreeSource.ask TreeSource.sample at ha h3
    simp only at ha h3
    obtain ⟨r1, h4, h5⟩ := Option.map_eq_some_iff.1 ha
    obtain ⟨r2, h6, h7⟩ := Option.map_eq_some_iff.1 h4
    rw [Forest.samplePositions_mono (Nat.le_max_right b turns) (Nat.le_max_right b fuel) h6] at h3
    subst h7
    rw [← h5]
    exact (Option.some.inj h3).symm
  subst hres
  rcases h2 with ⟨h2, -⟩ | ⟨cs', h2, -, h3⟩
  · cases h2
  · obtain ⟨rfl, -⟩ := Prod.mk.inj (Out.ok.inj h2)
    intro c hc
    rcases C98_accepted_values_partial hg hn (h3 c hc).2 with ⟨h, vs, a1, -, a2, a3⟩ | ⟨pre, i, q, -, a2, a3⟩
    · exact ⟨h, vs, a1, a2, a3⟩
    · exact absurd a3 (hfull pre q i a2)

/-- The tuner of the examples: over the tree of `Props/Tree`, whose root has a free slot. -/
def exSource : TreeSource := ⟨5#64, exTree, 0, Ieee.guess, 9, 9⟩

theorem exSource_grown : GrownForest ieee exSource.forest := by
  rw [show exSource.forest = exTree by simp only [exSource]]
  exact exTree_grown

/-- **C98 (negation)** A tree tuner can ask for a configuration that its space accepts and whose values cannot be fetched: the
free slot of a node is sampled with weight 1. -/
theorem C98_hole : ∃ (s : TreeSource) (rnd : Nat → F64) (c : TreeConfig), GrownForest ieee s.forest ∧ (∀ k, UnitDraw (rnd k)) ∧
    s.ask rnd (some 1) false = some (.ok ([c], none)) ∧ c.checkIn s.forest s.root s.space = .ok true ∧
    c.getNode s.forest s.root = .err .invalidTree ∧ c.getValues s.forest s.root (some 2) true = .err .invalidTree := by
  have hd : UnitDraw dHalf := areaHolds_of (by decide +kernel) (by decide +kernel)
  refine ⟨exSource, fun _ => dHalf, ⟨5#64, [1#64]⟩, exSource_grown, fun _ => hd,
    by decide +kernel, by decide +kernel, by decide +kernel, by decide +kernel⟩

/-- Non-vacuity of `C98_asked_valid`: the tuner of the example gets the configurations of a node and of the free slot. -/
example : GrownForest ieee exSource.forest ∧ (exSource.forest.node exSource.root).isSome = true ∧
    exSource.ask (fun k => if k < 3 then 0x3fd0000000000000#64 else dHalf) (some 2) true =
      some (.ok ([⟨5#64, [0#64, 0#64]⟩, ⟨5#64, [1#64]⟩], some 2)) ∧
    TreeConfig.getValues exTree 0 ⟨5#64, [0#64, 0#64]⟩ (some 3) true =
      .ok (some [.int 1#64, .int 2#64, .int 3#64], some 3) := by
  refine ⟨exSource_grown, by decide +kernel, by decide +kernel, by decide +kernel⟩

/-- A single node without children: a complete tree. -/
def exLeaf : Forest := exGrow [.create 0 (.int 7#64)]

/-- Non-vacuity of `C98_complete_tree`. -/
example : GrownForest ieee exLeaf ∧ (∀ p q i, Leads exLeaf 0 p q → exLeaf.getChild q i ≠ .ok none) ∧
    (TreeSource.mk 5#64 exLeaf 0 Ieee.guess 9 9).ask (fun _ => dHalf) (some 1) false = some (.ok ([⟨5#64, []⟩], none)) := by
  have hno : ∀ q i, exLeaf.getChild q i ≠ .ok none ∧ ∀ c, exLeaf.getChild q i ≠ .ok (some c) := by
    intro q i
    have h0 : (exLeaf.node 0).map (·.arity) = some 0 := by decide +kernel
    have hl : exLeaf.length = 1 := by decide +kernel
    generalize exLeaf = f at h0 hl
    obtain ⟨n, hn, h0⟩ := Option.map_eq_some_iff.1 h0
    match q with
    | 0 =>
      simp only [Forest.getChild, hn]
      rw [if_pos (by omega)]
      exact ⟨by simp, by simp⟩
    | q + 1 =>
      have : f.node (q + 1) = none := by
        unfold Forest.node
        rw [List.getElem?_eq_none (by omega)]
      simp [Forest.getChild, this]
  refine ⟨exGrow_step .empty trivial, ?_, by decide +kernel⟩
  intro p q i hl
  cases hl with
  | here => exact (hno _ _).1
  | down h1 _ => exact absurd h1 ((hno _ _).2 _)

/-- **C98** Without an array, a tree tuner says it gives one configuration at a time; without a count either, the call is refused. -/
theorem C98_how_many (s : TreeSource) (rnd : Nat → F64) :
    s.ask rnd none true = some (.ok ([], some 1)) ∧ s.ask rnd none false = some (.err .invalidValue) := ⟨rfl, rfl⟩

/-- **C98** With optima, the suggestion is the configuration of one of them, and each of them is suggested for some draw. -/
theorem C98_from_optima (s : TreeSource) (configuration : BitVec 64 → BitVec 64) (t : Tuner) (rnd : Nat → F64) (h : t.optima ≠ []) :
    (∀ draw, ∃ o ∈ t.optima, s.suggest configuration t draw rnd = some (.ok (.known (configuration o)))) ∧
    (t.optima.length < 4294967296 → ∀ o ∈ t.optima, ∃ draw,
      s.suggest configuration t draw rnd = some (.ok (.known (configuration o)))) := by
  have hl : 0 < t.optima.length := List.length_pos_iff.2 h
  constructor
  · intro draw
    have hi := Nat.mod_lt draw.toNat hl
    refine ⟨_, List.getElem_mem hi, ?_⟩
    unfold TreeSource.suggest
    rw [if_pos hl, List.getElem?_eq_getElem hi]
  · intro hs o ho
    obtain ⟨i, hi, rfl⟩ := List.mem_iff_getElem.1 ho
    refine ⟨BitVec.ofNat 64 i, ?_⟩
    unfold TreeSource.suggest
    have : (BitVec.ofNat 64 i).toNat % t.optima.length = i := by
      rw [BitVec.toNat_ofNat, Nat.mod_eq_of_lt (a := i) (by omega), Nat.mod_eq_of_lt hi]
    rw [if_pos hl, this, List.getElem?_eq_getElem hi]

/-- **C98** Without optima, the suggestion is what asking for one configuration gives. -/
theorem C98_fresh (s : TreeSource) (configuration : BitVec 64 → BitVec 64) (t : Tuner) (draw : BitVec 64) (rnd : Nat → F64)
    (h : t.optima = []) :
    (∀ c m, s.ask rnd (some 1) false = some (.ok ([c], m)) → s.suggest configuration t draw rnd = some (.ok (.fresh c))) ∧
    (∀ e, s.ask rnd (some 1) false = some (.err e) → s.suggest configuration t draw rnd = some (.err e)) := by
  constructor
  · intro c m ha
    unfold TreeSource.suggest
    rw [h, if_neg (by simp), ha]
    rfl
  · intro e ha
    unfold TreeSource.suggest
    rw [h, if_neg (by simp), ha]
    rfl

/-- Non-vacuity: with two optima the second one's configuration is suggested; without any, the free slot. -/
example : exSource.suggest (· + 100#64) ⟨[1#64, 2#64], [1#64, 2#64]⟩ 7#64 (fun _ => dHalf) = some (.ok (.known 102#64)) ∧
    exSource.suggest (· + 100#64) ⟨[], []⟩ 7#64 (fun _ => dHalf) = some (.ok (.fresh ⟨5#64, [1#64]⟩)) := by decide +kernel

end CCS.Props
