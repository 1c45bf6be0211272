import Verif.Lemmas.DistRestore
import Verif.Lemmas.Tree
import Verif.Model.TreeWire
import Verif.Model.RunWire
import Verif.Spec.Evaluation

/-!
# Objects read from any bytes
-/

namespace CCS

open CCS.Spec

/-! ### Parameters -/

theorem deParamBody_created {ops : FloatOps} {jen : Bytes → BitVec 32} {little : Bool} {t : BitVec 32} {bs rest : Bytes} {p : Param}
    (h : deParamBody ops jen little t bs = .ok (p, rest)) : Created ops jen little p := by
  have num : ∀ {bs p rest}, deNumerical ops little bs = .ok (p, rest) → Created ops jen little p := by
    intro bs p rest h
    unfold deNumerical at h
    obtain ⟨c, b1, -, h⟩ := DistObj.rd_bind_ok h
    obtain ⟨q, b2, -, h⟩ := DistObj.rd_bind_ok h
    have h := DistObj.rd_lift_ok h
    unfold rebuildNumerical at h
    split at h
    · cases h
    · split at h
      · cases h
      · exact .numerical h
  have cat : ∀ {bs p rest}, deCategorical jen little bs = .ok (p, rest) → Created ops jen little p := by
    intro bs p rest h
    unfold deCategorical at h
    obtain ⟨c, b1, -, h⟩ := DistObj.rd_bind_ok h
    obtain ⟨n, b2, -, h⟩ := DistObj.rd_bind_ok h
    obtain ⟨vals, b3, -, h⟩ := DistObj.rd_bind_ok h
    have h := DistObj.rd_lift_ok h
    unfold rebuildCategorical at h
    split at h
    · cases h
    · split at h
      · exact .categorical h
      · exact .categorical h
      · exact .categorical h
      · cases h
  unfold deParamBody at h
  generalize t.toNat = k at h
  match k, h with
  | 0, h => exact num h
  | 1, h => exact cat h
  | 2, h => exact cat h
  | 3, h => exact cat h
  | 4, h =>
    unfold deStringParam at h
    obtain ⟨c, b1, -, h⟩ := DistObj.rd_bind_ok h
    cases h
    exact .string _
  | _ + 5, h => cases h

theorem deParam_created {ops : FloatOps} {jen : Bytes → BitVec 32} {little : Bool} {bs rest : Bytes} {x : BitVec 64 × Param × Bytes}
    (h : deParam ops jen little bs = .ok (x, rest)) : Created ops jen little x.2.1 := by
  unfold deParam at h
  obtain ⟨o, b1, -, h⟩ := DistObj.rd_bind_ok h
  obtain ⟨-, b2, -, h⟩ := DistObj.rd_bind_ok h
  obtain ⟨t, b3, -, h⟩ := DistObj.rd_bind_ok h
  obtain ⟨p, b4, h1, h⟩ := DistObj.rd_bind_ok h
  obtain ⟨ud, b5, -, h⟩ := DistObj.rd_bind_ok h
  cases h
  exact deParamBody_created h1

theorem deParams_created {ops : FloatOps} {jen : Bytes → BitVec 32} {little : Bool} : ∀ {n : Nat} {seen : List (BitVec 64)} {bs rest : Bytes}
    {r : List (BitVec 64) × List (BitVec 64 × Param × Bytes)}, deParams ops jen little n seen bs = .ok (r, rest) →
    r.2.length = n ∧ ∀ x ∈ r.2, Created ops jen little x.2.1
  | 0, seen, bs, rest, r, h => by
    cases h
    exact ⟨rfl, nofun⟩
  | n + 1, seen, bs, rest, r, h => by
    unfold deParams at h
    obtain ⟨s1, b1, -, h⟩ := DistObj.rd_bind_ok h
    obtain ⟨p, b2, h1, h⟩ := DistObj.rd_bind_ok h
    obtain ⟨q, b3, h2, h⟩ := DistObj.rd_bind_ok h
    cases h
    obtain ⟨h3, h4⟩ := deParams_created h2
    refine ⟨by rw [List.length_cons, h3], fun x hx => ?_⟩
    rcases List.mem_cons.mp hx with rfl | hx
    · exact deParam_created h1
    · exact h4 x hx

/-! ### Expressions -/

theorem built_withUserData {e : Expr} (h : Built e) (ud : Bytes) : Built (e.withUserData ud) := by
  cases h with
  | literal h =>
    rename_i o v
    unfold createLiteral at h
    split at h
    · cases h
    · rename_i hv
      cases h
      exact .literal (o := ⟨o.handle, ud⟩) (v := v) (by rw [createLiteral, if_neg hv]; rfl)
  | var h =>
    rename_i o a p
    unfold createVariable at h
    split at h
    · cases h
    · rename_i hv
      cases h
      exact .var (o := ⟨o.handle, ud⟩) (h := a) (p := p) (by rw [createVariable, if_neg hv]; rfl)
  | expression h hs =>
    rename_i o os type nodes
    unfold createExpression at h
    split at h
    · cases h
    · rename_i op hop
      split at h
      · cases h
      · rename_i hm
        split at h
        · cases h
        · rename_i hr
          obtain ⟨es, h1, h2⟩ := bind_eq_ok h
          cases h2
          refine .expression (o := ⟨o.handle, ud⟩) (os := os) (type := type) (nodes := nodes) ?_ hs
          simp only [createExpression, hop, hr]
          rw [if_neg hm, h1]
          rfl

theorem times_each {α : Type} {r : Rd α} {P : α → Prop} (hr : ∀ bs x rest, r bs = .ok (x, rest) → P x) {n : Nat} {bs : Bytes}
    {l : List α} {rest : Bytes} (h : r.times n bs = .ok (l, rest)) : ∀ x ∈ l, P x := DistObj.times_all hr n bs l rest h

theorem deExprFuel_built {little : Bool} {map : HandleMap} : ∀ {fuel : Nat} {bs rest : Bytes} {e : Expr},
    deExprFuel little map fuel bs = .ok (e, rest) → Built e
  | 0, bs, rest, e, h => by cases h
  | fuel + 1, bs, rest, e, h => by
    unfold deExprFuel at h
    obtain ⟨o, b1, -, h⟩ := DistObj.rd_bind_ok h
    obtain ⟨-, b2, -, h⟩ := DistObj.rd_bind_ok h
    obtain ⟨t, b3, -, h⟩ := DistObj.rd_bind_ok h
    obtain ⟨e', b4, h1, h⟩ := DistObj.rd_bind_ok h
    obtain ⟨ud, b5, -, h⟩ := DistObj.rd_bind_ok h
    cases h
    refine built_withUserData ?_ ud
    unfold deExprBody at h1
    split at h1
    · unfold deLiteral at h1
      obtain ⟨-, c1, -, h1⟩ := DistObj.rd_bind_ok h1
      obtain ⟨d, c2, -, h1⟩ := DistObj.rd_bind_ok h1
      exact .literal (DistObj.rd_lift_ok h1)
    · split at h1
      · unfold deVariable at h1
        obtain ⟨-, c1, -, h1⟩ := DistObj.rd_bind_ok h1
        obtain ⟨-, c2, -, h1⟩ := DistObj.rd_bind_ok h1
        obtain ⟨ph, c3, -, h1⟩ := DistObj.rd_bind_ok h1
        have h1 := DistObj.rd_lift_ok h1
        unfold targetVariable at h1
        split at h1
        · cases h1
        · split at h1
          · cases h1
          · cases h1
          · exact .var h1
      · split at h1
        · cases h1
        · unfold deGeneral at h1
          obtain ⟨t', c1, -, h1⟩ := DistObj.rd_bind_ok h1
          obtain ⟨n, c2, -, h1⟩ := DistObj.rd_bind_ok h1
          obtain ⟨es, c3, h2, h1⟩ := DistObj.rd_bind_ok h1
          have h3 := times_each (P := Built) (fun _ _ _ h => deExprFuel_built h) h2
          refine .expression (DistObj.rd_lift_ok h1) fun x hx => ?_
          obtain ⟨y, hy, he⟩ := List.mem_map.mp hx
          cases he
          exact h3 _ hy

theorem deExpr_built {little : Bool} {map : HandleMap} {bs rest : Bytes} {e : Expr} (h : deExpr little map bs = .ok (e, rest)) :
    Built e := deExprFuel_built h

/-! ### Trees -/

namespace Forest

/-- A node without parent. -/
def Rooted (f : Forest) (h : Nat) : Prop := ∃ n, f.node h = some n ∧ n.parent = none

theorem rooted_above {f : Forest} {a h : Nat} (hr : Rooted f h) (ha : Above f a h) : a = h := by
  obtain ⟨n, h1, h2⟩ := hr
  cases ha with
  | self => rfl
  | up h3 _ =>
    obtain ⟨m, h4, h5, -⟩ := getParent_ok h3
    rw [h1] at h4
    cases h4
    rw [h2] at h5
    cases h5

theorem rooted_put {f : Forest} {h : Nat} {n : TreeNode} (hn : f.node h = some n) {m : TreeNode} (hm : m.parent = none) :
    Rooted (f.put h m) h := ⟨m, node_put_self hn, hm⟩

theorem rooted_updateWeight {ops : FloatOps} {f g : Forest} {h i : Nat} {w : F64} (hr : Rooted f h)
    (hs : updateWeight ops 1 f h i w = some (.ok g)) : Rooted g h ∧ g.length = f.length := by
  obtain ⟨n, h1, h2⟩ := hr
  unfold updateWeight at hs
  rw [h1] at hs
  simp only at hs
  split at hs
  · cases hs
  · split at hs
    · cases hs
      exact ⟨⟨n, h1, h2⟩, rfl⟩
    · simp only [updateLoop, h1, h2] at hs
      cases hs
      exact ⟨rooted_put h1 h2, length_put _ _ _⟩

theorem rooted_setWeight {ops : FloatOps} {f g : Forest} {h : Nat} {w : F64} (hr : Rooted f h)
    (hs : f.setWeight ops 1 h w = some (.ok g)) : Rooted g h ∧ g.length = f.length := by
  obtain ⟨n, h1, h2⟩ := hr
  unfold setWeight at hs
  rw [h1] at hs
  simp only at hs
  split at hs
  · cases hs
  · exact rooted_updateWeight ⟨n, h1, h2⟩ hs

theorem rooted_setBias {ops : FloatOps} {f g : Forest} {h : Nat} {w : F64} (hr : Rooted f h)
    (hs : f.setBias ops 1 h w = some (.ok g)) : Rooted g h ∧ g.length = f.length := by
  obtain ⟨n, h1, h2⟩ := hr
  unfold setBias updateBias at hs
  simp only [h1] at hs
  split at hs
  · cases hs
  · split at hs
    · cases hs
      exact ⟨⟨n, h1, h2⟩, rfl⟩
    · simp only [h2] at hs
      cases hs
      exact ⟨rooted_put h1 rfl, length_put _ _ _⟩

theorem length_link (f : Forest) (h i c : Nat) : (f.link h i c).length = f.length := by
  unfold link
  split
  · rfl
  · split
    · rfl
    · rw [length_put, length_put]

theorem rooted_setChild {ops : FloatOps} {f g : Forest} {h i c : Nat} (hr : Rooted f h) (hc : c ≠ h)
    (hs : f.setChild ops 1 h i c = some (.ok g)) : Rooted g h ∧ g.length = f.length := by
  obtain ⟨n, h1, h2⟩ := hr
  unfold setChild at hs
  cases hm : f.node c with
  | none => simp only [h1, hm] at hs; cases hs
  | some m =>
    simp only [h1, hm] at hs
    split at hs
    · cases hs
    · split at hs
      · cases hs
      · split at hs
        · cases hs
        · obtain ⟨k1, k2⟩ := rooted_updateWeight (f := f.link h i c)
            ⟨{ n with children := n.children.set i (some c) }, by rw [node_link h1 hm (Ne.symm hc), if_pos rfl], h2⟩ hs
          exact ⟨k1, by rw [k2, length_link]⟩

theorem sprout_rooted {ops : FloatOps} {f g : Forest} {s : Sprout} {h : Nat} (hg : GrownForest ops f)
    (hs : DynTree.sprout ops f s = .ok (g, h)) : GrownForest ops g ∧ Rooted g h ∧ h = f.length ∧ g.length = f.length + 1 := by
  unfold DynTree.sprout at hs
  obtain ⟨⟨f1, c⟩, h1, hs⟩ := bind_eq_ok hs
  simp only at hs
  obtain ⟨f2, h2, hs⟩ := bind_eq_ok hs
  obtain ⟨f3, h3, hs⟩ := bind_eq_ok hs
  cases hs
  have e1 : f1 = f ++ [some (fresh ops s.arity s.value)] ∧ h = f.length := by
    unfold create at h1
    obtain ⟨-, -, h1⟩ := bind_eq_ok h1
    obtain ⟨-, -, h1⟩ := bind_eq_ok h1
    obtain ⟨-, -, h1⟩ := bind_eq_ok h1
    cases h1
    exact ⟨rfl, rfl⟩
  have g1 : GrownForest ops f1 := .step (op := .create s.arity s.value) (fuel := 0) hg trivial (by
    show some ((·.1) <$> f.create ops s.arity s.value) = _
    rw [h1]; rfl)
  have r1 : Rooted f1 h := by
    rw [e1.1, e1.2]
    exact ⟨_, by rw [node_append, if_pos rfl], rfl⟩
  have k2 : f1.setWeight ops 1 h s.weight = some (.ok f2) := by
    cases hk : f1.setWeight ops 1 h s.weight with
    | none => rw [hk] at h2; cases h2
    | some x => rw [hk] at h2; exact congrArg some h2
  have g2 : GrownForest ops f2 := .step (op := .setWeight h s.weight) (fuel := 1) g1 trivial k2
  obtain ⟨r2, l2⟩ := rooted_setWeight r1 k2
  have k3 : f2.setBias ops 1 h s.bias = some (.ok g) := by
    cases hk : f2.setBias ops 1 h s.bias with
    | none => rw [hk] at h3; cases h3
    | some x => rw [hk] at h3; exact congrArg some h3
  have g3 : GrownForest ops g := .step (op := .setBias h s.bias) (fuel := 1) g2 trivial k3
  obtain ⟨r3, l3⟩ := rooted_setBias r2 k3
  refine ⟨g3, r3, e1.2, ?_⟩
  rw [l3, l2, e1.1, List.length_append]
  rfl

theorem attach_grown {ops : FloatOps} {h : Nat} : ∀ {cs : List (Option Nat)} {f g : Forest} {i : Nat}, GrownForest ops f → Rooted f h →
    (∀ c, some c ∈ cs → c ≠ h) → attach ops h f i cs = .ok g → GrownForest ops g ∧ Rooted g h ∧ g.length = f.length
  | [], f, g, i, hg, hr, _, hs => by
    cases hs
    exact ⟨hg, hr, rfl⟩
  | none :: cs, f, g, i, hg, hr, hc, hs => attach_grown hg hr (fun c h => hc c (.tail _ h)) hs
  | some c :: cs, f, g, i, hg, hr, hc, hs => by
    unfold attach at hs
    obtain ⟨f', h1, hs⟩ := bind_eq_ok hs
    have k : f.setChild ops 1 h i c = some (.ok f') := by
      cases hk : f.setChild ops 1 h i c with
      | none => rw [hk] at h1; cases h1
      | some x => rw [hk] at h1; exact congrArg some h1
    have hne := hc c (.head _)
    have g1 : GrownForest ops f' := .step (op := .setChild h i c) (fuel := 1) hg (fun ha => hne (rooted_above hr ha)) k
    obtain ⟨r1, l1⟩ := rooted_setChild hr hne k
    obtain ⟨g2, r2, l2⟩ := attach_grown g1 r1 (fun c h => hc c (.tail _ h)) hs
    exact ⟨g2, r2, l2.trans l1⟩

theorem deKids_grown {ops : FloatOps} {sub : Grove → Rd (Grove × Nat)}
    (hsub : ∀ {g : Grove} {bs rest : Bytes} {g' : Grove} {h : Nat}, GrownForest ops g.trees → sub g bs = .ok ((g', h), rest) →
      GrownForest ops g'.trees ∧ h < g'.trees.length ∧ g.trees.length ≤ g'.trees.length) :
    ∀ {n : Nat} {g g' : Grove} {bs rest : Bytes} {cs : List (Option Nat)}, GrownForest ops g.trees →
      deKids sub n g bs = .ok ((g', cs), rest) →
      GrownForest ops g'.trees ∧ g.trees.length ≤ g'.trees.length ∧ ∀ c, some c ∈ cs → c < g'.trees.length
  | 0, g, g', bs, rest, cs, hg, h => by
    cases h
    exact ⟨hg, Nat.le_refl _, nofun⟩
  | n + 1, g, g', bs, rest, cs, hg, h => by
    unfold deKids at h
    obtain ⟨p, b1, -, h⟩ := DistObj.rd_bind_ok h
    split at h
    · obtain ⟨⟨g1, cs1⟩, b2, h1, h⟩ := DistObj.rd_bind_ok h
      cases h
      obtain ⟨k1, k2, k3⟩ := deKids_grown hsub hg h1
      refine ⟨k1, k2, fun c hc => ?_⟩
      rcases List.mem_cons.mp hc with hc | hc
      · cases hc
      · exact k3 c hc
    · obtain ⟨⟨g1, c1⟩, b2, h1, h⟩ := DistObj.rd_bind_ok h
      obtain ⟨⟨g2, cs2⟩, b3, h2, h⟩ := DistObj.rd_bind_ok h
      cases h
      obtain ⟨j1, j2, j3⟩ := hsub hg h1
      obtain ⟨k1, k2, k3⟩ := deKids_grown hsub j1 h2
      refine ⟨k1, Nat.le_trans j3 k2, fun c hc => ?_⟩
      rcases List.mem_cons.mp hc with hc | hc
      · cases hc
        exact Nat.lt_of_lt_of_le j2 k2
      · exact k3 c hc

theorem deTreeFuel_grown {ops : FloatOps} {little : Bool} : ∀ {fuel : Nat} {g g' : Grove} {bs rest : Bytes} {h : Nat},
    GrownForest ops g.trees → deTreeFuel ops little fuel g bs = .ok ((g', h), rest) →
    GrownForest ops g'.trees ∧ h < g'.trees.length ∧ g.trees.length ≤ g'.trees.length ∧ Rooted g'.trees h
  | 0, g, g', bs, rest, h, hg, he => by cases he
  | fuel + 1, g, g', bs, rest, h, hg, he => by
    unfold deTreeFuel at he
    obtain ⟨o, b1, -, he⟩ := DistObj.rd_bind_ok he
    obtain ⟨-, b2, -, he⟩ := DistObj.rd_bind_ok he
    obtain ⟨arity, b3, -, he⟩ := DistObj.rd_bind_ok he
    obtain ⟨weight, b4, -, he⟩ := DistObj.rd_bind_ok he
    obtain ⟨⟨g1, cs⟩, b5, h1, he⟩ := DistObj.rd_bind_ok he
    obtain ⟨bias, b6, -, he⟩ := DistObj.rd_bind_ok he
    obtain ⟨value, b7, -, he⟩ := DistObj.rd_bind_ok he
    obtain ⟨⟨f2, h'⟩, b8, h2, he⟩ := DistObj.rd_bind_ok he
    obtain ⟨f3, b9, h3, he⟩ := DistObj.rd_bind_ok he
    obtain ⟨ud, b10, -, he⟩ := DistObj.rd_bind_ok he
    cases he
    obtain ⟨k1, k2, k3⟩ := deKids_grown (ops := ops)
      (fun hg h => ⟨(deTreeFuel_grown hg h).1, (deTreeFuel_grown hg h).2.1, (deTreeFuel_grown hg h).2.2.1⟩) hg h1
    obtain ⟨s1, s2, s3, s4⟩ := sprout_rooted k1 (DistObj.rd_lift_ok h2)
    obtain ⟨a1, a2, a3⟩ := attach_grown s1 s2 (fun c hc => by have := k3 c hc; omega) (DistObj.rd_lift_ok h3)
    refine ⟨a1, ?_, ?_, a2⟩
    · show h < f3.length
      simp only at s3 s4 a3
      omega
    · show g.trees.length ≤ f3.length
      simp only at s3 s4 a3
      omega

end Forest

end CCS
