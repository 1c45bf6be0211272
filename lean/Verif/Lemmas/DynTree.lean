import Verif.Spec.TreeSpace
import Verif.Lemmas.TreeWalk

/-! Helper lemmas about dynamic tree spaces. -/

namespace CCS

open Spec

theorem feq_one {w : F64} (h : F64.feq w F64.one = true) : w = F64.one := by
  unfold F64.feq at h
  simp only [Bool.and_eq_true, decide_eq_true_eq] at h
  have h1 : F64.key F64.one = 0x3ff0000000000000 := by decide
  rw [h1] at h
  have h2 := h.2
  unfold F64.key at h2
  apply BitVec.eq_of_toNat_eq
  have h3 : F64.one.toNat = 0x3ff0000000000000 := by decide
  rw [h3]
  have := w.isLt
  split at h2 <;> omega

namespace Forest

/-- A node `c` has been added at slot `i` of node `h`. -/
structure Extends (f f' : Forest) (h i c : Nat) (s : Sprout) : Prop where
  old : ∀ {k n}, f.node k = some n → ∃ n', f'.node k = some n' ∧ n'.arity = n.arity ∧ n'.value = n.value ∧
    n'.bias = n.bias ∧ n'.weights[n.arity]? = n.weights[n.arity]? ∧
    n'.children = if k = h then n.children.set i (some c) else n.children
  new : ∃ m, f'.node c = some m ∧ m.arity = s.arity ∧ m.value = s.value ∧ m.bias = s.bias ∧
    m.weights[m.arity]? = some s.weight ∧ m.children = List.replicate s.arity none
  fresh : f.node c = none
  only : ∀ {k n'}, f'.node k = some n' → k = c ∨ ∃ n, f.node k = some n

theorem shows_iff {f : Forest} {h : Nat} {s : Sprout} : Shows f h s ↔
    ∃ n, f.node h = some n ∧ n.value = s.value ∧ n.arity = s.arity ∧ n.weights.getD n.arity F64.zero = s.weight ∧
      n.bias = s.bias := by
  unfold Shows getValue getArity getWeight getBias
  cases f.node h with
  | none => simp
  | some n => simp

theorem shows_unique {f : Forest} {h : Nat} {s t : Sprout} (h1 : Shows f h s) (h2 : Shows f h t) : s = t := by
  obtain ⟨n, a1, a2, a3, a4, a5⟩ := shows_iff.mp h1
  obtain ⟨m, b1, b2, b3, b4, b5⟩ := shows_iff.mp h2
  rw [a1] at b1; cases b1
  cases s; cases t
  simp_all

theorem look_shows {f : Forest} {h : Nat} {s : Sprout} (hs : Shows f h s) : look f h = .ok s := by
  obtain ⟨h1, h2, h3, h4⟩ := hs
  simp [look, h1, h2, h3, h4]

/-- What the callback builds is a new root. -/
theorem sprout_ok {ops : FloatOps} {f : Forest} (hh : Healthy ops f) {s : Sprout} (hs : Sound s) :
    ∃ x, DynTree.sprout ops f s = .ok (f ++ [some x], f.length) ∧ Healthy ops (f ++ [some x]) ∧ x.parent = none ∧
      x.arity = s.arity ∧ x.value = s.value ∧ x.bias = s.bias ∧ x.weights[x.arity]? = some s.weight ∧
      x.children = List.replicate s.arity none := by
  have h1 : f.create ops s.arity s.value = .ok (f ++ [some (fresh ops s.arity s.value)], f.length) := by
    unfold create
    rw [refute_false (by have := hs.tag; omega), Out.bind_ok, refute_false (by have := hs.arity; omega), Out.bind_ok,
      refute_false hs.text, Out.bind_ok]
  have hh1 := healthy_create hh s.arity s.value
  have put_last : ∀ (a b : TreeNode), Forest.put (f ++ [some a]) f.length b = f ++ [some b] := by
    intro a b; simp [put]
  have hn1 : node (f ++ [some (fresh ops s.arity s.value)]) f.length = some (fresh ops s.arity s.value) := by
    rw [node_append, if_pos rfl]
  have hw1 : (fresh ops s.arity s.value).weights = unitWeights s.arity := rfl
  have hlen : (unitWeights s.arity).length = s.arity + 1 := by simp [unitWeights]
  -- the weight
  obtain ⟨y, h2, hy1, hy2, hy3, hy4, hy5, hy6⟩ : ∃ y : TreeNode,
      setWeight ops 1 (f ++ [some (fresh ops s.arity s.value)]) f.length s.weight = some (.ok (f ++ [some y])) ∧
      y.parent = none ∧ y.arity = s.arity ∧ y.value = s.value ∧ y.bias = F64.one ∧
      y.weights[y.arity]? = some s.weight ∧ y.children = List.replicate s.arity none := by
    by_cases he : F64.feq s.weight ((fresh ops s.arity s.value).weights.getD (fresh ops s.arity s.value).arity F64.zero) = true
    · refine ⟨fresh ops s.arity s.value, ?_, rfl, rfl, rfl, rfl, ?_, rfl⟩
      · simp only [setWeight, hn1, hs.weight, updateWeight, he]
        simp
      · have hv : (unitWeights s.arity).getD s.arity F64.zero = F64.one := by
          unfold unitWeights
          rw [List.getD_eq_getElem?_getD, List.getElem?_replicate, if_pos (by omega)]; rfl
        have : s.weight = F64.one := feq_one (by rw [← hv]; exact he)
        rw [this]
        show (unitWeights s.arity)[s.arity]? = _
        unfold unitWeights
        rw [List.getElem?_replicate, if_pos (by omega)]
    · refine ⟨reweigh ops (fresh ops s.arity s.value) (fresh ops s.arity s.value).arity s.weight, ?_, rfl, rfl, rfl, rfl, ?_, rfl⟩
      · simp only [setWeight, hn1, hs.weight, updateWeight]
        rw [if_neg (by simp), if_neg (by omega), if_neg he]
        simp only [updateLoop, hn1]
        rw [put_last]
        rfl
      · show (List.set (unitWeights s.arity) s.arity s.weight)[s.arity]? = _
        rw [List.getElem?_set_self (by omega)]
  have hh2 : Healthy ops (f ++ [some y]) := by
    obtain ⟨d, g, hg, hgh, -⟩ := setWeight_ok hh1 hn1 hs.weight
    have e := step_det (op := .setWeight f.length s.weight) (k := 1) (l := d + 1) (r := .ok (f ++ [some y])) (s := .ok g)
      h2 (hg _ (by omega))
    cases e; exact hgh
  have hn2 : node (f ++ [some y]) f.length = some y := by rw [node_append, if_pos rfl]
  -- the bias
  obtain ⟨z, h3, hz1, hz2, hz3, hz4, hz5, hz6⟩ : ∃ z : TreeNode,
      setBias ops 1 (f ++ [some y]) f.length s.bias = some (.ok (f ++ [some z])) ∧
      z.parent = none ∧ z.arity = s.arity ∧ z.value = s.value ∧ z.bias = s.bias ∧
      z.weights[z.arity]? = some s.weight ∧ z.children = List.replicate s.arity none := by
    by_cases he : F64.feq s.bias y.bias = true
    · refine ⟨y, ?_, hy1, hy2, hy3, ?_, hy5, hy6⟩
      · simp only [setBias, hn2, hs.bias, updateBias, he]
        simp
      · rw [hy4] at he ⊢
        exact (feq_one he).symm
    · refine ⟨{ y with bias := s.bias }, ?_, hy1, hy2, hy3, rfl, hy5, hy6⟩
      simp only [setBias, hn2, hs.bias, updateBias]
      rw [if_neg (by simp), if_neg he]
      simp only [hy1]
      rw [put_last]
  have hh3 : Healthy ops (f ++ [some z]) := by
    obtain ⟨d, g, hg, hgh, -⟩ := setBias_ok hh2 hn2 hs.bias
    have e := step_det (op := .setBias f.length s.bias) (k := 1) (l := d + 1) (r := .ok (f ++ [some z])) (s := .ok g)
      h3 (hg _ (by omega))
    cases e; exact hgh
  refine ⟨z, ?_, hh3, hz1, hz2, hz3, hz4, hz5, hz6⟩
  unfold DynTree.sprout
  rw [h1, Out.bind_ok]
  simp only [h2, Option.getD_some, Out.bind_ok, h3]

/-- What is accepted from a callback is sound. -/
theorem sprout_sound {ops : FloatOps} {f : Forest} {s : Sprout} {r : Forest × Nat} (h : DynTree.sprout ops f s = .ok r) :
    Sound s := by
  unfold DynTree.sprout create at h
  by_cases h1 : 4 < s.value.tag
  · rw [refute_true h1] at h; cases h
  · rw [refute_false h1, Out.bind_ok] at h
    by_cases h2 : 2 ^ 63 - 2 < s.arity
    · rw [refute_true h2] at h; cases h
    · rw [refute_false h2, Out.bind_ok] at h
      by_cases h3 : s.value = .str none
      · rw [refute_true h3] at h; cases h
      · rw [refute_false h3, Out.bind_ok, Out.bind_ok] at h
        simp only at h
        have hn1 : node (f ++ [some (fresh ops s.arity s.value)]) f.length = some (fresh ops s.arity s.value) := by
          rw [node_append, if_pos rfl]
        cases h4 : F64.lt s.weight F64.zero with
        | true => simp [setWeight, hn1, h4] at h
        | false =>
          cases h5 : F64.lt s.bias F64.zero with
          | true =>
            exfalso
            cases h6 : (setWeight ops 1 (f ++ [some (fresh ops s.arity s.value)]) f.length s.weight).getD .ub with
            | ub => rw [h6] at h; cases h
            | err e => rw [h6] at h; cases h
            | ok f2 =>
              rw [h6, Out.bind_ok] at h
              cases h7 : f2.node f.length with
              | none => simp [setBias, h7] at h
              | some n => simp [setBias, h7, h5] at h
          | false => exact ⟨by omega, by omega, h3, h4, h5⟩

/-- Attaching what the callback builds. -/
theorem extend {ops : FloatOps} {f : Forest} (hh : Healthy ops f) {s : Sprout} (hs : Sound s) {h i : Nat} {n : TreeNode}
    (hn : f.node h = some n) (hi : n.children[i]? = some none) :
    ∃ f1 f', DynTree.sprout ops f s = .ok (f1, f.length) ∧
      (∃ d, ∀ fuel, d < fuel → f1.setChild ops fuel h i f.length = some (.ok f')) ∧ Healthy ops f' ∧
      Extends f f' h i f.length s := by
  obtain ⟨x, h1, hh1, hx1, hx2, hx3, hx4, hx5, hx6⟩ := sprout_ok hh hs
  have hlt := node_lt hn
  have hn1 : node (f ++ [some x]) h = some n := by rw [node_append, if_neg (by omega), hn]
  have hc1 : node (f ++ [some x]) f.length = some x := by rw [node_append, if_pos rfl]
  have hna : ¬ Above (f ++ [some x]) f.length h := by
    have key : ∀ {t}, Above (f ++ [some x]) f.length t → t = f.length := by
      intro t ht
      induction ht with
      | self => rfl
      | up hp _ ih =>
        subst ih
        obtain ⟨m, hm, hpm, -⟩ := getParent_ok hp
        obtain ⟨y, hy, hy'⟩ := hh1.linked.up hm hpm
        rw [hc1] at hy; cases hy
        rw [hx6, List.getElem?_replicate] at hy'
        split at hy' <;> simp at hy'
    intro ha
    have := key ha
    omega
  obtain ⟨d, g, hg, hgh, hr⟩ := setChild_ok hh1 hn1 hc1 hi hx1 hna
  refine ⟨_, g, h1, ⟨d, hg⟩, hgh, ?_⟩
  have hne : h ≠ f.length := by omega
  have hnode := node_link (i := i) hn1 hc1 hne
  have hil : i < n.arity := by rw [← (hh.ok hn).children]; exact (List.getElem?_eq_some_iff.mp hi).1
  have hfl : f.node f.length = none := by
    cases hf : f.node f.length with
    | none => rfl
    | some y => have := node_lt hf; omega
  constructor
  · intro k m hm
    have hkl := node_lt hm
    have hm1 : node (f ++ [some x]) k = some m := by rw [node_append, if_neg (by omega), hm]
    by_cases hk : k = h
    · subst hk
      rw [hn] at hm; cases hm
      have h2 : ((f ++ [some x] : Forest).link k i f.length).node k = some { n with children := n.children.set i (some f.length) } := by
        rw [hnode, if_pos rfl]
      obtain ⟨m', h3, h4⟩ := hr.skel.node h2
      obtain ⟨a1, a2, a3, a4, -⟩ := skel_eq h4
      refine ⟨m', h3, a1, a4, a3, ?_, by rw [if_pos rfl]; exact a2⟩
      exact hr.other (n := { n with children := n.children.set i (some f.length) }) h2 h3 (show i ≠ n.arity by omega)
    · have h2 : ((f ++ [some x] : Forest).link h i f.length).node k = some m := by
        rw [hnode, if_neg hk, if_neg (by omega), hm1]
      obtain ⟨m', h3, h4⟩ := hr.skel.node h2
      obtain ⟨a1, a2, a3, a4, -⟩ := skel_eq h4
      exact ⟨m', h3, a1, a4, a3, hr.own hk h2 h3, by rw [if_neg hk]; exact a2⟩
  · have h2 : ((f ++ [some x] : Forest).link h i f.length).node f.length = some { x with parent := some h, index := i } := by
      rw [hnode, if_neg (Ne.symm hne), if_pos rfl]
    obtain ⟨m', h3, h4⟩ := hr.skel.node h2
    obtain ⟨a1, a2, a3, a4, -⟩ := skel_eq h4
    refine ⟨m', h3, a1.trans hx2, a4.trans hx3, a3.trans hx4, ?_, a2.trans hx6⟩
    rw [a1]
    have := hr.own (Ne.symm hne) h2 h3
    exact this.trans hx5
  · exact hfl
  · intro k m hm
    obtain ⟨a, h2, -⟩ := hr.skel.symm.node hm
    rw [hnode] at h2
    by_cases hk : k = h
    · exact .inr ⟨n, by rw [hk]; exact hn⟩
    · rw [if_neg hk] at h2
      by_cases hk2 : k = f.length
      · exact .inl hk2
      · rw [if_neg hk2, node_append, if_neg hk2] at h2
        exact .inr ⟨a, h2⟩

theorem Extends.getChild {f f' : Forest} {h i c : Nat} {s : Sprout} (he : Extends f f' h i c s) {k j : Nat}
    {o : Option Nat} (hk : f.getChild k j = .ok o) (hne : ¬ (k = h ∧ j = i)) : f'.getChild k j = .ok o := by
  obtain ⟨n, hn, hj, ho⟩ := getChild_ok hk
  obtain ⟨n', hn', h1, -, -, -, h2⟩ := he.old hn
  simp only [Forest.getChild, hn', h1]
  rw [if_neg (by omega), h2]
  split
  · rename_i hkh
    subst hkh
    have : j ≠ i := fun h => hne ⟨rfl, h⟩
    rw [← ho, List.getD_eq_getElem?_getD, List.getElem?_set_ne (Ne.symm this), List.getD_eq_getElem?_getD]
  · rw [ho]

theorem Extends.child {f f' : Forest} {h i c : Nat} {s : Sprout} (he : Extends f f' h i c s) {n : TreeNode}
    (hn : f.node h = some n) (hi : n.children[i]? = some none) (hl : n.children.length = n.arity) :
    f'.getChild h i = .ok (some c) := by
  obtain ⟨n', hn', h1, -, -, -, h2⟩ := he.old hn
  have hil := (List.getElem?_eq_some_iff.mp hi).1
  simp only [Forest.getChild, hn', h1]
  rw [if_neg (by omega), h2, if_pos rfl, List.getD_eq_getElem?_getD, List.getElem?_set_self hil]
  rfl

/-- The positions that existed still lead to the same nodes. -/
theorem Extends.leads {f f' : Forest} {h i c : Nat} {s : Sprout} (he : Extends f f' h i c s)
    (hnone : f.getChild h i = .ok none) {r k : Nat} {p : List Nat} (hl : Leads f r p k) : Leads f' r p k := by
  induction hl with
  | here => exact .here
  | @down r j d p k hc _ ih =>
    refine .down (he.getChild hc ?_) ih
    rintro ⟨rfl, rfl⟩
    rw [hnone] at hc; cases hc

/-- The only new position is that of the new node. -/
theorem Extends.leads_inv {f f' : Forest} {h i c : Nat} {s : Sprout} (he : Extends f f' h i c s) {r k : Nat} {p : List Nat}
    (hl : Leads f' r p k) (hlen : ∀ {k n}, f.node k = some n → n.children.length = n.arity)
    (hlive : ∀ {k j d}, f.getChild k j = .ok (some d) → ∃ m, f.node d = some m)
    (hnone : f.getChild h i = .ok none) :
    (r = c ∧ p = [] ∧ k = c) ∨ (∀ n, f.node r = some n → Leads f r p k ∨ ∃ pre, p = pre ++ [i] ∧ k = c ∧ Leads f r pre h) := by
  induction hl with
  | here => exact .inr fun _ _ => .inl .here
  | @down r j d p k hc hl' ih =>
    by_cases hr : r = c
    · exfalso
      subst hr
      obtain ⟨m, hm, h1, -, -, -, h2⟩ := he.new
      obtain ⟨m', hm', h3, h4⟩ := getChild_ok hc
      rw [hm] at hm'; cases hm'
      rw [h2, List.getD_eq_getElem?_getD, List.getElem?_replicate] at h4
      split at h4 <;> simp at h4
    · refine .inr fun n hn => ?_
      obtain ⟨n', hn', h1, -, -, -, h2⟩ := he.old hn
      obtain ⟨n'', hn'', h3, h4⟩ := getChild_ok hc
      rw [hn'] at hn''; cases hn''
      by_cases hri : r = h ∧ j = i
      · obtain ⟨rfl, rfl⟩ := hri
        rw [h2, if_pos rfl] at h4
        have hil : j < n.children.length := by rw [hlen hn]; omega
        rw [List.getD_eq_getElem?_getD, List.getElem?_set_self hil] at h4
        have hdc : c = d := by simpa using h4
        subst hdc
        rcases ih with ⟨-, rfl, rfl⟩ | ih
        · exact .inr ⟨[], rfl, rfl, .here⟩
        · -- nothing below the new node
          cases hl' with
          | here => exact .inr ⟨[], rfl, rfl, .here⟩
          | down hc' _ =>
            exfalso
            obtain ⟨m, hm, h5, -, -, -, h6⟩ := he.new
            obtain ⟨m', hm', h7, h8⟩ := getChild_ok hc'
            rw [hm] at hm'; cases hm'
            rw [h6, List.getD_eq_getElem?_getD, List.getElem?_replicate] at h8
            split at h8 <;> simp at h8
      · have hcd : f.getChild r j = .ok (some d) := by
          simp only [Forest.getChild, hn]
          rw [if_neg (by omega), ← h4, h2]
          split
          · rename_i hrh
            subst hrh
            have : j ≠ i := fun h => hri ⟨rfl, h⟩
            rw [List.getD_eq_getElem?_getD, List.getD_eq_getElem?_getD, List.getElem?_set_ne (Ne.symm this)]
          · rfl
        obtain ⟨m, hm⟩ := hlive hcd
        rcases ih with ⟨rfl, -, -⟩ | ih
        · rw [he.fresh] at hm; cases hm
        · rcases ih m hm with h5 | ⟨pre, rfl, h5, h6⟩
          · exact .inl (.down hcd h5)
          · exact .inr ⟨j :: pre, rfl, h5, .down hcd h6⟩

theorem Extends.shows {f f' : Forest} {h i c : Nat} {s : Sprout} (he : Extends f f' h i c s) {k : Nat} {t : Sprout}
    (hs : Shows f k t) : Shows f' k t := by
  obtain ⟨n, h1, h2, h3, h4, h5⟩ := shows_iff.mp hs
  obtain ⟨n', a1, a2, a3, a4, a5, -⟩ := he.old h1
  refine shows_iff.mpr ⟨n', a1, a3.trans h2, a2.trans h3, ?_, a4.trans h5⟩
  rw [a2, List.getD_eq_getElem?_getD, a5, ← List.getD_eq_getElem?_getD, h4]

theorem Extends.shows_new {f f' : Forest} {h i c : Nat} {s : Sprout} (he : Extends f f' h i c s) : Shows f' c s := by
  obtain ⟨m, h1, h2, h3, h4, h5, -⟩ := he.new
  exact shows_iff.mpr ⟨m, h1, h3, h2, by rw [List.getD_eq_getElem?_getD, h5]; rfl, h4⟩

end Forest

namespace DynTree

/-- What happens when a child is asked for. -/
theorem getChild_cases {ops : FloatOps} {cb : List Nat → Out Sprout} {t : DynTree} (hh : Forest.Healthy ops t.forest)
    {h : Nat} {n : TreeNode} (hn : t.forest.node h = some n) (pos : List Nat) (i : Nat) :
    (n.arity ≤ i ∧ ∀ fuel, t.getChild ops cb fuel pos h i = some (t, .err .outOfBounds)) ∨
    (∃ c, i < n.arity ∧ t.forest.getChild h i = .ok (some c) ∧ ∀ fuel, t.getChild ops cb fuel pos h i = some (t, .ok c)) ∨
    (i < n.arity ∧ t.forest.getChild h i = .ok none ∧ ¬ Works cb (pos ++ [i]) ∧ ∃ r, (∀ c, r ≠ .ok c) ∧
      ∀ fuel, t.getChild ops cb fuel pos h i = some ({ t with calls := (pos ++ [i]) :: t.calls }, r)) ∨
    (∃ s f' c, i < n.arity ∧ t.forest.getChild h i = .ok none ∧ cb (pos ++ [i]) = .ok s ∧ Sound s ∧
      Forest.Healthy ops f' ∧ Forest.Extends t.forest f' h i c s ∧
      ∃ b, ∀ fuel, b ≤ fuel → t.getChild ops cb fuel pos h i =
        some ({ forest := f', root := t.root, calls := (pos ++ [i]) :: t.calls }, .ok c)) := by
  by_cases hi : n.arity ≤ i
  · refine .inl ⟨hi, fun fuel => ?_⟩
    simp only [getChild, Forest.getChild, hn, if_pos hi]
  · refine .inr ?_
    have hg : t.forest.getChild h i = .ok (n.children.getD i none) := by simp only [Forest.getChild, hn, if_neg hi]
    cases hc : n.children.getD i none with
    | some c =>
      rw [hc] at hg
      exact .inl ⟨c, by omega, hg, fun fuel => by simp only [getChild, hg]⟩
    | none =>
      rw [hc] at hg
      refine .inr ?_
      have hnone : n.children[i]? = some none := Forest.getD_eq_none (by rw [(hh.ok hn).children]; omega) hc
      cases hcb : cb (pos ++ [i]) with
      | ub => exact .inl ⟨by omega, hg, (by rintro ⟨s, hs, -⟩; rw [hcb] at hs; cases hs), .ub, by simp,
          fun fuel => by simp only [getChild, hg, hcb]⟩
      | err e => exact .inl ⟨by omega, hg, (by rintro ⟨s, hs, -⟩; rw [hcb] at hs; cases hs), .err e, by simp,
          fun fuel => by simp only [getChild, hg, hcb]⟩
      | ok s =>
        cases hsp : sprout ops t.forest s with
        | ub =>
          refine .inl ⟨by omega, hg, ?_, .ub, by simp, fun fuel => by simp only [getChild, hg, hcb, hsp]⟩
          rintro ⟨s', hs', hs''⟩
          rw [hcb] at hs'; cases hs'
          obtain ⟨x, hx, -⟩ := Forest.sprout_ok hh hs''
          rw [hsp] at hx; cases hx
        | err e =>
          refine .inl ⟨by omega, hg, ?_, .err e, by simp, fun fuel => by simp only [getChild, hg, hcb, hsp]⟩
          rintro ⟨s', hs', hs''⟩
          rw [hcb] at hs'; cases hs'
          obtain ⟨x, hx, -⟩ := Forest.sprout_ok hh hs''
          rw [hsp] at hx; cases hx
        | ok r =>
          have hsound := Forest.sprout_sound hsp
          obtain ⟨f1, f', h1, ⟨d, h2⟩, h3, h4⟩ := Forest.extend hh hsound hn hnone
          exact .inr ⟨s, f', t.forest.length, by omega, hg, rfl, hsound, h3, h4, d + 1, fun fuel hf => by
            simp only [getChild, hg, hcb, h1, h2 fuel (by omega)]⟩

/-- The positions for which the callback succeeded have a node, and have been asked for once. -/
structure Recorded (cb : List Nat → Out Sprout) (t : DynTree) : Prop where
  built : ∀ {p}, p ∈ t.calls → Works cb p → ∃ h, Leads t.forest t.root p h
  once : ∀ {p}, Works cb p → t.calls.count p ≤ 1

/-- Everything maintained whatever the callback does. -/
structure Kept (ops : FloatOps) (cb : List Nat → Out Sprout) (t : DynTree) : Prop where
  healthy : Forest.Healthy ops t.forest
  live : ∃ n, t.forest.node t.root = some n
  recorded : Recorded cb t

theorem leads_det {f : Forest} {r a b : Nat} {p : List Nat} (h1 : Leads f r p a) (h2 : Leads f r p b) : a = b := by
  have := Forest.leads_walk h1
  rw [Forest.leads_walk h2] at this
  cases this; rfl

theorem leads_snoc {f : Forest} {r k : Nat} {p : List Nat} {i : Nat} (h : Leads f r (p ++ [i]) k) :
    ∃ m, Leads f r p m ∧ f.getChild m i = .ok (some k) := by
  generalize hx : p ++ [i] = l at h
  induction h generalizing p with
  | here => simp at hx
  | @down r j c q k hc hl ih =>
    cases p with
    | nil =>
      simp only [List.nil_append, List.cons.injEq] at hx
      obtain ⟨rfl, rfl⟩ := hx
      cases hl
      exact ⟨r, .here, hc⟩
    | cons a p =>
      simp only [List.cons_append, List.cons.injEq] at hx
      obtain ⟨rfl, rfl⟩ := hx
      obtain ⟨m, h1, h2⟩ := ih rfl
      exact ⟨m, .down hc h1, h2⟩

theorem leads_live {ops : FloatOps} {f : Forest} (hh : Forest.Healthy ops f) {r k : Nat} {p : List Nat} (h : Leads f r p k)
    (hr : ∃ n, f.node r = some n) : ∃ n, f.node k = some n := by
  induction h with
  | here => exact hr
  | down hc _ ih => exact ih (Forest.child_live hh hc)

theorem leads_depth {ops : FloatOps} {f : Forest} (hh : Forest.Healthy ops f) {r k : Nat} {p : List Nat} (h : Leads f r p k) :
    ∀ {d}, Forest.Depth f r d → Forest.Depth f k (d + p.length) := by
  induction h with
  | here => intro d hd; exact hd
  | @down r i c p k hc _ ih =>
    intro d hd
    obtain ⟨n, hn, -, hg⟩ := Forest.getChild_ok hc
    obtain ⟨m, hm, h1, -⟩ := hh.linked.down hn (Forest.getD_some hg)
    have := ih (.step hm h1 hd)
    rw [List.length_cons]
    rw [show d + (p.length + 1) = d + 1 + p.length by omega]
    exact this

/-- A node has one position. -/
theorem leads_position {ops : FloatOps} {f : Forest} (hh : Forest.Healthy ops f) {r k : Nat} {p q : List Nat}
    (hr : ∃ n, f.node r = some n) (h1 : Leads f r p k) (h2 : Leads f r q k) : p = q := by
  obtain ⟨n, hn⟩ := hr
  obtain ⟨d, hd⟩ := hh.linked.rooted hn
  have hlen : p.length = q.length := by
    have := (leads_depth hh h1 hd).unique (leads_depth hh h2 hd)
    omega
  generalize hx : p.length = x at hlen
  induction x generalizing p q k with
  | zero =>
    rw [List.length_eq_zero_iff.mp hx, List.length_eq_zero_iff.mp hlen.symm]
  | succ x ih =>
    obtain ⟨p', i, rfl⟩ : ∃ p' i, p = p' ++ [i] := by
      rcases List.eq_nil_or_concat p with rfl | ⟨a, b, rfl⟩
      · cases hx
      · exact ⟨a, b, by simp⟩
    obtain ⟨q', j, rfl⟩ : ∃ p' i, q = p' ++ [i] := by
      rcases List.eq_nil_or_concat q with rfl | ⟨a, b, rfl⟩
      · cases hlen
      · exact ⟨a, b, by simp⟩
    obtain ⟨a, h3, h4⟩ := leads_snoc h1
    obtain ⟨b, h5, h6⟩ := leads_snoc h2
    obtain ⟨na, hna, -, hga⟩ := Forest.getChild_ok h4
    obtain ⟨nb, hnb, -, hgb⟩ := Forest.getChild_ok h6
    obtain ⟨m, hm, h7, h8⟩ := hh.linked.down hna (Forest.getD_some hga)
    obtain ⟨m', hm', h9, h10⟩ := hh.linked.down hnb (Forest.getD_some hgb)
    rw [hm] at hm'; cases hm'
    rw [h7] at h9; cases h9
    rw [h8] at h10; subst h10
    simp only [List.length_append, List.length_cons, List.length_nil] at hx hlen
    rw [ih h3 h5 (by omega) (by omega)]

/-- Asking for a child keeps everything. -/
theorem getChild_kept {ops : FloatOps} {cb : List Nat → Out Sprout} {t : DynTree} (hk : Kept ops cb t) {h : Nat}
    {pos : List Nat} (hl : Leads t.forest t.root pos h) (i : Nat) :
    ∃ b t' r, (∀ fuel, b ≤ fuel → t.getChild ops cb fuel pos h i = some (t', r)) ∧ Kept ops cb t' ∧ t'.root = t.root ∧
      ∀ c, r = .ok c → Leads t'.forest t'.root (pos ++ [i]) c := by
  obtain ⟨n, hn⟩ := leads_live hk.healthy hl hk.live
  rcases getChild_cases (cb := cb) hk.healthy hn pos i with ⟨-, h1⟩ | ⟨c, -, h1, h2⟩ | ⟨-, h1, h2, r, h3, h4⟩ |
    ⟨s, f', c, hia, h1, h2, h3, h4, h5, b, h6⟩
  · exact ⟨0, _, _, fun fuel _ => h1 fuel, hk, rfl, by simp⟩
  · refine ⟨0, _, _, fun fuel _ => h2 fuel, hk, rfl, ?_⟩
    intro c' hc
    cases hc
    exact Forest.leads_append hl (.down h1 .here)
  · refine ⟨0, _, _, fun fuel _ => h4 fuel, ⟨hk.healthy, hk.live, ?_, ?_⟩, rfl, fun c hc => absurd hc (h3 c)⟩
    · intro p hp hw
      rcases List.mem_cons.mp hp with rfl | hp
      · exact absurd hw h2
      · exact hk.recorded.built hp hw
    · intro p hw
      have : p ≠ pos ++ [i] := by rintro rfl; exact h2 hw
      rw [List.count_cons_of_ne (Ne.symm this)]
      exact hk.recorded.once hw
  · refine ⟨b, _, _, h6, ⟨h4, ?_, ?_, ?_⟩, rfl, ?_⟩
    · obtain ⟨m, hm⟩ := hk.live
      obtain ⟨m', hm', -⟩ := h5.old hm
      exact ⟨m', hm'⟩
    · intro p hp hw
      rcases List.mem_cons.mp hp with rfl | hp
      · exact ⟨c, Forest.leads_append (h5.leads h1 hl) (.down (h5.child hn (Forest.getD_eq_none (by
          rw [(hk.healthy.ok hn).children]; omega) (by obtain ⟨m, hm, -, ho⟩ := Forest.getChild_ok h1; rw [hn] at hm; cases hm; exact ho))
          (hk.healthy.ok hn).children) .here)⟩
      · obtain ⟨k, hk'⟩ := hk.recorded.built hp hw
        exact ⟨k, h5.leads h1 hk'⟩
    · intro p hw
      by_cases hp : p = pos ++ [i]
      · subst hp
        have : pos ++ [i] ∉ t.calls := by
          intro hm
          obtain ⟨k, hk'⟩ := hk.recorded.built hm hw
          obtain ⟨m, h7, h8⟩ := leads_snoc hk'
          rw [leads_det h7 hl, h1] at h8
          cases h8
        rw [List.count_cons_self, List.count_eq_zero.mpr this]
        exact Nat.le_refl _
      · rw [List.count_cons_of_ne (Ne.symm hp)]
        exact hk.recorded.once hw
    · intro c' hc
      cases hc
      exact Forest.leads_append (h5.leads h1 hl) (.down (h5.child hn (Forest.getD_eq_none (by
        rw [(hk.healthy.ok hn).children]; omega) (by obtain ⟨m, hm, -, ho⟩ := Forest.getChild_ok h1; rw [hn] at hm; cases hm; exact ho))
        (hk.healthy.ok hn).children) .here)

theorem walk_kept {ops : FloatOps} {cb : List Nat → Out Sprout} : ∀ {p : List Nat} {t : DynTree} {h : Nat} {pos : List Nat},
    Kept ops cb t → Leads t.forest t.root pos h →
    ∃ b t' r, (∀ fuel, b ≤ fuel → t.walk ops cb fuel pos h p = some (t', r)) ∧ Kept ops cb t' := by
  intro p
  induction p with
  | nil => intro t h pos hk _; exact ⟨0, t, _, fun _ _ => rfl, hk⟩
  | cons i p ih =>
    intro t h pos hk hl
    obtain ⟨b, t', r, h1, h2, h3, h4⟩ := getChild_kept hk hl i
    cases r with
    | ub => exact ⟨b, t', .ub, fun fuel hf => by simp only [walk, h1 fuel hf], h2⟩
    | err e => exact ⟨b, t', .err e, fun fuel hf => by simp only [walk, h1 fuel hf], h2⟩
    | ok c =>
      obtain ⟨b', t'', r', h5, h6⟩ := ih h2 (h4 c rfl)
      exact ⟨max b b', t'', r', fun fuel hf => by
        simp only [walk, h1 fuel (by omega)]
        exact h5 fuel (by omega), h6⟩

/-- Asking for values builds what asking for the node builds. -/
theorem walkValues_kept {ops : FloatOps} {cb : List Nat → Out Sprout} : ∀ {p : List Nat} {t : DynTree} {h : Nat} {pos : List Nat},
    Kept ops cb t → Leads t.forest t.root pos h →
    ∃ b t' r, (∀ fuel, b ≤ fuel → t.walkValues ops cb fuel pos h p = some (t', r)) ∧ Kept ops cb t' := by
  intro p
  induction p with
  | nil => intro t h pos hk _; exact ⟨0, t, _, fun _ _ => rfl, hk⟩
  | cons i p ih =>
    intro t h pos hk hl
    obtain ⟨b, t', r, h1, h2, h3, h4⟩ := getChild_kept hk hl i
    cases r with
    | ub => exact ⟨b, t', .ub, fun fuel hf => by simp only [walkValues, h1 fuel hf], h2⟩
    | err e => exact ⟨b, t', .err e, fun fuel hf => by simp only [walkValues, h1 fuel hf], h2⟩
    | ok c =>
      cases hv : t'.forest.getValue c with
      | ub => exact ⟨b, t', .ub, fun fuel hf => by simp only [walkValues, h1 fuel hf, hv], h2⟩
      | err e => exact ⟨b, t', .err e, fun fuel hf => by simp only [walkValues, h1 fuel hf, hv], h2⟩
      | ok v =>
        obtain ⟨b', t'', r', h5, h6⟩ := ih h2 (h4 c rfl)
        cases r' with
        | ub => exact ⟨max b b', t'', .ub, fun fuel hf => by
            simp only [walkValues, h1 fuel (by omega), hv, h5 fuel (by omega)], h6⟩
        | err e => exact ⟨max b b', t'', .err e, fun fuel hf => by
            simp only [walkValues, h1 fuel (by omega), hv, h5 fuel (by omega)], h6⟩
        | ok vs => exact ⟨max b b', t'', .ok (v :: vs), fun fuel hf => by
            simp only [walkValues, h1 fuel (by omega), hv, h5 fuel (by omega)], h6⟩

theorem validLoop_kept {ops : FloatOps} {cb : List Nat → Out Sprout} : ∀ {p : List Nat} {t : DynTree} {h : Nat} {pos : List Nat},
    Kept ops cb t → Leads t.forest t.root pos h →
    ∃ b t' r, (∀ fuel, b ≤ fuel → t.validLoop ops cb fuel pos h p = some (t', r)) ∧ Kept ops cb t' := by
  intro p
  induction p with
  | nil => intro t h pos hk _; exact ⟨0, t, _, fun _ _ => rfl, hk⟩
  | cons i p ih =>
    intro t h pos hk hl
    obtain ⟨n, hn⟩ := leads_live hk.healthy hl hk.live
    have ha : t.forest.getArity h = .ok n.arity := by simp only [Forest.getArity, hn]
    by_cases hi : n.arity ≤ i
    · exact ⟨0, t, .ok false, fun fuel _ => by simp only [validLoop, ha, if_pos hi], hk⟩
    · obtain ⟨b, t', r, h1, h2, h3, h4⟩ := getChild_kept hk hl i
      cases r with
      | ub => exact ⟨b, t', .ub, fun fuel hf => by simp only [validLoop, ha, if_neg hi, h1 fuel hf], h2⟩
      | err e => exact ⟨b, t', .err e, fun fuel hf => by simp only [validLoop, ha, if_neg hi, h1 fuel hf], h2⟩
      | ok c =>
        obtain ⟨b', t'', r', h5, h6⟩ := ih h2 (h4 c rfl)
        exact ⟨max b b', t'', r', fun fuel hf => by
          simp only [validLoop, ha, if_neg hi, h1 fuel (by omega)]
          exact h5 fuel (by omega), h6⟩

/-- Any sequence of queries ends and keeps everything. -/
theorem dynAnswers_kept {ops : FloatOps} {cb : List Nat → Out Sprout} : ∀ {qs : List Query} {t : DynTree}, Kept ops cb t →
    ∃ b as t', (∀ fuel, b ≤ fuel → dynAnswers ops cb fuel t qs = some (as, t')) ∧ Kept ops cb t' := by
  intro qs
  induction qs with
  | nil => intro t hk; exact ⟨0, [], t, fun _ _ => rfl, hk⟩
  | cons q qs ih =>
    intro t hk
    cases q with
    | node p =>
      obtain ⟨b, t', r, h1, h2⟩ := walk_kept (p := p) hk .here
      obtain ⟨b', as, t'', h3, h4⟩ := ih h2
      exact ⟨max b b', _ :: as, t'', fun fuel hf => by
        simp only [dynAnswers, nodeAt, h1 fuel (by omega), Option.map_some, h3 fuel (by omega)]; rfl, h4⟩
    | valid p =>
      obtain ⟨b, t', r, h1, h2⟩ := validLoop_kept (p := p) hk .here
      obtain ⟨b', as, t'', h3, h4⟩ := ih h2
      exact ⟨max b b', _ :: as, t'', fun fuel hf => by
        simp only [dynAnswers, positionIsValid, h1 fuel (by omega), Option.map_some, h3 fuel (by omega)]; rfl, h4⟩
    | values p room =>
      obtain ⟨b, t', r, h1, h2⟩ : ∃ b t' r, (∀ fuel, b ≤ fuel → t.valuesAt ops cb fuel p room = some (t', r)) ∧ Kept ops cb t' := by
        obtain ⟨n, hn⟩ := hk.live
        have hv : t.forest.getValue t.root = .ok n.value := by simp only [Forest.getValue, hn]
        by_cases hr : room < p.length + 1
        · exact ⟨0, t, _, fun fuel _ => by simp only [valuesAt, if_pos hr]; rfl, hk⟩
        · obtain ⟨b, t', r, h1, h2⟩ := walkValues_kept (p := p) hk .here
          cases r with
          | ub => exact ⟨b, t', .ub, fun fuel hf => by simp only [valuesAt, if_neg hr, hv, h1 fuel hf], h2⟩
          | err e => exact ⟨b, t', .err e, fun fuel hf => by simp only [valuesAt, if_neg hr, hv, h1 fuel hf], h2⟩
          | ok vs => exact ⟨b, t', _, fun fuel hf => by simp only [valuesAt, if_neg hr, hv, h1 fuel hf]; rfl, h2⟩
      obtain ⟨b', as, t'', h3, h4⟩ := ih h2
      exact ⟨max b b', _ :: as, t'', fun fuel hf => by
        simp only [dynAnswers, h1 fuel (by omega), Option.map_some, h3 fuel (by omega)]; rfl, h4⟩

/-! ## Comparison with a complete tree -/

/-- The dynamic space agrees with the complete tree. -/
structure Agrees (ops : FloatOps) (cb : List Nat → Out Sprout) (g : Forest) (gr : Nat) (t : DynTree) : Prop where
  healthy : Forest.Healthy ops t.forest
  part : PartOf t.forest t.root g gr
  calls : ∀ p ∈ t.calls, Works cb p

theorem Agrees.live {ops : FloatOps} {cb : List Nat → Out Sprout} {g : Forest} {gr : Nat} {t : DynTree}
    (ha : Agrees ops cb g gr t) : ∃ n, t.forest.node t.root = some n := by
  obtain ⟨q, s, -, h1, -⟩ := ha.part .here
  obtain ⟨n, hn, -⟩ := Forest.shows_iff.mp h1
  exact ⟨n, hn⟩

theorem getChild_agrees {ops : FloatOps} {cb : List Nat → Out Sprout} {g : Forest} {gr : Nat} {t : DynTree}
    (hb : BuiltBy cb g gr) (ha : Agrees ops cb g gr t) {h q : Nat} {pos : List Nat}
    (hl : Leads t.forest t.root pos h) (hq : Leads g gr pos q) (i : Nat) :
    (∃ m, g.node q = some m ∧ m.arity ≤ i ∧ (∃ n, t.forest.node h = some n ∧ n.arity ≤ i) ∧
      ∀ fuel, t.getChild ops cb fuel pos h i = some (t, .err .outOfBounds)) ∨
    (∃ m c d t' b, g.node q = some m ∧ i < m.arity ∧ (∃ n, t.forest.node h = some n ∧ i < n.arity) ∧
      g.getChild q i = .ok (some d) ∧
      (∀ fuel, b ≤ fuel → t.getChild ops cb fuel pos h i = some (t', .ok c)) ∧ Agrees ops cb g gr t' ∧
      Leads t'.forest t'.root (pos ++ [i]) c ∧ Leads g gr (pos ++ [i]) d) := by
  obtain ⟨q', s, h1, h2, h3⟩ := ha.part hl
  have := leads_det h1 hq
  subst this
  obtain ⟨n, hn, hn1, hn2, hn3, hn4⟩ := Forest.shows_iff.mp h2
  obtain ⟨m, hm, hm1, hm2, hm3, hm4⟩ := Forest.shows_iff.mp h3
  rcases getChild_cases (cb := cb) ha.healthy hn pos i with ⟨e1, e2⟩ | ⟨c, e1, e2, e3⟩ | ⟨e1, e2, e3, -⟩ |
    ⟨s', f', c, e1, e2, e3, e4, e5, e6, b, e7⟩
  · exact .inl ⟨m, hm, by omega, ⟨n, hn, e1⟩, e2⟩
  · obtain ⟨d, hd⟩ := hb.full hq hm (i := i) (by omega)
    exact .inr ⟨m, c, d, t, 0, hm, by omega, ⟨n, hn, e1⟩, hd, fun fuel _ => e3 fuel, ha,
      Forest.leads_append hl (.down e2 .here), Forest.leads_append hq (.down hd .here)⟩
  · obtain ⟨d, hd⟩ := hb.full hq hm (i := i) (by omega)
    obtain ⟨s', h4, h5, -⟩ := hb.node (Forest.leads_append hq (.down hd .here)) (by simp)
    exact absurd ⟨s', h4, h5⟩ e3
  · obtain ⟨d, hd⟩ := hb.full hq hm (i := i) (by omega)
    have hld := Forest.leads_append hq (.down hd .here)
    obtain ⟨s'', h4, h5, h6⟩ := hb.node hld (by simp)
    rw [e3] at h4; cases h4
    have hnone : n.children[i]? = some none := by
      obtain ⟨x, hx, -, ho⟩ := Forest.getChild_ok e2
      rw [hn] at hx; cases hx
      exact Forest.getD_eq_none (by rw [(ha.healthy.ok hn).children]; omega) ho
    have hnew : Leads f' t.root (pos ++ [i]) c :=
      Forest.leads_append (e6.leads e2 hl) (.down (e6.child hn hnone (ha.healthy.ok hn).children) .here)
    refine .inr ⟨m, c, d, _, b, hm, by omega, ⟨n, hn, e1⟩, hd, e7, ⟨e5, ?_, ?_⟩, hnew, hld⟩
    rotate_left
    · intro p hp
      rcases List.mem_cons.mp hp with rfl | hp
      · exact ⟨s', e3, h5⟩
      · exact ha.calls p hp
    intro p k hk
    obtain ⟨r0, hr0⟩ := ha.live
    have hold : Leads t.forest t.root p k ∨ (k = c ∧ p = pos ++ [i]) := by
      rcases e6.leads_inv hk (fun h => (ha.healthy.ok h).children) (fun h => Forest.child_live ha.healthy h) e2 with
        ⟨h7, -, -⟩ | h7
      · exfalso
        have h7 : t.root = c := h7
        have := e6.fresh
        rw [← h7, hr0] at this; cases this
      · rcases h7 r0 hr0 with h8 | ⟨pre, h8, h9, h10⟩
        · exact .inl h8
        · exact .inr ⟨h9, by rw [h8, leads_position ha.healthy ⟨r0, hr0⟩ h10 hl]⟩
    rcases hold with hold | ⟨rfl, rfl⟩
    · obtain ⟨q2, s2, h8, h9, h10⟩ := ha.part hold
      exact ⟨q2, s2, h8, e6.shows h9, h10⟩
    · exact ⟨d, s', hld, e6.shows_new, h6⟩

/-- The three walks over a position of a dynamic space answer as those of the complete tree, and build the same nodes. -/
theorem walks_agree {ops : FloatOps} {cb : List Nat → Out Sprout} {g : Forest} {gr : Nat} (hb : BuiltBy cb g gr) :
    ∀ {p : List Nat} {t : DynTree} {h q : Nat} {pos : List Nat}, Agrees ops cb g gr t → Leads t.forest t.root pos h →
    Leads g gr pos q → ∃ b t' r, Agrees ops cb g gr t' ∧ ∀ fuel, b ≤ fuel →
      t.walk ops cb fuel pos h p = some (t', r) ∧
      t.walkValues ops cb fuel pos h p = some (t', g.walkValues q p) ∧
      t.validLoop ops cb fuel pos h p = some (t', g.validLoop (some q) p) ∧
      ((∃ e, r = .err e ∧ g.walk q p = .err e) ∨
       (∃ k q' s, r = .ok k ∧ g.walk q p = .ok q' ∧ Shows t'.forest k s ∧ Shows g q' s)) := by
  intro p
  induction p with
  | nil =>
    intro t h q pos ha hl hq
    obtain ⟨q', s, h1, h2, h3⟩ := ha.part hl
    have := leads_det h1 hq
    subst this
    exact ⟨0, t, .ok h, ha, fun fuel _ => ⟨rfl, rfl, rfl, .inr ⟨h, q', s, rfl, rfl, h2, h3⟩⟩⟩
  | cons i p ih =>
    intro t h q pos ha hl hq
    rcases getChild_agrees hb ha hl hq i with ⟨m, h1, h2, ⟨n, hn, h3⟩, h4⟩ |
      ⟨m, c, d, t', b, h1, h2, ⟨n, hn, h3⟩, h4, h5, h6, h7, h8⟩
    · have hgc : g.getChild q i = .err .outOfBounds := by simp only [Forest.getChild, h1, if_pos h2]
      have har : t.forest.getArity h = .ok n.arity := by simp only [Forest.getArity, hn]
      refine ⟨0, t, .err .outOfBounds, ha, fun fuel _ => ⟨?_, ?_, ?_, .inl ⟨_, rfl, ?_⟩⟩⟩
      · simp only [walk, h4]
      · simp only [walkValues, h4, Forest.walkValues, Forest.stepDown, hgc]
        rfl
      · simp only [validLoop, har, if_pos h3, Forest.validLoop, h1, if_pos h2]
      · simp only [Forest.walk, Forest.stepDown, hgc]
        rfl
    · obtain ⟨b', t'', r, h9, h10⟩ := ih h6 h7 h8
      have har : t.forest.getArity h = .ok n.arity := by simp only [Forest.getArity, hn]
      obtain ⟨qd, sd, h11, h12, h13⟩ := h6.part h7
      have := leads_det h11 h8
      subst this
      have hval : t'.forest.getValue c = .ok sd.value := h12.1
      have hval' : g.getValue qd = .ok sd.value := h13.1
      have hstep : g.stepDown q i = .ok qd := by simp only [Forest.stepDown, h4]; rfl
      have hgd : m.children.getD i none = some qd := by
        obtain ⟨m', hm', -, ho⟩ := Forest.getChild_ok h4
        rw [h1] at hm'; cases hm'; exact ho
      refine ⟨max b b', t'', r, h9, fun fuel hf => ?_⟩
      obtain ⟨w1, w2, w3, w4⟩ := h10 fuel (by omega)
      have hf' := h5 fuel (by omega)
      refine ⟨?_, ?_, ?_, ?_⟩
      · simp only [walk, hf', w1]
      · simp only [walkValues, hf', hval, w2, Forest.walkValues, hstep, hval', Out.bind_ok]
        cases g.walkValues qd p <;> rfl
      · simp only [validLoop, har, if_neg (show ¬ n.arity ≤ i by omega), hf', w3, Forest.validLoop, h1,
          if_neg (show ¬ m.arity ≤ i by omega), hgd]
      · simp only [Forest.walk, hstep, Out.bind_ok]
        exact w4

/-- Any sequence of queries gets the answers of the complete tree. -/
theorem dynAnswers_agree {ops : FloatOps} {cb : List Nat → Out Sprout} {g : Forest} {gr : Nat} (hb : BuiltBy cb g gr) :
    ∀ {qs : List Query} {t : DynTree}, Agrees ops cb g gr t → ∃ b t', Agrees ops cb g gr t' ∧
      ∀ fuel, b ≤ fuel → dynAnswers ops cb fuel t qs = some (qs.map (staticAnswer g gr), t') := by
  intro qs
  induction qs with
  | nil => intro t ha; exact ⟨0, t, ha, fun _ _ => rfl⟩
  | cons q qs ih =>
    intro t ha
    obtain ⟨q0, s0, h0, h0', h0''⟩ := ha.part .here
    cases h0
    obtain ⟨gm, hgm, -⟩ := Forest.shows_iff.mp h0''
    cases q with
    | node p =>
      obtain ⟨b, t', r, h1, h2⟩ := walks_agree (p := p) hb ha .here .here
      obtain ⟨b', t'', h3, h4⟩ := ih h1
      refine ⟨max b b', t'', h3, fun fuel hf => ?_⟩
      obtain ⟨w1, -, -, w4⟩ := h2 fuel (by omega)
      simp only [dynAnswers, nodeAt, w1, Option.map_some, h4 fuel (by omega), List.map_cons, staticAnswer, Forest.nodeAt, hgm]
      rcases w4 with ⟨e, rfl, w5⟩ | ⟨k, q', s, rfl, w5, w6, w7⟩
      · rw [w5]; rfl
      · rw [w5, Out.bind_ok, Out.bind_ok, Forest.look_shows w6, Forest.look_shows w7]
    | valid p =>
      obtain ⟨b, t', r, h1, h2⟩ := walks_agree (p := p) hb ha .here .here
      obtain ⟨b', t'', h3, h4⟩ := ih h1
      refine ⟨max b b', t'', h3, fun fuel hf => ?_⟩
      obtain ⟨-, -, w3, -⟩ := h2 fuel (by omega)
      simp only [dynAnswers, positionIsValid, w3, Option.map_some, h4 fuel (by omega), List.map_cons, staticAnswer,
        Forest.positionIsValid, hgm]
    | values p room =>
      by_cases hr : room < p.length + 1
      · obtain ⟨b', t'', h3, h4⟩ := ih ha
        refine ⟨b', t'', h3, fun fuel hf => ?_⟩
        simp only [dynAnswers, valuesAt, if_pos hr, Option.map_some, h4 fuel hf, List.map_cons, staticAnswer,
          Forest.valuesAt, hgm, refute_true hr]
        rfl
      · obtain ⟨b, t', r, h1, h2⟩ := walks_agree (p := p) hb ha .here .here
        obtain ⟨b', t'', h3, h4⟩ := ih h1
        refine ⟨max b b', t'', h3, fun fuel hf => ?_⟩
        obtain ⟨-, w2, -, -⟩ := h2 fuel (by omega)
        have hv : t.forest.getValue t.root = .ok s0.value := h0'.1
        have hv' : gm.value = s0.value := by
          have := h0''.1
          simp only [Forest.getValue, hgm] at this
          exact Out.ok.inj this
        simp only [dynAnswers, valuesAt, if_neg hr, hv, w2, staticAnswer, Forest.valuesAt, hgm, refute_false hr,
          Out.bind_ok, hv', List.map_cons]
        cases hw : g.walkValues gr p with
        | ub => simp only [Option.map_some, h4 fuel (by omega)]; rfl
        | err e => simp only [Option.map_some, h4 fuel (by omega)]; rfl
        | ok vs => simp only [Option.map_some, h4 fuel (by omega)]; rfl

end DynTree

end CCS
