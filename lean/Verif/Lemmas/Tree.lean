import Verif.Spec.Tree
import Verif.Lemmas.Num

/-! Helper lemmas about trees. -/

namespace CCS

open Spec

namespace Forest

theorem node_some {f : Forest} {h : Nat} {n : TreeNode} : f.node h = some n ↔ f[h]? = some (some n) := by
  unfold node
  split
  · rename_i m hm
    rw [hm]
    simp
  · rename_i hx
    constructor
    · intro h; cases h
    · intro h; exact absurd h (hx n)

theorem node_lt {f : Forest} {h : Nat} {n : TreeNode} (hn : f.node h = some n) : h < f.length := by
  have := node_some.mp hn
  exact (List.getElem?_eq_some_iff.mp this).1

theorem node_put_self {f : Forest} {h : Nat} {n m : TreeNode} (hn : f.node h = some n) :
    (f.put h m).node h = some m := by
  rw [node_some]
  simp [put, node_lt hn]

theorem node_put_ne {f : Forest} {h k : Nat} {m : TreeNode} (hk : k ≠ h) :
    (f.put h m).node k = f.node k := by
  unfold node put
  rw [List.getElem?_set_ne (Ne.symm hk)]

theorem node_put {f : Forest} {h k : Nat} {n m : TreeNode} (hn : f.node h = some n) :
    (f.put h m).node k = if k = h then some m else f.node k := by
  by_cases hk : k = h
  · subst hk
    rw [if_pos rfl, node_put_self hn]
  · rw [if_neg hk, node_put_ne hk]

theorem length_put (f : Forest) (h : Nat) (m : TreeNode) : (f.put h m).length = f.length := by
  simp [put]

/-- The part of a node that updates of weights leave alone. -/
def skel (n : TreeNode) : TreeNode := { n with weights := [], areas := [], sum := F64.zero }

theorem skel_eq {n m : TreeNode} (h : skel n = skel m) :
    n.arity = m.arity ∧ n.children = m.children ∧ n.bias = m.bias ∧ n.value = m.value ∧ n.parent = m.parent ∧
      n.index = m.index := by
  cases n; cases m
  simp only [skel, TreeNode.mk.injEq] at h
  simp_all

/-- Same structure. -/
def SameSkel (f g : Forest) : Prop := g.length = f.length ∧ ∀ h, (g.node h).map skel = (f.node h).map skel

theorem SameSkel.refl (f : Forest) : SameSkel f f := ⟨rfl, fun _ => rfl⟩

theorem SameSkel.trans {f g k : Forest} (h1 : SameSkel f g) (h2 : SameSkel g k) : SameSkel f k :=
  ⟨h2.1.trans h1.1, fun h => (h2.2 h).trans (h1.2 h)⟩

theorem SameSkel.symm {f g : Forest} (h : SameSkel f g) : SameSkel g f :=
  ⟨h.1.symm, fun k => (h.2 k).symm⟩

theorem SameSkel.node {f g : Forest} (h : SameSkel f g) {k : Nat} {n : TreeNode} (hn : f.node k = some n) :
    ∃ m, g.node k = some m ∧ skel m = skel n := by
  have := h.2 k
  rw [hn] at this
  cases hm : g.node k with
  | none => rw [hm] at this; cases this
  | some m => rw [hm] at this; exact ⟨m, rfl, Option.some.inj this⟩

theorem sameSkel_put {f : Forest} {h : Nat} {n m : TreeNode} (hn : f.node h = some n) (hs : skel m = skel n) :
    SameSkel f (f.put h m) := by
  refine ⟨length_put _ _ _, fun k => ?_⟩
  rw [node_put hn]
  by_cases hk : k = h
  · subst hk; rw [if_pos rfl, hn]; simp [hs]
  · rw [if_neg hk]

/-- `h` is at depth `d`. -/
inductive Depth (f : Forest) : Nat → Nat → Prop
  | root {h n} : f.node h = some n → n.parent = none → Depth f h 0
  | step {h n p d} : f.node h = some n → n.parent = some p → Depth f p d → Depth f h (d + 1)

theorem Depth.unique {f : Forest} {h d : Nat} (h1 : Depth f h d) : ∀ {e : Nat}, Depth f h e → d = e := by
  induction h1 with
  | root hn hp =>
    intro e h2
    cases h2 with
    | root => rfl
    | step hn' hp' => rw [hn] at hn'; cases hn'; rw [hp] at hp'; cases hp'
  | step hn hp _ ih =>
    intro e h2
    cases h2 with
    | root hn' hp' => rw [hn] at hn'; cases hn'; rw [hp] at hp'; cases hp'
    | step hn' hp' h3 => rw [hn] at hn'; cases hn'; rw [hp] at hp'; cases hp'; rw [ih h3]

/-- The part of a node that only attaching and destroying change. -/
def links (n : TreeNode) : List (Option Nat) × Option Nat × Nat := (n.children, n.parent, n.index)

/-- Same links. -/
def SameLinks (f g : Forest) : Prop := ∀ h, (g.node h).map links = (f.node h).map links

theorem SameLinks.symm {f g : Forest} (h : SameLinks f g) : SameLinks g f := fun k => (h k).symm

theorem links_eq {n m : TreeNode} (h : links n = links m) :
    n.children = m.children ∧ n.parent = m.parent ∧ n.index = m.index := by
  simp only [links, Prod.mk.injEq] at h
  exact h

theorem SameLinks.node {f g : Forest} (h : SameLinks f g) {k : Nat} {n : TreeNode} (hn : f.node k = some n) :
    ∃ m, g.node k = some m ∧ links m = links n := by
  have := h k
  rw [hn] at this
  cases hm : g.node k with
  | none => rw [hm] at this; cases this
  | some m => rw [hm] at this; exact ⟨m, rfl, Option.some.inj this⟩

theorem SameSkel.links {f g : Forest} (h : SameSkel f g) : SameLinks f g := by
  intro k
  have := h.2 k
  cases hf : f.node k with
  | none => rw [hf] at this; cases hg : g.node k <;> simp_all
  | some n =>
    obtain ⟨m, hm, hk⟩ := h.node hf
    rw [hm]
    obtain ⟨-, h2, -, -, h5, h6⟩ := skel_eq hk
    simp [Forest.links, h2, h5, h6]

theorem sameLinks_put {f : Forest} {h : Nat} {n m : TreeNode} (hn : f.node h = some n) (hs : links m = links n) :
    SameLinks f (f.put h m) := by
  intro k
  rw [node_put hn]
  by_cases hk : k = h
  · subst hk; rw [if_pos rfl, hn]; simp [hs]
  · rw [if_neg hk]

theorem Depth.transfer {f g : Forest} (hs : SameLinks f g) {h d : Nat} (h1 : Depth f h d) : Depth g h d := by
  induction h1 with
  | root hn hp =>
    obtain ⟨m, hm, hk⟩ := hs.node hn
    exact .root hm (by rw [(links_eq hk).2.1]; exact hp)
  | step hn hp _ ih =>
    obtain ⟨m, hm, hk⟩ := hs.node hn
    exact .step hm (by rw [(links_eq hk).2.1]; exact hp) ih

theorem Depth.not_self {f : Forest} {h d : Nat} {n : TreeNode} (h1 : Depth f h d) (hn : f.node h = some n) :
    n.parent ≠ some h := by
  intro hp
  cases h1 with
  | root hn' hp' => rw [hn] at hn'; cases hn'; rw [hp] at hp'; cases hp'
  | step hn' hp' h3 =>
    rw [hn] at hn'; cases hn'; rw [hp] at hp'; cases hp'
    have := Depth.unique h3 (.step hn hp h3)
    omega

/-- Local consistency of a node. -/
structure NodeOk (ops : FloatOps) (n : TreeNode) : Prop where
  weights : n.weights.length = n.arity + 1
  children : n.children.length = n.arity
  sum : n.sum = ops.total n.weights
  len : n.areas.length = n.arity + 2
  first : n.areas[0]? = some F64.zero
  last : n.areas[n.arity + 1]? = some F64.one
  areas : F64.lt F64.zero n.sum = true → n.areas = normalizeAreas ops n.weights (ops.div F64.one n.sum)

/-- Consistency of the links. -/
structure Linked (f : Forest) : Prop where
  down : ∀ {h n i c}, f.node h = some n → n.children[i]? = some (some c) →
    ∃ m, f.node c = some m ∧ m.parent = some h ∧ m.index = i
  up : ∀ {c m p}, f.node c = some m → m.parent = some p →
    ∃ n, f.node p = some n ∧ n.children[m.index]? = some (some c)
  zero : ∀ {c m}, f.node c = some m → m.parent = none → m.index = 0
  rooted : ∀ {h n}, f.node h = some n → ∃ d, Depth f h d

theorem Linked.transfer {f g : Forest} (hs : SameLinks f g) (hl : Linked f) : Linked g where
  down := by
    intro h n i c hn hc
    obtain ⟨n', hn', hk⟩ := hs.symm.node hn
    obtain ⟨m, hm, h1, h2⟩ := hl.down hn' (by rw [(links_eq hk).1]; exact hc)
    obtain ⟨m', hm', hk'⟩ := hs.node hm
    exact ⟨m', hm', by rw [(links_eq hk').2.1]; exact h1, by rw [(links_eq hk').2.2]; exact h2⟩
  up := by
    intro c m p hm hp
    obtain ⟨m', hm', hk⟩ := hs.symm.node hm
    obtain ⟨n, hn, h1⟩ := hl.up hm' (by rw [(links_eq hk).2.1]; exact hp)
    obtain ⟨n', hn', hk'⟩ := hs.node hn
    exact ⟨n', hn', by rw [(links_eq hk').1, ← (links_eq hk).2.2]; exact h1⟩
  zero := by
    intro c m hm hp
    obtain ⟨m', hm', hk⟩ := hs.symm.node hm
    rw [← (links_eq hk).2.2]
    exact hl.zero hm' (by rw [(links_eq hk).2.1]; exact hp)
  rooted := by
    intro h n hn
    obtain ⟨n', hn', _⟩ := hs.symm.node hn
    obtain ⟨d, hd⟩ := hl.rooted hn'
    exact ⟨d, hd.transfer hs⟩

/-- Consistency of the slot weights, except maybe slot `x`. -/
def Weighed (ops : FloatOps) (f : Forest) (x : Option (Nat × Nat)) : Prop :=
  ∀ ⦃h n i c w⦄, f.node h = some n → x ≠ some (h, i) → n.children[i]? = some c → n.weights[i]? = some w →
    SlotWeight ops f c w

theorem sameNumber_refl (a : F64) : SameNumber a a := .inl rfl

theorem sameNumber_of_feq {a b : F64} (h : F64.feq a b = true) : SameNumber a b := by
  rw [feq_iff] at h
  obtain ⟨x, h1, h2⟩ := h
  exact .inr ⟨x, h1, h2⟩

theorem sameNumber_symm {a b : F64} (h : SameNumber a b) : SameNumber b a := by
  rcases h with rfl | ⟨x, h1, h2⟩
  · exact .inl rfl
  · exact .inr ⟨x, h2, h1⟩

theorem partials_length (ops : FloatOps) (acc : F64) (l : List F64) :
    (FloatOps.partials ops acc l).length = l.length := by
  induction l generalizing acc with
  | nil => rfl
  | cons a l ih => simp [FloatOps.partials, ih]

theorem normalizeAreas_length (ops : FloatOps) (l : List F64) (x : F64) (hl : l ≠ []) :
    (normalizeAreas ops l x).length = l.length + 1 := by
  have : 0 < l.length := List.length_pos_iff.mpr hl
  simp [normalizeAreas, partials_length]
  omega

theorem normalizeAreas_first (ops : FloatOps) (l : List F64) (x : F64) :
    (normalizeAreas ops l x)[0]? = some F64.zero := by simp [normalizeAreas]

theorem normalizeAreas_last (ops : FloatOps) (l : List F64) (x : F64) (hl : l ≠ []) :
    (normalizeAreas ops l x)[l.length]? = some F64.one := by
  have : 0 < l.length := List.length_pos_iff.mpr hl
  obtain ⟨k, hk⟩ : ∃ k, l.length = k + 1 := ⟨l.length - 1, by omega⟩
  rw [hk]
  simp only [normalizeAreas, List.getElem?_cons_succ]
  rw [List.getElem?_append_right (by simp [partials_length]; omega)]
  simp [partials_length, hk]

theorem NodeOk.reweigh {ops : FloatOps} {n : TreeNode} (hn : NodeOk ops n) (i : Nat) (w : F64) :
    NodeOk ops (reweigh ops n i w) := by
  have hl : (n.weights.set i w).length = n.arity + 1 := by simp [hn.weights]
  have hne : n.weights.set i w ≠ [] := by
    intro h; rw [h] at hl; simp at hl
  refine ⟨?_, hn.children, rfl, ?_, ?_, ?_, ?_⟩
  · simp [Forest.reweigh, hn.weights]
  · simp only [Forest.reweigh]
    split
    · rw [normalizeAreas_length _ _ _ hne, hl]
    · exact hn.len
  · simp only [Forest.reweigh]
    split
    · exact normalizeAreas_first _ _ _
    · exact hn.first
  · simp only [Forest.reweigh]
    split
    · rw [← hl]; exact normalizeAreas_last _ _ _ hne
    · exact hn.last
  · intro h
    simp only [Forest.reweigh] at h ⊢
    rw [if_pos h]

theorem skel_reweigh (ops : FloatOps) (n : TreeNode) (i : Nat) (w : F64) : skel (reweigh ops n i w) = skel n := rfl

/-- Every node is locally consistent. -/
def AllOk (ops : FloatOps) (f : Forest) : Prop := ∀ ⦃h n⦄, f.node h = some n → NodeOk ops n

theorem AllOk.put {ops : FloatOps} {f : Forest} (ha : AllOk ops f) {h : Nat} {n m : TreeNode} (hn : f.node h = some n)
    (hm : NodeOk ops m) : AllOk ops (f.put h m) := by
  intro k x hx
  rw [node_put hn] at hx
  split at hx
  · cases hx; exact hm
  · exact ha hx

/-- The weight about to be stored in slot `i` is the right one. -/
def Expected (ops : FloatOps) (f : Forest) (n : TreeNode) (i : Nat) (w : F64) : Prop :=
  i = n.arity ∨ ∃ c m, n.children[i]? = some (some c) ∧ f.node c = some m ∧ w = ops.mul m.sum m.bias

theorem own_reweigh {ops : FloatOps} {n : TreeNode} {i : Nat} {w : F64} (hi : i < n.arity) :
    (reweigh ops n i w).weights[n.arity]? = n.weights[n.arity]? := by
  simp only [reweigh]
  rw [List.getElem?_set_ne (by omega)]

theorem weighed_reweigh {ops : FloatOps} {f : Forest} {h i : Nat} {w : F64} {n : TreeNode} (hl : Linked f)
    (hw : Weighed ops f (some (h, i))) (hn : f.node h = some n) (hx : Expected ops f n i w)
    (hk : NodeOk ops n) :
    Weighed ops (f.put h (reweigh ops n i w)) (n.parent.map (·, n.index)) := by
  intro k m j c v hm hne hc hv
  have hself : ∀ {d}, f.node d = some n → d = h → n.parent ≠ some h := by
    intro d _ _
    obtain ⟨e, he⟩ := hl.rooted hn
    exact he.not_self hn
  rw [node_put hn] at hm
  by_cases hkh : k = h
  · subst hkh
    rw [if_pos rfl] at hm
    cases hm
    have hc' : n.children[j]? = some c := hc
    have hj : j < n.arity := by
      have := (List.getElem?_eq_some_iff.mp hc').1
      have := hk.children
      omega
    by_cases hji : j = i
    · subst hji
      rcases hx with hx | ⟨c', m', h1, h2, h3⟩
      · omega
      · rw [h1] at hc'
        cases hc'
        have : v = w := by
          simp only [reweigh] at hv
          rw [List.getElem?_set_self (by rw [hk.weights]; omega)] at hv
          exact (Option.some.inj hv).symm
        subst this
        refine ⟨m', ?_, by rw [h3]; exact .inl rfl⟩
        rw [node_put hn, if_neg, h2]
        rintro rfl
        rw [hn] at h2; cases h2
        obtain ⟨m2, h5, h6, -⟩ := hl.down hn h1
        rw [hn] at h5; cases h5
        exact hself hn rfl h6
    · have hv' : n.weights[j]? = some v := by
        simp only [reweigh] at hv
        rw [List.getElem?_set_ne (Ne.symm hji)] at hv
        exact hv
      have := hw hn (by intro h; cases h; exact hji rfl) hc' hv'
      cases c with
      | none => exact this
      | some c =>
        obtain ⟨m', h2, h3⟩ := this
        refine ⟨m', ?_, h3⟩
        rw [node_put hn, if_neg, h2]
        rintro rfl
        obtain ⟨m2, h5, h6, -⟩ := hl.down hn hc'
        rw [hn] at h5; cases h5
        exact hself hn rfl h6
  · rw [if_neg hkh] at hm
    have := hw hm (by intro h; cases h; exact hkh rfl) hc hv
    cases c with
    | none => exact this
    | some c =>
      obtain ⟨m', h2, h3⟩ := this
      refine ⟨m', ?_, h3⟩
      rw [node_put hn, if_neg, h2]
      rintro rfl
      obtain ⟨m2, h5, h6, h7⟩ := hl.down hm hc
      rw [hn] at h5; cases h5
      exact hne (by rw [h6, h7]; rfl)

/-- What the loop of an update achieves. -/
structure Updated (ops : FloatOps) (f g : Forest) (h i : Nat) (w : F64) : Prop where
  ok : AllOk ops g
  skel : SameSkel f g
  weighed : Weighed ops g none
  own : ∀ {k n m}, k ≠ h → f.node k = some n → g.node k = some m → m.weights[n.arity]? = n.weights[n.arity]?
  self : ∀ {n m}, f.node h = some n → g.node h = some m →
    m.weights[n.arity]? = (n.weights.set i w)[n.arity]?

theorem updateLoop_spec {ops : FloatOps} {d : Nat} : ∀ {f : Forest} {h i : Nat} {w : F64} {n : TreeNode},
    AllOk ops f → Linked f → Weighed ops f (some (h, i)) → f.node h = some n → i ≤ n.arity → Expected ops f n i w →
    Depth f h d →
    ∃ g, (∀ fuel, d < fuel → updateLoop ops fuel f h i w = some (.ok g)) ∧ Updated ops f g h i w := by
  induction d with
  | zero =>
    intro f h i w n ha hl hw hn hi hx hd
    refine ⟨f.put h (reweigh ops n i w), ?_, ha.put hn ((ha hn).reweigh i w), sameSkel_put hn (skel_reweigh ..), ?_, ?_, ?_⟩
    · intro fuel hf
      obtain ⟨k, rfl⟩ : ∃ k, fuel = k + 1 := ⟨fuel - 1, by omega⟩
      cases hd with
      | root hn' hp =>
        rw [hn] at hn'; cases hn'
        simp only [updateLoop, hn, hp]
    · cases hd with
      | root hn' hp =>
        rw [hn] at hn'; cases hn'
        have := weighed_reweigh hl hw hn hx (ha hn)
        rw [hp] at this
        exact this
    · intro k a b hk ha' hb
      rw [node_put_ne hk, ha'] at hb
      cases hb; rfl
    · intro a b ha' hb
      rw [hn] at ha'; cases ha'
      rw [node_put_self hn] at hb; cases hb
      rfl
  | succ d ih =>
    intro f h i w n ha hl hw hn hi hx hd
    cases hd with
    | @step _ n' p _ hn' hp hd =>
      rw [hn] at hn'; cases hn'
      have hs : SameSkel f (f.put h (reweigh ops n i w)) := sameSkel_put hn (skel_reweigh ..)
      have hl' := hl.transfer hs.links
      have hself := (Depth.step hn hp hd).not_self hn
      have hph : p ≠ h := by rintro rfl; exact hself hp
      obtain ⟨q, hq, hc⟩ := hl.up hn hp
      have hq' : (f.put h (reweigh ops n i w)).node p = some q := by rw [node_put_ne hph, hq]
      have hidx : n.index < q.arity := by
        have := (List.getElem?_eq_some_iff.mp hc).1
        have := (ha hq).children
        omega
      have hwd := weighed_reweigh hl hw hn hx (ha hn)
      rw [hp] at hwd
      obtain ⟨g, hg, hu⟩ := ih (f := f.put h (reweigh ops n i w)) (h := p) (i := n.index)
        (w := ops.mul (reweigh ops n i w).sum n.bias) (n := q) (ha.put hn ((ha hn).reweigh i w)) hl' hwd hq'
        (by omega) (.inr ⟨h, reweigh ops n i w, hc, node_put_self hn, rfl⟩) (hd.transfer hs.links)
      refine ⟨g, ?_, hu.ok, hs.trans hu.skel, hu.weighed, ?_, ?_⟩
      · intro fuel hf
        obtain ⟨k, rfl⟩ : ∃ k, fuel = k + 1 := ⟨fuel - 1, by omega⟩
        simp only [updateLoop, hn, hp]
        exact hg k (by omega)
      · intro k a b hk ha' hb
        have ha2 : (f.put h (reweigh ops n i w)).node k = some a := by rw [node_put_ne hk, ha']
        by_cases hkp : k = p
        · subst hkp
          rw [hu.self ha2 hb]
          rw [hq] at ha'; cases ha'
          rw [List.getElem?_set_ne (by omega)]
        · exact hu.own hkp ha2 hb
      · intro a b ha' hb
        rw [hn] at ha'; cases ha'
        exact hu.own (Ne.symm hph) (node_put_self hn) hb

theorem updateLoop_mono {ops : FloatOps} {r : Out Forest} : ∀ {fuel : Nat} {f : Forest} {h i : Nat} {w : F64} {more : Nat},
    updateLoop ops fuel f h i w = some r → fuel ≤ more → updateLoop ops more f h i w = some r := by
  intro fuel
  induction fuel with
  | zero => intro f h i w more hr; cases hr
  | succ fuel ih =>
    intro f h i w more hr hm
    obtain ⟨k, rfl⟩ : ∃ k, more = k + 1 := ⟨more - 1, by omega⟩
    simp only [updateLoop] at hr ⊢
    split
    · rename_i hn; rw [hn] at hr; exact hr
    · rename_i n hn
      rw [hn] at hr
      simp only at hr
      split
      · rename_i hp; rw [hp] at hr; exact hr
      · rename_i p hp
        rw [hp] at hr
        exact ih hr (by omega)

theorem updateWeight_mono {ops : FloatOps} {r : Out Forest} {fuel : Nat} {f : Forest} {h i : Nat} {w : F64} {more : Nat}
    (hr : updateWeight ops fuel f h i w = some r) (hm : fuel ≤ more) : updateWeight ops more f h i w = some r := by
  unfold updateWeight at hr ⊢
  split
  · rename_i hn; rw [hn] at hr; exact hr
  · rename_i n hn
    rw [hn] at hr
    simp only at hr
    split
    · rename_i h1; rw [if_pos h1] at hr; exact hr
    · rename_i h1
      rw [if_neg h1] at hr
      split
      · rename_i h2; rw [if_pos h2] at hr; exact hr
      · rename_i h2
        rw [if_neg h2] at hr
        exact updateLoop_mono hr hm

theorem step_mono {ops : FloatOps} {r : Out Forest} {fuel : Nat} {f : Forest} {op : Op} {more : Nat}
    (hr : f.step ops fuel op = some r) (hm : fuel ≤ more) : f.step ops more op = some r := by
  cases op with
  | create a v => exact hr
  | destroy h => exact hr
  | setChild h i c =>
    simp only [step, setChild] at hr ⊢
    split
    · rename_i n m hn hc
      rw [hn, hc] at hr
      simp only at hr
      by_cases h1 : n.arity ≤ i
      · rw [if_pos h1] at hr ⊢; exact hr
      · rw [if_neg h1] at hr ⊢
        by_cases h2 : (n.children.getD i none).isSome
        · rw [if_pos h2] at hr ⊢; exact hr
        · rw [if_neg h2] at hr ⊢
          by_cases h3 : (m.parent.isSome || m.index != 0) = true
          · rw [if_pos h3] at hr ⊢; exact hr
          · rw [if_neg h3] at hr ⊢
            exact updateWeight_mono hr hm
    · rename_i hx
      split at hr
      · rename_i n m hn hc; exact absurd hc (hx n m hn)
      · exact hr
  | setWeight h w =>
    simp only [step, setWeight] at hr ⊢
    split
    · rename_i hn; rw [hn] at hr; exact hr
    · rename_i n hn
      rw [hn] at hr
      simp only at hr
      by_cases h1 : F64.lt w F64.zero = true
      · rw [if_pos h1] at hr ⊢; exact hr
      · rw [if_neg h1] at hr ⊢
        exact updateWeight_mono hr hm
  | setBias h b =>
    simp only [step, setBias, updateBias] at hr ⊢
    split
    · rename_i hn; rw [hn] at hr; exact hr
    · rename_i n hn
      rw [hn] at hr
      simp only at hr ⊢
      by_cases h1 : F64.lt b F64.zero = true
      · rw [if_pos h1] at hr ⊢; exact hr
      · rw [if_neg h1] at hr ⊢
        by_cases h2 : F64.feq b n.bias = true
        · rw [if_pos h2] at hr ⊢; exact hr
        · rw [if_neg h2] at hr ⊢
          cases hp : n.parent with
          | none => simp only [hp] at hr ⊢; exact hr
          | some p => simp only [hp] at hr ⊢; exact updateWeight_mono hr hm

/-- Two runs of a call that return give the same result. -/
theorem step_det {ops : FloatOps} {r s : Out Forest} {k l : Nat} {f : Forest} {op : Op}
    (hr : f.step ops k op = some r) (hs : f.step ops l op = some s) : r = s := by
  have h1 := step_mono hr (Nat.le_max_left k l)
  have h2 := step_mono hs (Nat.le_max_right k l)
  rw [h1] at h2
  exact Option.some.inj h2

theorem feq_getD {w : F64} {l : List F64} {i : Nat} (hi : i < l.length) (h : F64.feq w (l.getD i F64.zero) = true) :
    ∃ v, l[i]? = some v ∧ SameNumber v w := by
  refine ⟨l[i], List.getElem?_eq_getElem hi, ?_⟩
  rw [List.getD_eq_getElem?_getD, List.getElem?_eq_getElem hi] at h
  exact sameNumber_symm (sameNumber_of_feq h)

/-- What an update of a slot or of the own weight of a node achieves. -/
structure Reweighed (ops : FloatOps) (f g : Forest) (h i : Nat) (w : F64) : Prop where
  ok : AllOk ops g
  skel : SameSkel f g
  weighed : Weighed ops g none
  own : ∀ {k n m}, k ≠ h → f.node k = some n → g.node k = some m → m.weights[n.arity]? = n.weights[n.arity]?
  other : ∀ {n m}, f.node h = some n → g.node h = some m → i ≠ n.arity → m.weights[n.arity]? = n.weights[n.arity]?
  self : ∀ {n m}, f.node h = some n → g.node h = some m → i = n.arity →
    ∃ v, m.weights[n.arity]? = some v ∧ SameNumber v w

theorem updateWeight_spec {ops : FloatOps} {f : Forest} {h i : Nat} {w : F64} {n : TreeNode}
    (ha : AllOk ops f) (hl : Linked f) (hw : Weighed ops f (some (h, i))) (hn : f.node h = some n) (hi : i ≤ n.arity)
    (hx : Expected ops f n i w) :
    ∃ d g, (∀ fuel, d < fuel → updateWeight ops fuel f h i w = some (.ok g)) ∧ Reweighed ops f g h i w := by
  have hlt : i < n.weights.length := by rw [(ha hn).weights]; omega
  by_cases he : F64.feq w (n.weights.getD i F64.zero) = true
  · refine ⟨0, f, ?_, ha, .refl f, ?_, ?_, ?_, ?_⟩
    · intro fuel _
      simp only [updateWeight, hn, if_neg (show ¬ n.arity < i by omega), if_pos he]
    · intro k m j c v hm _ hc hv
      by_cases hkj : k = h ∧ j = i
      · obtain ⟨rfl, rfl⟩ := hkj
        rw [hn] at hm; cases hm
        obtain ⟨v', h1, h2⟩ := feq_getD hlt he
        rw [hv] at h1; cases h1
        rcases hx with hx | ⟨c', m', h3, h4, h5⟩
        · have := (List.getElem?_eq_some_iff.mp hc).1
          have := (ha hn).children
          omega
        · rw [hc] at h3; cases h3
          exact ⟨m', h4, by rw [← h5]; exact h2⟩
      · exact hw hm (by intro h; cases h; exact hkj ⟨rfl, rfl⟩) hc hv
    · intro k a b _ h1 h2; rw [h1] at h2; cases h2; rfl
    · intro a b h1 h2 _; rw [h1] at h2; cases h2; rfl
    · intro a b h1 h2 h3
      rw [h1] at h2; cases h2
      rw [hn] at h1; cases h1
      subst h3
      exact feq_getD hlt he
  · obtain ⟨d, hd⟩ := hl.rooted hn
    obtain ⟨g, hg, hu⟩ := updateLoop_spec ha hl hw hn hi hx hd
    refine ⟨d, g, ?_, hu.ok, hu.skel, hu.weighed, hu.own, ?_, ?_⟩
    · intro fuel hf
      simp only [updateWeight, hn, if_neg (show ¬ n.arity < i by omega), if_neg he]
      exact hg fuel hf
    · intro a b h1 h2 h3
      rw [hu.self h1 h2, List.getElem?_set_ne h3]
    · intro a b h1 h2 h3
      rw [hu.self h1 h2]
      rw [hn] at h1; cases h1
      subst h3
      exact ⟨w, by rw [List.getElem?_set_self hlt], .inl rfl⟩

/-- Everything the library maintains about trees. -/
structure Healthy (ops : FloatOps) (f : Forest) : Prop where
  ok : AllOk ops f
  linked : Linked f
  weighed : Weighed ops f none

theorem healthy_empty (ops : FloatOps) : Healthy ops [] := by
  have hno : ∀ h n, ¬ node ([] : Forest) h = some n := by
    intro h n hn; simp [node] at hn
  exact ⟨fun h n hn => absurd hn (hno h n), ⟨fun hn => absurd hn (hno _ _), fun hn => absurd hn (hno _ _),
    fun hn => absurd hn (hno _ _), fun hn => absurd hn (hno _ _)⟩, fun h n _ _ _ hn => absurd hn (hno h n)⟩

theorem node_append {f : Forest} {x : TreeNode} {k : Nat} :
    Forest.node (f ++ [some x]) k = if k = f.length then some x else f.node k := by
  unfold node
  by_cases hk : k < f.length
  · rw [List.getElem?_append_left hk, if_neg (by omega)]
  · rw [List.getElem?_append_right (by omega)]
    by_cases hk2 : k = f.length
    · subst hk2; simp
    · rw [if_neg hk2]
      rw [List.getElem?_eq_none (by simp; omega), List.getElem?_eq_none (by omega)]

theorem nodeOk_fresh (ops : FloatOps) (arity : Nat) (v : Value) : NodeOk ops (fresh ops arity v) := by
  have hl : (unitWeights arity).length = arity + 1 := by simp [unitWeights]
  have hne : unitWeights arity ≠ [] := by intro h; rw [h] at hl; simp at hl
  refine ⟨hl, by simp [fresh], rfl, ?_, normalizeAreas_first _ _ _, ?_, fun _ => rfl⟩
  · simp only [fresh]
    rw [normalizeAreas_length _ _ _ hne, hl]
  · simp only [fresh]
    rw [← hl]; exact normalizeAreas_last _ _ _ hne

theorem healthy_create {ops : FloatOps} {f : Forest} (hh : Healthy ops f) (arity : Nat) (v : Value) :
    Healthy ops (f ++ [some (fresh ops arity v)]) := by
  have hold : ∀ {k n}, f.node k = some n → Forest.node (f ++ [some (fresh ops arity v)]) k = some n := by
    intro k n hn
    rw [node_append, if_neg (by have := node_lt hn; omega), hn]
  have hch : ∀ {i : Nat} {c : Nat}, (fresh ops arity v).children[i]? ≠ some (some c) := by
    intro i c h
    simp [fresh, List.getElem?_replicate] at h
  refine ⟨?_, ⟨?_, ?_, ?_, ?_⟩, ?_⟩
  · intro k n hn
    rw [node_append] at hn
    split at hn
    · cases hn; exact nodeOk_fresh ..
    · exact hh.ok hn
  · intro k n i c hn hc
    rw [node_append] at hn
    split at hn
    · cases hn; exact absurd hc hch
    · obtain ⟨m, h1, h2⟩ := hh.linked.down hn hc
      exact ⟨m, hold h1, h2⟩
  · intro k n i hn hc
    rw [node_append] at hn
    split at hn
    · cases hn; cases hc
    · obtain ⟨m, h1, h2⟩ := hh.linked.up hn hc
      exact ⟨m, hold h1, h2⟩
  · intro k n hn hp
    rw [node_append] at hn
    split at hn
    · cases hn; rfl
    · exact hh.linked.zero hn hp
  · intro k n hn
    rw [node_append] at hn
    split at hn
    · rename_i hk
      cases hn
      exact ⟨0, .root (by rw [node_append, if_pos hk]) rfl⟩
    · obtain ⟨d, hd⟩ := hh.linked.rooted hn
      refine ⟨d, ?_⟩
      clear hn
      induction hd with
      | root h1 h2 => exact .root (hold h1) h2
      | step h1 h2 _ ih => exact .step (hold h1) h2 (ih (by intro h; subst h; have := node_lt h1; have := hh.linked.up h1 h2; obtain ⟨q, h3, -⟩ := this; have := node_lt h3; omega))
  · intro k n i c w hn _ hc hw
    rw [node_append] at hn
    split at hn
    · cases hn
      cases c with
      | some c => exact absurd hc hch
      | none =>
        show w = F64.one
        simp only [fresh, unitWeights, List.getElem?_replicate] at hw
        split at hw
        · exact (Option.some.inj hw).symm
        · cases hw
    · have := hh.weighed hn (by simp) hc hw
      cases c with
      | none => exact this
      | some c =>
        obtain ⟨m, h1, h2⟩ := this
        exact ⟨m, hold h1, h2⟩

theorem getParent_some {f : Forest} {t p : Nat} {n : TreeNode} (hn : f.node t = some n) (hp : n.parent = some p) :
    f.getParent t = .ok (some (p, n.index)) := by
  simp [getParent, hn, hp]

theorem getParent_ok {f : Forest} {t p i : Nat} (h : f.getParent t = .ok (some (p, i))) :
    ∃ n, f.node t = some n ∧ n.parent = some p ∧ n.index = i := by
  unfold getParent at h
  split at h
  · cases h
  · rename_i n hn
    refine ⟨n, hn, ?_⟩
    cases hp : n.parent with
    | none => rw [hp] at h; cases h
    | some q => rw [hp] at h; cases h; exact ⟨rfl, rfl⟩

theorem node_link {f : Forest} {h i c : Nat} {n m : TreeNode} (hn : f.node h = some n) (hm : f.node c = some m)
    (hne : h ≠ c) (k : Nat) :
    (f.link h i c).node k = if k = h then some { n with children := n.children.set i (some c) }
      else if k = c then some { m with parent := some h, index := i } else f.node k := by
  have h1 : (f.put c { m with parent := some h, index := i }).node h = some n := by rw [node_put_ne hne, hn]
  simp only [link, hm, h1]
  rw [node_put h1, node_put hm]

theorem above_up {f : Forest} {a t p : Nat} {n : TreeNode} (hn : f.node t = some n) (hp : n.parent = some p)
    (ha : Above f a p) : Above f a t := .up (getParent_some hn hp) ha

theorem healthy_link {ops : FloatOps} {f : Forest} (hh : Healthy ops f) {h i c : Nat} {n m : TreeNode}
    (hn : f.node h = some n) (hm : f.node c = some m) (hna : ¬ Above f c h) (hi : n.children[i]? = some none)
    (hp : m.parent = none) :
    AllOk ops (f.link h i c) ∧ Linked (f.link h i c) ∧ Weighed ops (f.link h i c) (some (h, i)) := by
  have hne : h ≠ c := by rintro rfl; exact hna .self
  have hnode := node_link (i := i) hn hm hne
  have hil : i < n.children.length := (List.getElem?_eq_some_iff.mp hi).1
  refine ⟨?_, ⟨?_, ?_, ?_, ?_⟩, ?_⟩
  · intro k x hx
    rw [hnode] at hx
    split at hx
    · cases hx
      have := hh.ok hn
      exact ⟨this.weights, by simpa using this.children, this.sum, this.len, this.first, this.last, this.areas⟩
    · split at hx
      · cases hx
        have := hh.ok hm
        exact ⟨this.weights, this.children, this.sum, this.len, this.first, this.last, this.areas⟩
      · exact hh.ok hx
  · intro k x j d hx hd
    -- the child in the old forest
    have hold : ∀ {y : TreeNode}, f.node k = some y → y.children[j]? = some (some d) →
        ∃ z, (f.link h i c).node d = some z ∧ z.parent = some k ∧ z.index = j := by
      intro y hy hyd
      obtain ⟨z, h1, h2, h3⟩ := hh.linked.down hy hyd
      rw [hnode]
      split
      · rename_i hdh; subst hdh
        rw [hn] at h1; cases h1
        exact ⟨_, rfl, h2, h3⟩
      · split
        · rename_i hdc; subst hdc
          rw [hm] at h1; cases h1
          rw [hp] at h2; cases h2
        · exact ⟨z, h1, h2, h3⟩
    rw [hnode] at hx
    split at hx
    · rename_i hk
      subst hk
      cases hx
      by_cases hj : j = i
      · subst hj
        simp only [List.getElem?_set_self hil, Option.some.injEq] at hd
        subst hd
        refine ⟨_, by rw [hnode, if_neg (Ne.symm hne), if_pos rfl], rfl, rfl⟩
      · simp only [List.getElem?_set_ne (Ne.symm hj)] at hd
        exact hold hn hd
    · split at hx
      · rename_i hk
        subst hk
        cases hx
        exact hold hm hd
      · exact hold hx hd
  · intro k x p hx hxp
    have hold : ∀ {y : TreeNode}, f.node k = some y → y.parent = some p →
        ∃ z, (f.link h i c).node p = some z ∧ z.children[y.index]? = some (some k) := by
      intro y hy hyp
      obtain ⟨z, h1, h2⟩ := hh.linked.up hy hyp
      rw [hnode]
      split
      · rename_i hph; subst hph
        rw [hn] at h1; cases h1
        refine ⟨_, rfl, ?_⟩
        have : y.index ≠ i := by intro h; rw [h, hi] at h2; cases h2
        simp only [List.getElem?_set_ne (Ne.symm this)]
        exact h2
      · split
        · rename_i hpc; subst hpc
          rw [hm] at h1; cases h1
          exact ⟨_, rfl, h2⟩
        · exact ⟨z, h1, h2⟩
    rw [hnode] at hx
    split at hx
    · rename_i hk
      subst hk
      cases hx
      exact hold (y := n) hn hxp
    · split at hx
      · rename_i hk
        subst hk
        cases hx
        cases hxp
        refine ⟨_, by rw [hnode, if_pos rfl], ?_⟩
        simp only [List.getElem?_set_self hil]
      · exact hold hx hxp
  · intro k x hx hxp
    rw [hnode] at hx
    split at hx
    · rename_i hk; subst hk; cases hx; exact hh.linked.zero (m := n) hn hxp
    · split at hx
      · cases hx; cases hxp
      · exact hh.linked.zero hx hxp
  · have hup : ∀ {t d}, Depth f t d → ¬ Above f c t → Depth (f.link h i c) t d := by
      intro t d hd
      induction hd with
      | @root t y h1 h2 =>
        intro hnt
        have htc : t ≠ c := by rintro rfl; exact hnt .self
        by_cases hth : t = h
        · subst hth
          rw [hn] at h1; cases h1
          exact Depth.root (n := { n with children := n.children.set i (some c) }) (by rw [hnode, if_pos rfl]) h2
        · exact .root (by rw [hnode, if_neg hth, if_neg htc, h1]) h2
      | @step t y p d h1 h2 _ ih =>
        intro hnt
        have htc : t ≠ c := by rintro rfl; exact hnt .self
        have := ih (fun hap => hnt (above_up h1 h2 hap))
        by_cases hth : t = h
        · subst hth
          rw [hn] at h1; cases h1
          exact Depth.step (n := { n with children := n.children.set i (some c) }) (by rw [hnode, if_pos rfl]) h2 this
        · exact .step (by rw [hnode, if_neg hth, if_neg htc, h1]) h2 this
    obtain ⟨dh, hdh⟩ := hh.linked.rooted hn
    have hc' : Depth (f.link h i c) c (dh + 1) :=
      .step (by rw [hnode, if_neg (Ne.symm hne), if_pos rfl]) rfl (hup hdh hna)
    have hall : ∀ {t d}, Depth f t d → ∃ e, Depth (f.link h i c) t e := by
      intro t d hd
      induction hd with
      | @root t y h1 h2 =>
        by_cases htc : t = c
        · exact ⟨_, by rw [htc]; exact hc'⟩
        · by_cases hth : t = h
          · exact ⟨_, by rw [hth]; exact hup hdh hna⟩
          · exact ⟨0, .root (by rw [hnode, if_neg hth, if_neg htc, h1]) h2⟩
      | @step t y p d h1 h2 _ ih =>
        by_cases htc : t = c
        · exact ⟨_, by rw [htc]; exact hc'⟩
        · by_cases hth : t = h
          · exact ⟨_, by rw [hth]; exact hup hdh hna⟩
          · obtain ⟨e, he⟩ := ih
            exact ⟨e + 1, .step (by rw [hnode, if_neg hth, if_neg htc, h1]) h2 he⟩
    intro k x hx
    rw [hnode] at hx
    split at hx
    · rename_i hk; subst hk; exact ⟨_, hup hdh hna⟩
    · split at hx
      · rename_i hk; subst hk; exact ⟨_, hc'⟩
      · obtain ⟨d, hd⟩ := hh.linked.rooted hx
        exact hall hd
  · intro k x j d w hx hne' hd hw
    have hslot : ∀ {y : TreeNode}, f.node k = some y → y.children[j]? = some d → y.weights[j]? = some w →
        SlotWeight ops (f.link h i c) d w := by
      intro y hy hyd hyw
      have := hh.weighed hy (by simp) hyd hyw
      cases d with
      | none => exact this
      | some d =>
        obtain ⟨z, h1, h2⟩ := this
        simp only [SlotWeight]
        rw [hnode]
        split
        · rename_i hdh; subst hdh; rw [hn] at h1; cases h1; exact ⟨_, rfl, h2⟩
        · split
          · rename_i hdc; subst hdc; rw [hm] at h1; cases h1; exact ⟨_, rfl, h2⟩
          · exact ⟨z, h1, h2⟩
    rw [hnode] at hx
    split at hx
    · rename_i hk
      subst hk
      cases hx
      have hj : j ≠ i := by rintro rfl; exact hne' rfl
      simp only [List.getElem?_set_ne (Ne.symm hj)] at hd
      exact hslot hn hd hw
    · split at hx
      · rename_i hk; subst hk; cases hx; exact hslot hm hd hw
      · exact hslot hx hd hw

theorem node_detach {f : Forest} {cs : List (Option Nat)} (k : Nat) :
    (f.detach cs).node k = if some k ∈ cs then (f.node k).map (fun m => { m with parent := none, index := 0 })
      else f.node k := by
  induction cs generalizing f with
  | nil => simp [detach]
  | cons x cs ih =>
    cases x with
    | none => simp only [detach, ih, List.mem_cons, reduceCtorEq, false_or]
    | some c =>
      simp only [detach]
      split
      · rename_i hc
        rw [ih]
        by_cases hk : k = c
        · subst hk; simp [hc]
        · simp [hk]
      · rename_i m hc
        rw [ih, node_put hc]
        by_cases hk : k = c
        · subst hk; simp [hc]
        · simp [hk]

theorem node_set_none {f : Forest} {h k : Nat} : Forest.node (f.set h none) k = if k = h then none else f.node k := by
  unfold node
  by_cases hk : k = h
  · subst hk
    by_cases hl : k < f.length
    · simp [hl]
    · rw [List.getElem?_eq_none (by simp; omega)]; simp
  · rw [List.getElem?_set_ne (Ne.symm hk), if_neg hk]

theorem healthy_destroy {ops : FloatOps} {f : Forest} (hh : Healthy ops f) {h : Nat} {n : TreeNode}
    (hn : f.node h = some n) (hp : n.parent = none) : Healthy ops ((f.detach n.children).set h none) := by
  have hnode : ∀ k, Forest.node ((f.detach n.children).set h none) k = if k = h then none else
      if some k ∈ n.children then (f.node k).map (fun m => { m with parent := none, index := 0 }) else f.node k := by
    intro k; rw [node_set_none, node_detach]
  have hmem : ∀ {k x}, f.node k = some x → (some k ∈ n.children ↔ x.parent = some h) := by
    intro k x hx
    constructor
    · intro hm
      obtain ⟨i, hi⟩ := List.getElem?_of_mem hm
      obtain ⟨y, h1, h2, -⟩ := hh.linked.down hn hi
      rw [hx] at h1; cases h1; exact h2
    · intro hx'
      obtain ⟨y, h1, h2⟩ := hh.linked.up hx hx'
      rw [hn] at h1; cases h1
      exact List.mem_of_getElem? h2
  -- nodes of the new forest
  have hinv : ∀ {k x}, Forest.node ((f.detach n.children).set h none) k = some x → k ≠ h ∧
      ∃ y, f.node k = some y ∧ ((y.parent = some h ∧ x = { y with parent := none, index := 0 }) ∨
        (y.parent ≠ some h ∧ x = y)) := by
    intro k x hx
    rw [hnode] at hx
    split at hx
    · cases hx
    · rename_i hk
      refine ⟨hk, ?_⟩
      split at hx
      · rename_i hm
        cases hy : f.node k with
        | none => rw [hy] at hx; cases hx
        | some y => rw [hy] at hx; cases hx; exact ⟨y, rfl, .inl ⟨(hmem hy).mp hm, rfl⟩⟩
      · rename_i hm
        exact ⟨x, hx, .inr ⟨fun h => hm ((hmem hx).mpr h), rfl⟩⟩
  have hkeep : ∀ {k y}, f.node k = some y → k ≠ h → y.parent ≠ some h →
      Forest.node ((f.detach n.children).set h none) k = some y := by
    intro k y hy hk hyp
    rw [hnode, if_neg hk, if_neg (fun h => hyp ((hmem hy).mp h)), hy]
  have hcut : ∀ {k y}, f.node k = some y → k ≠ h → y.parent = some h →
      Forest.node ((f.detach n.children).set h none) k = some { y with parent := none, index := 0 } := by
    intro k y hy hk hyp
    rw [hnode, if_neg hk, if_pos ((hmem hy).mpr hyp), hy]
    rfl
  have hkids : ∀ {k y : _} {i d : Nat}, f.node k = some y → k ≠ h → y.children[i]? = some (some d) →
      ∃ z, f.node d = some z ∧ z.parent = some k ∧ z.index = i ∧
        Forest.node ((f.detach n.children).set h none) d = some z := by
    intro k y i d hy hk hd
    obtain ⟨z, h1, h2, h3⟩ := hh.linked.down hy hd
    refine ⟨z, h1, h2, h3, hkeep h1 ?_ ?_⟩
    · rintro rfl; rw [hn] at h1; cases h1; rw [hp] at h2; cases h2
    · rw [h2]; intro h; cases h; exact hk rfl
  refine ⟨?_, ⟨?_, ?_, ?_, ?_⟩, ?_⟩
  · intro k x hx
    obtain ⟨-, y, hy, ⟨-, rfl⟩ | ⟨-, rfl⟩⟩ := hinv hx
    · have := hh.ok hy
      exact ⟨this.weights, this.children, this.sum, this.len, this.first, this.last, this.areas⟩
    · exact hh.ok hy
  · intro k x i d hx hd
    obtain ⟨hk, y, hy, hor⟩ := hinv hx
    have hd' : y.children[i]? = some (some d) := by
      rcases hor with ⟨-, rfl⟩ | ⟨-, rfl⟩ <;> exact hd
    obtain ⟨z, -, h2, h3, h4⟩ := hkids hy hk hd'
    exact ⟨z, h4, h2, h3⟩
  · intro k x p hx hxp
    obtain ⟨hk, y, hy, ⟨-, rfl⟩ | ⟨hyp, rfl⟩⟩ := hinv hx
    · cases hxp
    · obtain ⟨z, h1, h2⟩ := hh.linked.up hy hxp
      have hph : p ≠ h := by rintro rfl; exact hyp hxp
      by_cases hz : z.parent = some h
      · exact ⟨_, hcut h1 hph hz, h2⟩
      · exact ⟨z, hkeep h1 hph hz, h2⟩
  · intro k x hx hxp
    obtain ⟨hk, y, hy, ⟨-, rfl⟩ | ⟨hyp, rfl⟩⟩ := hinv hx
    · rfl
    · exact hh.linked.zero hy hxp
  · have hall : ∀ {t d}, Depth f t d → t ≠ h → ∃ e, Depth ((f.detach n.children).set h none) t e := by
      intro t d hd
      induction hd with
      | @root t y h1 h2 =>
        intro ht
        exact ⟨0, .root (hkeep h1 ht (by rw [h2]; simp)) h2⟩
      | @step t y p d h1 h2 _ ih =>
        intro ht
        by_cases hph : p = h
        · subst hph
          exact ⟨0, .root (hcut h1 ht h2) rfl⟩
        · obtain ⟨e, he⟩ := ih hph
          exact ⟨e + 1, .step (hkeep h1 ht (by rw [h2]; simpa using hph)) h2 he⟩
    intro k x hx
    obtain ⟨hk, y, hy, -⟩ := hinv hx
    obtain ⟨d, hd⟩ := hh.linked.rooted hy
    exact hall hd hk
  · intro k x i d w hx _ hd hw
    obtain ⟨hk, y, hy, hor⟩ := hinv hx
    have hd' : y.children[i]? = some d ∧ y.weights[i]? = some w := by
      rcases hor with ⟨-, rfl⟩ | ⟨-, rfl⟩ <;> exact ⟨hd, hw⟩
    have := hh.weighed hy (by simp) hd'.1 hd'.2
    cases d with
    | none => exact this
    | some d =>
      obtain ⟨z, h1, h2⟩ := this
      obtain ⟨z', h3, -, -, h4⟩ := hkids hy hk hd'.1
      rw [h1] at h3; cases h3
      exact ⟨z, h4, h2⟩

theorem weighed_any {ops : FloatOps} {f : Forest} (hw : Weighed ops f none) (x : Option (Nat × Nat)) : Weighed ops f x :=
  fun _ _ _ _ _ hn _ hc hv => hw hn (by simp) hc hv

theorem weighed_bias {ops : FloatOps} {f : Forest} (hh : Healthy ops f) {h : Nat} {n : TreeNode} {b : F64}
    (hn : f.node h = some n) :
    Weighed ops (f.put h { n with bias := b }) (n.parent.map (·, n.index)) := by
  intro k m j c v hm hne hc hv
  have hslot : ∀ {y : TreeNode}, f.node k = some y → y.children[j]? = some c → y.weights[j]? = some v →
      SlotWeight ops (f.put h { n with bias := b }) c v := by
    intro y hy hyc hyv
    have := hh.weighed hy (by simp) hyc hyv
    cases c with
    | none => exact this
    | some c =>
      obtain ⟨z, h1, h2⟩ := this
      refine ⟨z, ?_, h2⟩
      rw [node_put hn, if_neg, h1]
      rintro rfl
      rw [hn] at h1; cases h1
      obtain ⟨z', h3, h4, h5⟩ := hh.linked.down hy hyc
      rw [hn] at h3; cases h3
      exact hne (by rw [h4, h5]; rfl)
  rw [node_put hn] at hm
  split at hm
  · rename_i hk; subst hk; cases hm; exact hslot hn hc hv
  · exact hslot hm hc hv

theorem getD_none {l : List (Option Nat)} {i : Nat} (hi : i < l.length) (h : ¬ (l.getD i none).isSome = true) :
    l[i]? = some none := by
  rw [List.getD_eq_getElem?_getD, List.getElem?_eq_getElem hi] at h
  rw [List.getElem?_eq_getElem hi]
  cases hx : l[i] with
  | none => rfl
  | some x => rw [hx] at h; exact absurd rfl h

theorem setChild_ok {ops : FloatOps} {f : Forest} (hh : Healthy ops f) {h i c : Nat} {n m : TreeNode}
    (hn : f.node h = some n) (hm : f.node c = some m) (hi : n.children[i]? = some none) (hp : m.parent = none)
    (hna : ¬ Above f c h) :
    ∃ d g, (∀ fuel, d < fuel → f.setChild ops fuel h i c = some (.ok g)) ∧ Healthy ops g ∧
      Reweighed ops (f.link h i c) g h i (ops.mul m.sum m.bias) := by
  have hne : h ≠ c := by rintro rfl; exact hna .self
  have hil : i < n.children.length := (List.getElem?_eq_some_iff.mp hi).1
  have hia : i < n.arity := by rw [← (hh.ok hn).children]; exact hil
  obtain ⟨h1, h2, h3⟩ := healthy_link hh hn hm hna hi hp
  have hnode := node_link (i := i) hn hm hne
  obtain ⟨d, g, hg, hr⟩ := updateWeight_spec (n := { n with children := n.children.set i (some c) }) h1 h2 h3
    (by rw [hnode, if_pos rfl]) (show i ≤ n.arity by omega)
    (w := ops.mul m.sum m.bias)
    (.inr ⟨c, { m with parent := some h, index := i }, by simp [hil], by rw [hnode, if_neg (Ne.symm hne), if_pos rfl], rfl⟩)
  refine ⟨d, g, ?_, ⟨hr.ok, h2.transfer hr.skel.links, hr.weighed⟩, hr⟩
  intro fuel hf
  have hz := hh.linked.zero hm hp
  simp only [setChild, hn, hm]
  rw [if_neg (by omega), if_neg (by simp [List.getD_eq_getElem?_getD, hi]), if_neg (by simp [hp, hz])]
  exact hg fuel hf

theorem setWeight_ok {ops : FloatOps} {f : Forest} (hh : Healthy ops f) {h : Nat} {w : F64} {n : TreeNode}
    (hn : f.node h = some n) (hw : F64.lt w F64.zero = false) :
    ∃ d g, (∀ fuel, d < fuel → f.setWeight ops fuel h w = some (.ok g)) ∧ Healthy ops g ∧
      Reweighed ops f g h n.arity w := by
  obtain ⟨d, g, hg, hr⟩ := updateWeight_spec hh.ok hh.linked (weighed_any hh.weighed _) hn (Nat.le_refl _) (w := w)
    (.inl rfl)
  refine ⟨d, g, ?_, ⟨hr.ok, hh.linked.transfer hr.skel.links, hr.weighed⟩, hr⟩
  intro fuel hf
  simp only [setWeight, hn, hw]
  exact hg fuel hf

/-- What setting a bias achieves. -/
structure Biased (f g : Forest) (h : Nat) (b : F64) : Prop where
  length : g.length = f.length
  other : ∀ {k n}, k ≠ h → f.node k = some n → ∃ m, g.node k = some m ∧ skel m = skel n ∧
    m.weights[n.arity]? = n.weights[n.arity]?
  self : ∀ {n}, f.node h = some n → ∃ m, g.node h = some m ∧ skel m = skel { n with bias := m.bias } ∧
    m.weights[n.arity]? = n.weights[n.arity]? ∧ SameNumber m.bias b
  dead : ∀ {k}, f.node k = none → g.node k = none

theorem setBias_ok {ops : FloatOps} {f : Forest} (hh : Healthy ops f) {h : Nat} {b : F64} {n : TreeNode}
    (hn : f.node h = some n) (hb : F64.lt b F64.zero = false) :
    ∃ d g, (∀ fuel, d < fuel → f.setBias ops fuel h b = some (.ok g)) ∧ Healthy ops g ∧ Biased f g h b := by
  by_cases he : F64.feq b n.bias = true
  · refine ⟨0, f, ?_, hh, rfl, ?_, ?_, fun h => h⟩
    · intro fuel _
      simp only [setBias, updateBias, hn, hb, if_pos he]
      rfl
    · intro k m _ hm; exact ⟨m, hm, rfl, rfl⟩
    · intro m hm
      rw [hn] at hm; cases hm
      exact ⟨n, hn, rfl, rfl, sameNumber_symm (sameNumber_of_feq he)⟩
  · have hw := weighed_bias (b := b) hh hn
    have ha : AllOk ops (f.put h { n with bias := b }) := by
      have := hh.ok hn
      exact hh.ok.put hn ⟨this.weights, this.children, this.sum, this.len, this.first, this.last, this.areas⟩
    have hs : SameLinks f (f.put h { n with bias := b }) := sameLinks_put hn rfl
    have hl := hh.linked.transfer hs
    cases hp : n.parent with
    | none =>
      have hw : Weighed ops (f.put h { n with bias := b }) none := by
        have h0 : n.parent.map (·, n.index) = none := by rw [hp]; rfl
        rw [h0] at hw; exact hw
      refine ⟨0, f.put h { n with bias := b }, ?_, ⟨ha, hl, hw⟩, length_put _ _ _, ?_, ?_, ?_⟩
      · intro fuel _
        simp only [setBias, updateBias, hn, hb, if_neg he, hp]
        rfl
      · intro k m hk hm; exact ⟨m, by rw [node_put_ne hk, hm], rfl, rfl⟩
      · intro m hm
        rw [hn] at hm; cases hm
        exact ⟨_, node_put_self hn, rfl, rfl, .inl rfl⟩
      · intro k hk
        rw [node_put_ne, hk]
        rintro rfl; rw [hn] at hk; cases hk
    | some p =>
      have hw : Weighed ops (f.put h { n with bias := b }) (some (p, n.index)) := by
        have h0 : n.parent.map (·, n.index) = some (p, n.index) := by rw [hp]; rfl
        rw [h0] at hw; exact hw
      obtain ⟨e, he'⟩ := hh.linked.rooted hn
      have hph : p ≠ h := by rintro rfl; exact he'.not_self hn hp
      obtain ⟨q, hq, hc⟩ := hh.linked.up hn hp
      have hidx : n.index < q.arity := by
        have := (List.getElem?_eq_some_iff.mp hc).1
        have := (hh.ok hq).children
        omega
      obtain ⟨d, g, hg, hr⟩ := updateWeight_spec ha hl hw (h := p) (i := n.index) (n := q)
        (by rw [node_put_ne hph, hq]) (by omega) (w := ops.mul n.sum b)
        (.inr ⟨h, { n with bias := b }, hc, node_put_self hn, rfl⟩)
      have hown : ∀ {k a c}, (f.put h { n with bias := b }).node k = some a → g.node k = some c →
          c.weights[a.arity]? = a.weights[a.arity]? := by
        intro k a c h1 h2
        by_cases hk : k = p
        · subst hk
          refine hr.other h1 h2 ?_
          rw [node_put_ne hph, hq] at h1; cases h1; omega
        · exact hr.own hk h1 h2
      refine ⟨d, g, ?_, ⟨hr.ok, hl.transfer hr.skel.links, hr.weighed⟩, hr.skel.1.trans (length_put _ _ _), ?_, ?_, ?_⟩
      · intro fuel hf
        have hu : f.setBias ops fuel h b = updateWeight ops fuel (f.put h { n with bias := b }) p n.index (ops.mul n.sum b) := by
          unfold setBias updateBias
          simp only [hn, hb, if_neg he]
          split
          · rename_i hbad; exact absurd hbad (by simp)
          · split
            · rename_i h1; rw [hp] at h1; cases h1
            · rename_i q' h1; rw [hp] at h1; cases h1; rfl
        rw [hu]
        exact hg fuel hf
      · intro k m hk hm
        have h1 : (f.put h { n with bias := b }).node k = some m := by rw [node_put_ne hk, hm]
        obtain ⟨m', h2, h3⟩ := hr.skel.node h1
        exact ⟨m', h2, h3, hown h1 h2⟩
      · intro m hm
        rw [hn] at hm; cases hm
        obtain ⟨m', h2, h3⟩ := hr.skel.node (node_put_self (m := { n with bias := b }) hn)
        have h4 := (skel_eq h3).2.2.1
        refine ⟨m', h2, ?_, ?_, .inl h4⟩
        · rw [h4]; exact h3
        · have := hown (node_put_self (m := { n with bias := b }) hn) h2
          exact this
      · intro k hk
        have h1 : (f.put h { n with bias := b }).node k = none := by
          rw [node_put_ne, hk]
          rintro rfl; rw [hn] at hk; cases hk
        have := hr.skel.2 k
        rw [h1] at this
        cases hg : g.node k with
        | none => rfl
        | some x => rw [hg] at this; cases this

/-- Every call on a healthy forest returns, and leaves a healthy forest. -/
theorem step_total {ops : FloatOps} {f : Forest} (hh : Healthy ops f) {op : Op} (hf : Fair f op) :
    ∃ d r, (∀ fuel, d < fuel → f.step ops fuel op = some r) ∧ ∀ g, r = .ok g → Healthy ops g := by
  cases op with
  | create a v =>
    refine ⟨0, _, fun _ _ => rfl, ?_⟩
    intro g hg
    simp only [create] at hg
    by_cases h1 : 4 < v.tag
    · simp [h1] at hg
    · by_cases h2 : 2 ^ 63 - 2 < a
      · rw [refute_false h1, Out.bind_ok, refute_true h2] at hg
        cases hg
      · by_cases h3 : v = .str none
        · rw [refute_false h1, Out.bind_ok, refute_false h2, Out.bind_ok, refute_true h3] at hg
          cases hg
        · rw [refute_false h1, Out.bind_ok, refute_false h2, Out.bind_ok, refute_false h3, Out.bind_ok] at hg
          cases hg
          exact healthy_create hh a v
  | destroy h =>
    refine ⟨0, _, fun _ _ => rfl, ?_⟩
    intro g hg
    unfold destroy at hg
    split at hg
    · cases hg
    · rename_i n hn
      cases hg
      have hp : n.parent = none := by
        have : f.getParent h = .ok none := hf
        simp only [getParent, hn, Out.ok.injEq, Option.map_eq_none_iff] at this
        exact this
      exact healthy_destroy hh hn hp
  | setWeight h w =>
    cases hn : f.node h with
    | none => exact ⟨0, .ub, fun _ _ => by simp [step, setWeight, hn], fun _ h => by cases h⟩
    | some n =>
      by_cases hw : F64.lt w F64.zero = true
      · exact ⟨0, .err .invalidValue, fun _ _ => by simp [step, setWeight, hn, hw], fun _ h => by cases h⟩
      · obtain ⟨d, g, h1, h2, -⟩ := setWeight_ok hh hn (by simpa using hw)
        exact ⟨d, .ok g, h1, fun g' h => by cases h; exact h2⟩
  | setBias h w =>
    cases hn : f.node h with
    | none => exact ⟨0, .ub, fun _ _ => by simp [step, setBias, hn], fun _ h => by cases h⟩
    | some n =>
      by_cases hw : F64.lt w F64.zero = true
      · exact ⟨0, .err .invalidValue, fun _ _ => by simp [step, setBias, hn, hw], fun _ h => by cases h⟩
      · obtain ⟨d, g, h1, h2, -⟩ := setBias_ok hh hn (by simpa using hw)
        exact ⟨d, .ok g, h1, fun g' h => by cases h; exact h2⟩
  | setChild h i c =>
    cases hn : f.node h with
    | none => exact ⟨0, .ub, fun _ _ => by simp [step, setChild, hn], fun _ h => by cases h⟩
    | some n =>
      cases hm : f.node c with
      | none => exact ⟨0, .ub, fun _ _ => by simp [step, setChild, hn, hm], fun _ h => by cases h⟩
      | some m =>
        by_cases h1 : n.arity ≤ i
        · exact ⟨0, .err .outOfBounds, fun _ _ => by simp [step, setChild, hn, hm, h1], fun _ h => by cases h⟩
        · by_cases h2 : (n.children.getD i none).isSome = true
          · exact ⟨0, .err .invalidValue, fun _ _ => by simp only [step, setChild, hn, hm, if_neg h1, if_pos h2],
              fun _ h => by cases h⟩
          · by_cases h3 : (m.parent.isSome || m.index != 0) = true
            · exact ⟨0, .err .invalidTree, fun _ _ => by
                simp only [step, setChild, hn, hm, if_neg h1, if_neg h2, if_pos h3], fun _ h => by cases h⟩
            · have hp : m.parent = none := by
                cases hmp : m.parent with
                | none => rfl
                | some x => simp [hmp] at h3
              obtain ⟨d, g, h4, h5, -⟩ := setChild_ok hh hn hm
                (getD_none (by rw [(hh.ok hn).children]; omega) h2) hp hf
              exact ⟨d, .ok g, h4, fun g' h => by cases h; exact h5⟩

theorem grown_healthy {ops : FloatOps} {f : Forest} (hg : GrownForest ops f) : Healthy ops f := by
  induction hg with
  | empty => exact healthy_empty ops
  | step _ hf hs ih =>
    obtain ⟨d, r, h1, h2⟩ := step_total ih hf
    exact h2 _ (step_det (h1 (d + 1) (by omega)) hs)

end Forest

end CCS
