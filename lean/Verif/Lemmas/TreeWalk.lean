import Verif.Lemmas.Tree

/-! Helper lemmas about positions in trees, and about attaching a node below itself. -/

namespace CCS

open Spec

namespace Forest

theorem getChild_some {f : Forest} {h i c : Nat} {n : TreeNode} (hn : f.node h = some n)
    (hl : n.children.length = n.arity) (hc : n.children[i]? = some (some c)) : f.getChild h i = .ok (some c) := by
  have := (List.getElem?_eq_some_iff.mp hc).1
  simp only [getChild, hn]
  rw [if_neg (by omega), List.getD_eq_getElem?_getD, hc]
  rfl

theorem getChild_ok {f : Forest} {h i : Nat} {c : Option Nat} (hg : f.getChild h i = .ok c) :
    ∃ n, f.node h = some n ∧ i < n.arity ∧ n.children.getD i none = c := by
  unfold getChild at hg
  split at hg
  · cases hg
  · rename_i n hn
    split at hg
    · cases hg
    · cases hg
      exact ⟨n, hn, by omega, rfl⟩

theorem getD_some {l : List (Option Nat)} {i c : Nat} (h : l.getD i none = some c) : l[i]? = some (some c) := by
  rw [List.getD_eq_getElem?_getD] at h
  cases hx : l[i]? with
  | none => rw [hx] at h; cases h
  | some x => rw [hx] at h; simp only [Option.getD_some] at h; rw [h]

theorem getD_eq_none {l : List (Option Nat)} {i : Nat} (hi : i < l.length) (h : l.getD i none = none) :
    l[i]? = some none := getD_none hi (by rw [h]; simp)

theorem leads_append {f : Forest} {r m h : Nat} {p q : List Nat} (h1 : Leads f r p m) (h2 : Leads f m q h) :
    Leads f r (p ++ q) h := by
  induction h1 with
  | here => exact h2
  | down hc _ ih => exact .down hc (ih h2)

theorem leads_walk {f : Forest} {r h : Nat} {p : List Nat} (hl : Leads f r p h) : f.walk r p = .ok h := by
  induction hl with
  | here => rfl
  | down hc _ ih => simp [walk, stepDown, hc, ih]

theorem walk_leads {f : Forest} {p : List Nat} : ∀ {r h : Nat}, f.walk r p = .ok h → Leads f r p h := by
  induction p with
  | nil => intro r h hw; cases hw; exact .here
  | cons i p ih =>
    intro r h hw
    simp only [walk, stepDown] at hw
    cases hc : f.getChild r i with
    | ub => rw [hc] at hw; cases hw
    | err e => rw [hc] at hw; cases hw
    | ok c =>
      rw [hc, Out.bind_ok] at hw
      cases c with
      | none => cases hw
      | some c => exact .down hc (ih hw)

/-- The way up from a node ends at a root, and the indexes met lead back. -/
theorem upwards_spec {ops : FloatOps} {f : Forest} (hh : Healthy ops f) {h d : Nat} (hd : Depth f h d) :
    ∃ r ns, (∀ fuel, d < fuel → f.upwards fuel h = some (.ok ns)) ∧ ns.length = d + 1 ∧
      f.getParent r = .ok none ∧ Above f r h ∧ Leads f r ((ns.drop 1).map (·.index)) h ∧
      (∃ n, f.node r = some n ∧ ns.head? = some n) ∧
      f.walkValues r ((ns.drop 1).map (·.index)) = .ok ((ns.drop 1).map (·.value)) := by
  induction hd with
  | @root h n hn hp =>
    refine ⟨h, [n], ?_, rfl, by simp [getParent, hn, hp], .self, .here, ⟨n, hn, rfl⟩, rfl⟩
    intro fuel hf
    obtain ⟨k, rfl⟩ : ∃ k, fuel = k + 1 := ⟨fuel - 1, by omega⟩
    simp only [upwards, hn, hp]
  | @step h n p d hn hp _ ih =>
    obtain ⟨r, ns, h1, h2, h3, h4, h5, ⟨nr, h6, h7⟩, h8⟩ := ih
    obtain ⟨q, hq, hc⟩ := hh.linked.up hn hp
    have hgc := getChild_some hq (hh.ok hq).children hc
    have hdrop : (ns ++ [n]).drop 1 = ns.drop 1 ++ [n] := by
      rw [List.drop_append_of_le_length (by omega)]
    refine ⟨r, ns ++ [n], ?_, by simp [h2], h3, above_up_trans h4 hn hp, ?_, ⟨nr, h6, ?_⟩, ?_⟩
    · intro fuel hf
      obtain ⟨k, rfl⟩ : ∃ k, fuel = k + 1 := ⟨fuel - 1, by omega⟩
      simp only [upwards, hn, hp, h1 k (by omega)]
    · rw [hdrop, List.map_append]
      exact leads_append h5 (.down hgc .here)
    · cases ns with
      | nil => cases h7
      | cons x xs => simpa using h7
    · rw [hdrop, List.map_append, List.map_append]
      -- values along the extended way
      have key : ∀ {a : Nat} {pos : List Nat} {vs : List Value}, Leads f a pos p → f.walkValues a pos = .ok vs →
          f.walkValues a (pos ++ [n.index]) = .ok (vs ++ [n.value]) := by
        intro a pos
        induction pos generalizing a with
        | nil =>
          intro vs hl hv
          cases hl
          cases hv
          simp [walkValues, stepDown, hgc, getValue, hn]
        | cons i pos ihp =>
          intro vs hl hv
          cases hl with
          | down hc' hl' =>
            simp only [walkValues, stepDown, hc', Out.bind_ok] at hv
            simp only [List.cons_append, walkValues, stepDown, hc', Out.bind_ok]
            rename_i c'
            cases hgv : f.getValue c' with
            | ub => rw [hgv] at hv; cases hv
            | err e => rw [hgv] at hv; cases hv
            | ok v =>
              rw [hgv, Out.bind_ok] at hv
              cases hwv : f.walkValues c' pos with
              | ub => rw [hwv] at hv; cases hv
              | err e => rw [hwv] at hv; cases hv
              | ok vs' =>
                rw [hwv, Out.bind_ok] at hv
                cases hv
                simp [ihp hl' hwv]
      exact key h5 h8
where
  above_up_trans {f : Forest} {r p h : Nat} {n : TreeNode} (ha : Above f r p) (hn : f.node h = some n)
      (hp : n.parent = some p) : Above f r h := above_up hn hp ha

theorem above_trans {f : Forest} {a b c : Nat} (h1 : Above f a b) (h2 : Above f b c) : Above f a c := by
  induction h2 with
  | self => exact h1
  | up hp _ ih => exact .up hp ih

/-- Nodes on the way from `t` up to `c`. -/
def Between (f : Forest) (c t x : Nat) : Prop := Above f x t ∧ Above f c x

theorem node_link_any {f : Forest} {h i c : Nat} {n m : TreeNode} (hn : f.node h = some n) (hm : f.node c = some m)
    (k : Nat) : ∃ y, (k = h ∨ k = c ∨ f.node k ≠ none) → (f.link h i c).node k = some y ∧
      (k = c → y.parent = some h) ∧ (∀ z, f.node k = some z → k ≠ c → y.parent = z.parent) := by
  by_cases hne : h = c
  · subst hne
    rw [hn] at hm; cases hm
    have hl : f.link h i h = (f.put h { n with parent := some h, index := i }).put h
        { n with parent := some h, index := i, children := n.children.set i (some h) } := by
      simp only [link, hn, node_put_self hn]
    have hk : ∀ k, (f.link h i h).node k = if k = h then
        some { n with parent := some h, index := i, children := n.children.set i (some h) } else f.node k := by
      intro k
      rw [hl, node_put (node_put_self hn), node_put hn]
      split <;> rfl
    by_cases hkh : k = h
    · subst hkh
      exact ⟨{ n with parent := some k, index := i, children := n.children.set i (some k) }, fun _ => ⟨by rw [hk, if_pos rfl], fun _ => rfl, fun _ _ h => absurd rfl h⟩⟩
    · cases hz : f.node k with
      | none => exact ⟨n, fun h => by rcases h with h | h | h <;> first | exact absurd h hkh | exact absurd rfl h⟩
      | some z =>
        exact ⟨z, fun _ => ⟨by rw [hk, if_neg hkh, hz], fun h => absurd h hkh, fun z' h _ => by cases h; rfl⟩⟩
  · have hk := node_link (i := i) hn hm hne k
    by_cases hkh : k = h
    · subst hkh
      refine ⟨{ n with children := n.children.set i (some c) }, fun _ => ⟨by rw [hk, if_pos rfl], fun h => absurd h hne, ?_⟩⟩
      intro z hz _; rw [hn] at hz; cases hz; rfl
    · by_cases hkc : k = c
      · subst hkc
        exact ⟨{ m with parent := some h, index := i }, fun _ => ⟨by rw [hk, if_neg hkh, if_pos rfl], fun _ => rfl, fun _ _ h => absurd rfl h⟩⟩
      · cases hz : f.node k with
        | none => exact ⟨n, fun h => by rcases h with h | h | h <;> first | exact absurd h hkh | exact absurd h hkc | exact absurd rfl h⟩
        | some z =>
          exact ⟨z, fun _ => ⟨by rw [hk, if_neg hkh, if_neg hkc, hz], fun h => absurd h hkc,
            fun z' h _ => by cases h; rfl⟩⟩

/-- After attaching `c` below itself, the way up from the nodes in between never ends. -/
theorem between_parent {f : Forest} {t i c : Nat} {n m : TreeNode} (hn : f.node t = some n) (hm : f.node c = some m)
    (hab : Above f c t) {x : Nat} (hx : Between f c t x) :
    ∃ y p, (f.link t i c).node x = some y ∧ y.parent = some p ∧ Between f c t p := by
  obtain ⟨y, hy⟩ := node_link_any (i := i) hn hm x
  obtain ⟨h1, h2⟩ := hx
  cases h2 with
  | self =>
    obtain ⟨ha, hb, -⟩ := hy (.inr (.inl rfl))
    exact ⟨y, t, ha, hb rfl, .self, hab⟩
  | @up _ p j hp h2 =>
    obtain ⟨z, hz, hzp, -⟩ := getParent_ok hp
    by_cases hxc : x = c
    · obtain ⟨ha, hb, -⟩ := hy (.inr (.inl hxc))
      exact ⟨y, t, ha, hb hxc, .self, hab⟩
    · obtain ⟨ha, -, hc⟩ := hy (.inr (.inr (by rw [hz]; simp)))
      exact ⟨y, p, ha, by rw [hc z hz hxc, hzp], above_trans (.up hp .self) h1, h2⟩

theorem updateLoop_endless {ops : FloatOps} {g : Forest} {S : Nat → Prop}
    (hS : ∀ x, S x → ∃ y p, g.node x = some y ∧ y.parent = some p ∧ S p) (fuel : Nat) :
    ∀ {f : Forest} {x i : Nat} {w : F64}, SameLinks g f → S x → updateLoop ops fuel f x i w = none := by
  induction fuel with
  | zero => intro f x i w _ _; rfl
  | succ fuel ih =>
    intro f x i w hl hx
    obtain ⟨y, p, h1, h2, h3⟩ := hS x hx
    obtain ⟨z, h4, h5⟩ := hl.node h1
    have h6 : z.parent = some p := by rw [(links_eq h5).2.1, h2]
    simp only [updateLoop, h4, h6]
    refine ih ?_ h3
    intro k
    rw [← hl k]
    exact sameLinks_put (m := reweigh ops z i w) h4 rfl k

theorem upwards_endless {g : Forest} {S : Nat → Prop}
    (hS : ∀ x, S x → ∃ y p, g.node x = some y ∧ y.parent = some p ∧ S p) (fuel : Nat) :
    ∀ {x : Nat}, S x → g.upwards fuel x = none := by
  induction fuel with
  | zero => intro x _; rfl
  | succ fuel ih =>
    intro x hx
    obtain ⟨y, p, h1, h2, h3⟩ := hS x hx
    simp only [upwards, h1, h2, ih h3]

theorem above_live {f : Forest} {a t : Nat} {n : TreeNode} (ha : Above f a t) (hn : f.node t = some n)
    (hl : Linked f) : ∃ m, f.node a = some m := by
  induction ha generalizing n with
  | self => exact ⟨n, hn⟩
  | up hp _ ih =>
    obtain ⟨z, hz, hzp, -⟩ := getParent_ok hp
    obtain ⟨q, hq, -⟩ := hl.up hz hzp
    exact ih hq

theorem depth_above {f : Forest} {a t d : Nat} (hd : Depth f t d) (ha : Above f a t) : ∃ e, Depth f a e ∧ e ≤ d := by
  induction ha generalizing d with
  | self => exact ⟨d, hd, Nat.le_refl d⟩
  | up hp _ ih =>
    obtain ⟨z, hz, hzp, -⟩ := getParent_ok hp
    cases hd with
    | root h1 h2 => rw [hz] at h1; cases h1; rw [hzp] at h2; cases h2
    | step h1 h2 h3 =>
      rw [hz] at h1; cases h1; rw [hzp] at h2; cases h2
      obtain ⟨e, h4, h5⟩ := ih h3
      exact ⟨e, h4, by omega⟩

theorem stepDown_ok {f : Forest} {h i c : Nat} (hs : f.stepDown h i = .ok c) : f.getChild h i = .ok (some c) := by
  unfold stepDown at hs
  cases hc : f.getChild h i with
  | ub => rw [hc] at hs; cases hs
  | err e => rw [hc] at hs; cases hs
  | ok c' =>
    rw [hc, Out.bind_ok] at hs
    cases c' with
    | none => cases hs
    | some c' => cases hs; rfl

theorem child_live {ops : FloatOps} {f : Forest} (hh : Healthy ops f) {h i c : Nat}
    (hc : f.getChild h i = .ok (some c)) : ∃ m, f.node c = some m := by
  obtain ⟨n, hn, -, hd⟩ := getChild_ok hc
  obtain ⟨m, hm, -⟩ := hh.linked.down hn (getD_some hd)
  exact ⟨m, hm⟩

/-- How the test of a position and the walk along it agree. -/
theorem valid_cases {ops : FloatOps} {f : Forest} (hh : Healthy ops f) : ∀ {p : List Nat} {h : Nat} {n : TreeNode},
    f.node h = some n →
    (f.validLoop (some h) p = .ok true ∧ ∃ x, f.walk h p = .ok x) ∨
    (f.validLoop (some h) p = .ok true ∧ f.walk h p = .err .invalidTree ∧
      ∃ pre i q, p = pre ++ [i] ∧ Leads f h pre q ∧ f.getChild q i = .ok none) ∨
    (f.validLoop (some h) p = .ok false ∧ (f.walk h p = .err .outOfBounds ∨ f.walk h p = .err .invalidTree)) := by
  intro p
  induction p with
  | nil => intro h n hn; exact .inl ⟨rfl, h, rfl⟩
  | cons i p ih =>
    intro h n hn
    by_cases hi : n.arity ≤ i
    · refine .inr (.inr ⟨?_, .inl ?_⟩)
      · simp [validLoop, hn, hi]
      · simp [walk, stepDown, getChild, hn, hi]
    · have hgc : f.getChild h i = .ok (n.children.getD i none) := by simp only [getChild, hn, if_neg hi]
      have hv : f.validLoop (some h) (i :: p) = f.validLoop (n.children.getD i none) p := by
        simp only [validLoop, hn, if_neg hi]
      cases hc : n.children.getD i none with
      | none =>
        rw [hc] at hgc hv
        have hw : f.walk h (i :: p) = .err .invalidTree := by simp [walk, stepDown, hgc]
        cases p with
        | nil => exact .inr (.inl ⟨by rw [hv]; rfl, hw, [], i, h, rfl, .here, hgc⟩)
        | cons j p => exact .inr (.inr ⟨by rw [hv]; rfl, .inr hw⟩)
      | some c =>
        rw [hc] at hgc hv
        have hw : f.walk h (i :: p) = f.walk c p := by simp [walk, stepDown, hgc]
        obtain ⟨m, hm⟩ := child_live hh hgc
        rw [hv, hw]
        rcases ih hm with h1 | ⟨h1, h2, pre, j, q, h3, h4, h5⟩ | h1
        · exact .inl h1
        · exact .inr (.inl ⟨h1, h2, i :: pre, j, q, by rw [h3]; rfl, .down hgc h4, h5⟩)
        · exact .inr (.inr h1)

theorem walkValues_err {f : Forest} {e : Err} : ∀ {p : List Nat} {h : Nat}, (∀ {k i c}, f.getChild k i = .ok (some c) → ∃ m, f.node c = some m) →
    f.walk h p = .err e → f.walkValues h p = .err e := by
  intro p
  induction p with
  | nil => intro h _ hw; cases hw
  | cons i p ih =>
    intro h hlive hw
    simp only [walk] at hw
    simp only [walkValues]
    cases hs : f.stepDown h i with
    | ub => rw [hs] at hw; cases hw
    | err e' => rw [hs] at hw; cases hw; rfl
    | ok c =>
      rw [hs, Out.bind_ok] at hw
      rw [Out.bind_ok]
      obtain ⟨m, hm⟩ := hlive (stepDown_ok hs)
      have : f.getValue c = .ok m.value := by simp [getValue, hm]
      rw [this, Out.bind_ok, ih hlive hw]
      rfl

theorem walkValues_ok {f : Forest} : ∀ {p : List Nat} {h x : Nat}, (∀ {k i c}, f.getChild k i = .ok (some c) → ∃ m, f.node c = some m) →
    f.walk h p = .ok x → ∃ vs, f.walkValues h p = .ok vs ∧ vs.length = p.length := by
  intro p
  induction p with
  | nil => intro h x _ hw; exact ⟨[], rfl, rfl⟩
  | cons i p ih =>
    intro h x hlive hw
    simp only [walk] at hw
    simp only [walkValues]
    cases hs : f.stepDown h i with
    | ub => rw [hs] at hw; cases hw
    | err e' => rw [hs] at hw; cases hw
    | ok c =>
      rw [hs, Out.bind_ok] at hw
      rw [Out.bind_ok]
      obtain ⟨m, hm⟩ := hlive (stepDown_ok hs)
      have : f.getValue c = .ok m.value := by simp [getValue, hm]
      obtain ⟨vs, h1, h2⟩ := ih hlive hw
      rw [this, Out.bind_ok, h1, Out.bind_ok]
      exact ⟨m.value :: vs, rfl, by simp [h2]⟩

/-- What a successful attachment supposes. -/
theorem setChild_inv {ops : FloatOps} {f f' : Forest} (hh : Healthy ops f) {fuel h i c : Nat}
    (hs : f.setChild ops fuel h i c = some (.ok f')) :
    ∃ n m, f.node h = some n ∧ f.node c = some m ∧ n.children[i]? = some none ∧ m.parent = none := by
  unfold setChild at hs
  split at hs
  · rename_i n m hn hm
    split at hs
    · cases hs
    · rename_i h1
      split at hs
      · cases hs
      · rename_i h2
        split at hs
        · cases hs
        · rename_i h3
          refine ⟨n, m, hn, hm, getD_none (by rw [(hh.ok hn).children]; omega) h2, ?_⟩
          cases hp : m.parent with
          | none => rfl
          | some p => rw [hp] at h3; simp at h3
  · cases hs

/-- Going up from the end of a position meets the indexes of the position. -/
theorem leads_upwards {ops : FloatOps} {f : Forest} (hh : Healthy ops f) {r h : Nat} {p : List Nat}
    (hl : Leads f r p h) : ∀ {ns : List TreeNode} {d : Nat}, (∀ fuel, d < fuel → f.upwards fuel r = some (.ok ns)) →
    ∃ ms, ms.length = p.length ∧ ms.map (·.index) = p ∧
      ∀ fuel, d + p.length < fuel → f.upwards fuel h = some (.ok (ns ++ ms)) := by
  induction hl with
  | here => intro ns d hu; exact ⟨[], rfl, rfl, fun fuel hf => by rw [List.append_nil]; exact hu fuel hf⟩
  | @down r i c p h hc _ ih =>
    intro ns d hu
    obtain ⟨n, hn, -, hd⟩ := getChild_ok hc
    obtain ⟨m, hm, h1, h2⟩ := hh.linked.down hn (getD_some hd)
    obtain ⟨ms, h3, h4, h5⟩ := ih (ns := ns ++ [m]) (d := d + 1) (by
      intro fuel hf
      obtain ⟨k, rfl⟩ : ∃ k, fuel = k + 1 := ⟨fuel - 1, by omega⟩
      simp only [upwards, hm, h1, hu k (by omega)])
    refine ⟨m :: ms, by simp [h3], by simp [h2, h4], fun fuel hf => ?_⟩
    rw [h5 fuel (by simp at hf; omega), List.append_assoc]
    rfl

/-- The node that gets a child keeps arity and weights, even when it is the child. -/
theorem link_target {f : Forest} {t i c : Nat} {n m : TreeNode} (hn : f.node t = some n) (hm : f.node c = some m) :
    ∃ y, (f.link t i c).node t = some y ∧ y.arity = n.arity ∧ y.weights = n.weights := by
  by_cases hne : t = c
  · subst hne
    rw [hn] at hm; cases hm
    refine ⟨{ n with parent := some t, index := i, children := n.children.set i (some t) }, ?_, rfl, rfl⟩
    simp only [link, hn, node_put_self hn]
    exact node_put_self (node_put_self hn)
  · exact ⟨{ n with children := n.children.set i (some c) }, by rw [node_link hn hm hne, if_pos rfl], rfl, rfl⟩

theorem link_parent {f : Forest} {t i c : Nat} {n m : TreeNode} (hn : f.node t = some n) (hm : f.node c = some m) :
    (f.link t i c).getParent c = .ok (some (t, i)) := by
  by_cases hne : t = c
  · subst hne
    rw [hn] at hm; cases hm
    have : (f.link t i t).node t = some { n with parent := some t, index := i, children := n.children.set i (some t) } := by
      simp only [link, hn, node_put_self hn]
      exact node_put_self (node_put_self hn)
    simp [getParent, this]
  · have := node_link (i := i) hn hm hne c
    rw [if_neg (Ne.symm hne), if_pos rfl] at this
    simp [getParent, this]

theorem getParent_link {f : Forest} {t i c x : Nat} {n m : TreeNode} (hn : f.node t = some n) (hm : f.node c = some m)
    (hx : x ≠ c) : (f.link t i c).getParent x = f.getParent x := by
  by_cases hne : t = c
  · subst hne
    rw [hn] at hm; cases hm
    have : (f.link t i t).node x = f.node x := by
      simp only [link, hn, node_put_self hn]
      rw [node_put_ne hx, node_put_ne hx]
    simp [getParent, this]
  · have := node_link (i := i) hn hm hne x
    by_cases hxt : x = t
    · subst hxt
      rw [if_pos rfl] at this
      simp [getParent, this, hn]
    · rw [if_neg hxt, if_neg hx] at this
      simp [getParent, this]

/-- The nodes above the target are still above it. -/
theorem above_link {f : Forest} {t i c : Nat} {n m : TreeNode} (hn : f.node t = some n) (hm : f.node c = some m)
    {x : Nat} (ha : Above f c x) : Above (f.link t i c) c x := by
  induction ha with
  | self => exact .self
  | @up x p j hp _ ih =>
    by_cases hx : x = c
    · subst hx; exact .self
    · exact .up (by rw [getParent_link hn hm hx]; exact hp) ih

end Forest

end CCS
