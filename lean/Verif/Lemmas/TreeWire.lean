import Verif.Spec.TreeWire
import Verif.Lemmas.ExprWire
import Verif.Lemmas.DynTree
import Verif.Lemmas.TreeSpace

/-! Helper lemmas about the serialization of trees. -/

namespace CCS

open Spec

namespace Forest

/-! ### What a history leaves can be built again -/

/-- What is needed to build a node again. -/
def seen (n : TreeNode) : Sprout := ⟨n.arity, n.value, n.weights.getD n.arity F64.zero, n.bias⟩

theorem lt_sameNumber {a b : F64} (hs : SameNumber a b) (h : F64.lt b F64.zero = false) : F64.lt a F64.zero = false := by
  rcases hs with rfl | ⟨x, h1, h2⟩
  · exact h
  · cases hl : F64.lt a F64.zero with
    | false => rfl
    | true =>
      obtain ⟨u, v, h3, h4, h5⟩ := (f64_lt_iff a F64.zero).mp hl
      have : F64.lt b F64.zero = true := by
        rw [h1] at h3; cases h3
        exact (f64_lt_iff b F64.zero).mpr ⟨_, _, h2, h4, h5⟩
      rw [h] at this; cases this

/-- Every node could have been returned by a callback. -/
def Decent (f : Forest) : Prop := ∀ ⦃h n⦄, f.node h = some n → Sound (seen n)

theorem seen_eq {n m : TreeNode} (hs : skel m = skel n) (hw : m.weights[n.arity]? = n.weights[n.arity]?) : seen m = seen n := by
  obtain ⟨h1, h2, h3, h4, h5, h6⟩ := skel_eq hs
  simp only [seen, h1, h3, h4, List.getD_eq_getElem?_getD, hw]

theorem grown_decent {ops : FloatOps} {f : Forest} (hg : GrownForest ops f) : Decent f := by
  induction hg with
  | empty => intro h n hn; simp [node] at hn
  | @step f g op fuel hgr hf hs ih =>
    have hh := grown_healthy hgr
    cases op with
    | create a v =>
      simp only [step, create, Option.some.injEq] at hs
      by_cases h1 : 4 < v.tag
      · rw [refute_true h1] at hs; cases hs
      rw [refute_false h1, Out.bind_ok] at hs
      by_cases h2 : 2 ^ 63 - 2 < a
      · rw [refute_true h2] at hs; cases hs
      rw [refute_false h2, Out.bind_ok] at hs
      by_cases h3 : v = .str none
      · rw [refute_true h3] at hs; cases hs
      rw [refute_false h3, Out.bind_ok] at hs
      cases hs
      intro k n hn
      rw [node_append] at hn
      split at hn
      · cases hn
        have hw : (fresh ops a v).weights.getD a F64.zero = F64.one := by
          simp [fresh, unitWeights, List.getD_eq_getElem?_getD]
        refine ⟨by show v.tag ≤ 4; omega, by show a ≤ _; omega, h3, ?_, by show F64.lt F64.one F64.zero = false; decide⟩
        show F64.lt ((fresh ops a v).weights.getD a F64.zero) F64.zero = false
        rw [hw]; decide
      · exact ih hn
    | setWeight h w =>
      cases hn : f.node h with
      | none => simp [step, setWeight, hn] at hs
      | some n =>
        by_cases hw : F64.lt w F64.zero = true
        · simp [step, setWeight, hn, hw] at hs
        · obtain ⟨d, g', h1, -, hr⟩ := setWeight_ok hh hn (by simpa using hw)
          have := Out.ok.inj (step_det (op := .setWeight h w) hs (h1 (d + 1) (by omega)))
          subst this
          intro k m hm
          obtain ⟨m0, hm0, hsk⟩ := hr.skel.symm.node hm
          by_cases hk : k = h
          · subst hk
            rw [hn] at hm0; cases hm0
            obtain ⟨v, h2, h3⟩ := hr.self hn hm rfl
            have hs0 := ih hn
            obtain ⟨e1, e2, e3, e4, -⟩ := skel_eq hsk
            refine ⟨by show m.value.tag ≤ 4; rw [← e4]; exact hs0.tag, by show m.arity ≤ _; rw [← e1]; exact hs0.arity,
              by show m.value ≠ _; rw [← e4]; exact hs0.text, ?_, by show F64.lt m.bias _ = _; rw [← e3]; exact hs0.bias⟩
            show F64.lt (m.weights.getD m.arity F64.zero) F64.zero = false
            rw [← e1, List.getD_eq_getElem?_getD, h2]
            exact lt_sameNumber h3 (by simpa using hw)
          · rw [seen_eq hsk.symm (hr.own hk hm0 hm)]
            exact ih hm0
    | setBias h b =>
      cases hn : f.node h with
      | none => simp [step, setBias, hn] at hs
      | some n =>
        by_cases hb : F64.lt b F64.zero = true
        · simp [step, setBias, hn, hb] at hs
        · obtain ⟨d, g', h1, -, hr⟩ := setBias_ok hh hn (by simpa using hb)
          have := Out.ok.inj (step_det (op := .setBias h b) hs (h1 (d + 1) (by omega)))
          subst this
          intro k m hm
          by_cases hk : k = h
          · subst hk
            obtain ⟨m', h2, h3, h4, h5⟩ := hr.self hn
            rw [hm] at h2; cases h2
            have hs0 := ih hn
            obtain ⟨e1, -, -, e4, -⟩ := skel_eq h3
            have e1 : m.arity = n.arity := e1
            have e4 : m.value = n.value := e4
            refine ⟨by show m.value.tag ≤ 4; rw [e4]; exact hs0.tag, by show m.arity ≤ _; rw [e1]; exact hs0.arity,
              by show m.value ≠ _; rw [e4]; exact hs0.text, ?_, ?_⟩
            · show F64.lt (m.weights.getD m.arity F64.zero) F64.zero = false
              rw [e1, List.getD_eq_getElem?_getD, h4, ← List.getD_eq_getElem?_getD]
              exact hs0.weight
            · exact lt_sameNumber h5 (by simpa using hb)
          · cases hk0 : f.node k with
            | none => have := hr.dead hk0; rw [hm] at this; cases this
            | some m0 =>
              obtain ⟨m', h2, h3, h4⟩ := hr.other hk hk0
              rw [hm] at h2; cases h2
              rw [seen_eq h3 h4]
              exact ih hk0
    | setChild h i c =>
      obtain ⟨n, m, hn, hm, hi, hp⟩ := setChild_inv hh hs
      have hne : h ≠ c := by rintro rfl; exact hf .self
      obtain ⟨d, g', h1, -, hr⟩ := setChild_ok hh hn hm hi hp hf
      have := Out.ok.inj (step_det (op := .setChild h i c) hs (h1 (d + 1) (by omega)))
      subst this
      have hnode := node_link (i := i) hn hm hne
      have hlink : ∀ {k a}, (f.link h i c).node k = some a → Sound (seen a) := by
        intro k a ha
        rw [hnode] at ha
        split at ha
        · cases ha; have := ih hn; exact this
        · split at ha
          · cases ha; have := ih hm; exact this
          · exact ih ha
      intro k b hb
      obtain ⟨a, ha, hsk⟩ := hr.skel.symm.node hb
      have hown : b.weights[a.arity]? = a.weights[a.arity]? := by
        by_cases hk : k = h
        · subst hk
          refine hr.other ha hb ?_
          rw [hnode, if_pos rfl] at ha
          cases ha
          have h2 := (List.getElem?_eq_some_iff.mp hi).1
          have := (hh.ok hn).children
          show i ≠ n.arity
          omega
        · exact hr.own hk ha hb
      rw [seen_eq hsk.symm hown]
      exact hlink ha
    | destroy h =>
      simp only [step, destroy, Option.some.injEq] at hs
      split at hs
      · cases hs
      · rename_i n hn
        cases hs
        intro k x hx
        rw [node_set_none, node_detach] at hx
        split at hx
        · cases hx
        · split at hx
          · cases hk : f.node k with
            | none => rw [hk] at hx; cases hx
            | some y => rw [hk] at hx; cases hx; have := ih hk; exact this
          · exact ih hx

/-! ### Bytes -/

/-- Bytes of a slot. -/
def kidBytes (sub : Nat → Bytes) : Option Nat → Bytes
  | none => lebBytes 0#32
  | some c => lebBytes 1#32 ++ sub c

/-- Bytes of a tree. -/
def treeBytes (g : Grove) (addr : Nat → BitVec 64) : Nat → Nat → Bytes
  | 0, _ => []
  | fuel + 1, h =>
    match g.trees.node h with
    | none => []
    | some n =>
      objBytes treeType (addr h) ++ (lebBytes (BitVec.ofNat 64 n.arity) ++
        (leBytes 8 (n.weights.getD n.arity F64.zero).toNat ++ (n.children.flatMap (kidBytes (treeBytes g addr fuel)) ++
          (leBytes 8 n.bias.toNat ++ (datumBytes n.value ++ blobBytes (g.data h))))))

theorem storable_child {g : Grove} {h i c : Nat} (hs : StorableTree g h) (hc : g.trees.getChild h i = .ok (some c)) :
    StorableTree g c := fun p k hl => hs (i :: p) k (.down hc hl)

theorem storable_here {g : Grove} {h : Nat} {n : TreeNode} (hs : StorableTree g h) (hn : g.trees.node h = some n) :
    StorableValue n.value ∧ (g.data h).length < 2 ^ 64 := by
  obtain ⟨h1, h2⟩ := hs [] h .here
  exact ⟨h1 _ (by simp [getValue, hn]), h2⟩

theorem child_of {ops : FloatOps} {f : Forest} (hh : Healthy ops f) {h i c : Nat} {n : TreeNode} (hn : f.node h = some n)
    (hc : n.children[i]? = some (some c)) : f.getChild h i = .ok (some c) := by
  have hi := (List.getElem?_eq_some_iff.mp hc).1
  have := (hh.ok hn).children
  simp only [getChild, hn]
  rw [if_neg (by omega), List.getD_eq_getElem?_getD, hc]
  rfl

theorem child_mem {ops : FloatOps} {f : Forest} (hh : Healthy ops f) {h c : Nat} {n : TreeNode} (hn : f.node h = some n)
    (hc : some c ∈ n.children) : ∃ i, f.getChild h i = .ok (some c) := by
  obtain ⟨i, hi, he⟩ := List.mem_iff_getElem.mp hc
  exact ⟨i, child_of hh hn (by rw [List.getElem?_eq_getElem hi, he])⟩

theorem writes_tree {ops : FloatOps} (little : Bool) {g : Grove} (addr : Nat → BitVec 64) (hh : Healthy ops g.trees) {fuel : Nat} :
    ∀ {h d : Nat}, Depth g.trees h d → g.trees.length ≤ d + fuel → StorableTree g h →
    WritesBytes (serTreeFuel little g addr fuel h) (treeBytes g addr fuel h) ∧
      szTreeFuel g addr fuel h = .ok (treeBytes g addr fuel h).length := by
  induction fuel with
  | zero => intro h d hd hl; have := depth_lt hd; omega
  | succ fuel ih =>
    intro h d hd hl hs
    obtain ⟨n, hn⟩ : ∃ n, g.trees.node h = some n := by cases hd <;> exact ⟨_, by assumption⟩
    obtain ⟨hv, hu⟩ := storable_here hs hn
    have hkid : ∀ c, some c ∈ n.children → WritesBytes (serTreeFuel little g addr fuel c) (treeBytes g addr fuel c) ∧
        szTreeFuel g addr fuel c = .ok (treeBytes g addr fuel c).length := by
      intro c hc
      obtain ⟨i, hi⟩ := child_mem hh hn hc
      exact ih (depth_child hh hd hi) (by omega) (storable_child hs hi)
    constructor
    · simp only [serTreeFuel, treeBytes, hn]
      have hk : WritesBytes (Wr.all (serKid (serTreeFuel little g addr fuel)) n.children)
          (n.children.flatMap (kidBytes (treeBytes g addr fuel))) := by
        apply writes_all
        intro x hx
        cases x with
        | none => exact writes_bool _
        | some c => exact writes_seq (writes_bool _) (hkid c hx).1
      exact writes_seq (writes_obj _ _) (writes_seq (writes_size _) (writes_seq (writes_u64 _ _) (writes_seq hk
        (writes_seq (writes_u64 _ _) (writes_seq (writes_datum little _ (storable_writable hv)) (writes_userData _))))))
    · have hk : szKids (szTreeFuel g addr fuel) n.children =
          .ok (n.children.flatMap (kidBytes (treeBytes g addr fuel))).length := by
        generalize n.children = cs at hkid
        induction cs with
        | nil => rfl
        | cons x cs ihc =>
          have ihc := ihc fun c hc => hkid c (by simp [hc])
          cases x with
          | none => simp [szKids, ihc, kidBytes, length_leb, szBool]
          | some c => simp [szKids, ihc, kidBytes, length_leb, szBool, (hkid c (by simp)).2]; omega
      simp only [szTreeFuel, treeBytes, hn, hk, Out.bind_ok, length_datum _ (storable_writable hv), List.length_append,
        length_obj, length_leb, length_userData, szSize, length_leBytes, szU64Fixed]
      congr 1; omega

/-! ### Comparison of trees -/

/-- The part of a node that attaching it leaves alone. -/
def strip (n : TreeNode) : TreeNode := { n with parent := none, index := 0 }

theorem strip_eq {n m : TreeNode} (h : strip n = strip m) :
    n.arity = m.arity ∧ n.children = m.children ∧ n.bias = m.bias ∧ n.value = m.value ∧ n.weights = m.weights ∧
      n.sum = m.sum ∧ n.areas = m.areas := by
  cases n; cases m
  simp only [strip, TreeNode.mk.injEq] at h
  simp_all

/-- Nodes below `b` are the same up to their parents. -/
def Kept (b : Nat) (g g' : Grove) : Prop :=
  ∀ k, k < b → (g'.trees.node k).map strip = (g.trees.node k).map strip ∧ g'.data k = g.data k

theorem Kept.trans {b b' : Nat} {g g' g'' : Grove} (h1 : Kept b g g') (h2 : Kept b' g' g'') (hb : b ≤ b') : Kept b g g'' := by
  intro k hk
  obtain ⟨a1, a2⟩ := h1 k hk
  obtain ⟨a3, a4⟩ := h2 k (by omega)
  exact ⟨a3.trans a1, a4.trans a2⟩

theorem Kept.symm {b : Nat} {g g' : Grove} (h : Kept b g g') : Kept b g' g :=
  fun k hk => ⟨(h k hk).1.symm, (h k hk).2.symm⟩

theorem Kept.node {b : Nat} {g g' : Grove} (h : Kept b g g') {k : Nat} {n : TreeNode} (hk : k < b)
    (hn : g.trees.node k = some n) : ∃ n', g'.trees.node k = some n' ∧ strip n' = strip n := by
  have := (h k hk).1
  rw [hn] at this
  cases hn' : g'.trees.node k with
  | none => rw [hn'] at this; cases this
  | some n' => rw [hn'] at this; exact ⟨n', rfl, Option.some.inj this⟩

theorem Kept.getChild {b : Nat} {g g' : Grove} (h : Kept b g g') {k i : Nat} {o : Option Nat} (hk : k < b)
    (hc : g.trees.getChild k i = .ok o) : g'.trees.getChild k i = .ok o := by
  obtain ⟨n, hn, hi, ho⟩ := getChild_ok hc
  obtain ⟨n', hn', he⟩ := h.node hk hn
  obtain ⟨e1, e2, -⟩ := strip_eq he
  simp only [Forest.getChild, hn', e1, e2]
  rw [if_neg (by omega), ho]

/-- Trees that lie below `b` are kept. -/
theorem Kept.leads {ops : FloatOps} {b : Nat} {g g' : Grove} (hh : Healthy ops g.trees) (hb : g.trees.length ≤ b)
    (h : Kept b g g') {r k : Nat} {p : List Nat} (hr : r < b) (hl : Leads g.trees r p k) :
    Leads g'.trees r p k ∧ k < b := by
  induction hl with
  | here => exact ⟨.here, hr⟩
  | @down r i c p k hc _ ih =>
    obtain ⟨n, hn, -, hg⟩ := getChild_ok hc
    obtain ⟨m, hm, -⟩ := hh.linked.down hn (getD_some hg)
    have := node_lt hm
    obtain ⟨h1, h2⟩ := ih (by omega)
    exact ⟨.down (h.getChild hr hc) h1, h2⟩

theorem Kept.shows {b : Nat} {g g' : Grove} (h : Kept b g g') {k : Nat} {s : Sprout} (hk : k < b)
    (hs : Shows g.trees k s) : Shows g'.trees k s := by
  obtain ⟨n, h1, h2, h3, h4, h5⟩ := shows_iff.mp hs
  obtain ⟨n', hn', he⟩ := h.node hk h1
  obtain ⟨e1, e2, e3, e4, e5, -⟩ := strip_eq he
  exact shows_iff.mpr ⟨n', hn', e4.trans h2, e1.trans h3, by rw [e1, e5]; exact h4, e3.trans h5⟩

theorem Kept.sameTree {ops : FloatOps} {g0 g g' : Grove} (hh : Healthy ops g.trees) (h : Kept g.trees.length g g')
    {r0 r : Nat} (hr : r < g.trees.length) (hs : SameTree g0 r0 g r) : SameTree g0 r0 g' r := by
  refine ⟨fun p k hl => ?_, fun p k' hl => ?_⟩
  · obtain ⟨k', h1, s, h2, h3, h4⟩ := hs.1 p k hl
    obtain ⟨h5, h6⟩ := h.leads hh (Nat.le_refl _) hr h1
    exact ⟨k', h5, s, h2, h.shows h6 h3, h4.trans (h k' h6).2.symm⟩
  · -- a path in `g'` is a path in `g`
    refine hs.2 p k' ?_
    clear hs
    induction hl with
    | here => exact .here
    | @down r i c p k hc _ ih =>
      have hc' := h.symm.getChild hr hc
      obtain ⟨n, hn, -, hg⟩ := getChild_ok hc'
      obtain ⟨m, hm, -⟩ := hh.linked.down hn (getD_some hg)
      exact .down hc' (ih (node_lt hm))

/-- Comparing trees from the top. -/
theorem sameTree_node {g g' : Grove} {h h' : Nat} {n n' : TreeNode} (hn : g.trees.node h = some n)
    (hn' : g'.trees.node h' = some n') (hs : seen n = seen n') (hd : g.data h = g'.data h')
    (hc : ∀ (i c : Nat), n.children[i]? = some (some c) → ∃ c', n'.children[i]? = some (some c') ∧ SameTree g c g' c')
    (hc' : ∀ (i c' : Nat), n'.children[i]? = some (some c') → ∃ c, n.children[i]? = some (some c))
    : SameTree g h g' h' := by
  have e1 : n.arity = n'.arity := congrArg Sprout.arity hs
  refine ⟨fun p k hl => ?_, fun p k' hl => ?_⟩
  · cases hl with
    | here =>
      refine ⟨h', .here, seen n, shows_iff.mpr ⟨n, hn, rfl, rfl, rfl, rfl⟩, ?_, hd⟩
      rw [hs]
      exact shows_iff.mpr ⟨n', hn', rfl, rfl, rfl, rfl⟩
    | @down _ i c p _ hcc hl =>
      obtain ⟨m, hm, hi, hg⟩ := getChild_ok hcc
      rw [hn] at hm; cases hm
      obtain ⟨c', h1, h2⟩ := hc i c (getD_some hg)
      obtain ⟨k', h3, h4⟩ := h2.1 p k hl
      refine ⟨k', .down ?_ h3, h4⟩
      simp only [getChild, hn']
      rw [if_neg (by omega), List.getD_eq_getElem?_getD, h1]
      rfl
  · cases hl with
    | here => exact ⟨h, .here⟩
    | @down _ i c' p _ hcc hl =>
      obtain ⟨m, hm, hi, hg⟩ := getChild_ok hcc
      rw [hn'] at hm; cases hm
      obtain ⟨c, h1⟩ := hc' i c' (getD_some hg)
      obtain ⟨c'', h2, h3⟩ := hc i c h1
      rw [getD_some hg] at h2; cases h2
      obtain ⟨k, h4⟩ := h3.2 p k' hl
      refine ⟨k, .down ?_ h4⟩
      simp only [getChild, hn]
      rw [if_neg (by omega), List.getD_eq_getElem?_getD, h1]
      rfl

/-! ### Building -/

/-- A history that builds the node of a callback. -/
theorem sprout_grown {ops : FloatOps} {f : Forest} (hg : GrownForest ops f) {s : Sprout} {r : Forest × Nat}
    (h : DynTree.sprout ops f s = .ok r) : GrownForest ops r.1 := by
  unfold DynTree.sprout at h
  obtain ⟨⟨f1, c⟩, h1, h⟩ := bind_eq_ok h
  simp only at h
  obtain ⟨f2, h2, h⟩ := bind_eq_ok h
  obtain ⟨f3, h3, h⟩ := bind_eq_ok h
  cases h
  have get : ∀ {x : Option (Out Forest)} {y}, x.getD .ub = .ok y → x = some (.ok y) := by
    intro x y hx
    cases x with
    | none => cases hx
    | some x => rw [Option.getD_some] at hx; rw [hx]
  have g1 : GrownForest ops f1 := .step (fuel := 1) (op := .create s.arity s.value) hg trivial (by simp [step, h1])
  have g2 : GrownForest ops f2 := .step (fuel := 1) (op := .setWeight c s.weight) g1 trivial (get h2)
  exact .step (fuel := 1) (op := .setBias c s.bias) g2 trivial (get h3)

/-- Attaching a root to a root. -/
theorem setChild_root {ops : FloatOps} {f : Forest} (hg : GrownForest ops f) {h i c : Nat} {n m : TreeNode}
    (hn : f.node h = some n) (hm : f.node c = some m) (hi : n.children[i]? = some none) (hp : m.parent = none)
    (hr : n.parent = none) (hne : h ≠ c) :
    ∃ g n', f.setChild ops 1 h i c = some (.ok g) ∧ GrownForest ops g ∧ g.node h = some n' ∧ n'.parent = none ∧
      n'.children = n.children.set i (some c) ∧ seen n' = seen n ∧
      (∀ k, k ≠ h → (g.node k).map strip = (f.node k).map strip ∧ (k ≠ c → g.node k = f.node k)) ∧ g.length = f.length := by
  have hh := grown_healthy hg
  have hna : ¬ Above f c h := by
    intro ha
    cases ha with
    | self => exact hne rfl
    | up hpar _ =>
      obtain ⟨x, hx, hx', -⟩ := getParent_ok hpar
      rw [hn] at hx; cases hx
      rw [hr] at hx'; cases hx'
  have hil : i < n.children.length := (List.getElem?_eq_some_iff.mp hi).1
  have hia : i < n.arity := by rw [← (hh.ok hn).children]; exact hil
  have hnode := node_link (i := i) hn hm hne
  have hz := hh.linked.zero hm hp
  obtain ⟨d, g', hg', -, hrw⟩ := setChild_ok hh hn hm hi hp hna
  have key : ∃ g, f.setChild ops 1 h i c = some (.ok g) ∧ (g = f.link h i c ∨
      ∃ w, g = (f.link h i c).put h (reweigh ops { n with children := n.children.set i (some c) } i w)) := by
    have hl : (f.link h i c).node h = some { n with children := n.children.set i (some c) } := by rw [hnode, if_pos rfl]
    simp only [setChild, hn, hm]
    rw [if_neg (by omega), if_neg (by simp [List.getD_eq_getElem?_getD, hi]), if_neg (by simp [hp, hz])]
    simp only [updateWeight, hl]
    rw [if_neg (show ¬ n.arity < i by omega)]
    split
    · exact ⟨_, rfl, .inl rfl⟩
    · simp only [updateLoop, hl, hr]
      exact ⟨_, rfl, .inr ⟨_, rfl⟩⟩
  obtain ⟨g, h1, h2⟩ := key
  have : g = g' := Out.ok.inj (step_det (op := .setChild h i c) h1 (hg' (d + 1) (by omega)))
  subst this
  have hl : (f.link h i c).node h = some { n with children := n.children.set i (some c) } := by rw [hnode, if_pos rfl]
  obtain ⟨n', h3, h4⟩ := hrw.skel.node hl
  obtain ⟨e1, e2, e3, e4, e5, e6⟩ := skel_eq h4
  refine ⟨g, n', h1, .step (op := .setChild h i c) hg hna h1, h3, e5.trans hr, e2, ?_, ?_, ?_⟩
  · have := seen_eq h4 (hrw.other hl h3 (show i ≠ n.arity by omega))
    rw [this]; rfl
  · intro k hk
    have hgk : g.node k = (f.link h i c).node k := by
      rcases h2 with rfl | ⟨w, rfl⟩
      · rfl
      · rw [node_put_ne hk]
    rw [hgk, hnode, if_neg hk]
    split
    · rename_i hkc
      subst hkc
      rw [hm]
      exact ⟨rfl, fun h => absurd rfl h⟩
    · exact ⟨rfl, fun _ => rfl⟩
  · have hlen : (f.link h i c).length = f.length := by
      unfold link
      simp only [hm]
      split <;> simp [length_put]
    rcases h2 with rfl | ⟨w, rfl⟩
    · exact hlen
    · rw [length_put, hlen]

/-- Attaching roots to a root. -/
theorem attach_ok {ops : FloatOps} {h : Nat} : ∀ {cs : List (Option Nat)} {f : Forest} {i : Nat} {n : TreeNode},
    GrownForest ops f → f.node h = some n → n.parent = none →
    (∀ c, some c ∈ cs → h ≠ c ∧ ∃ m, f.node c = some m ∧ m.parent = none) → (cs.filterMap id).Nodup →
    i + cs.length ≤ n.arity → (∀ j, i ≤ j → j < n.arity → n.children[j]? = some none) →
    ∃ g n', attach ops h f i cs = .ok g ∧ GrownForest ops g ∧ g.node h = some n' ∧ n'.parent = none ∧ seen n' = seen n ∧
      (∀ j, n'.children[j]? = if i ≤ j ∧ j < i + cs.length then cs[j - i]? else n.children[j]?) ∧
      (∀ k, k ≠ h → (g.node k).map strip = (f.node k).map strip) ∧ g.length = f.length ∧
      (∀ k, k ≠ h → some k ∉ cs → g.node k = f.node k) := by
  intro cs
  induction cs with
  | nil =>
    intro f i n hg hn hp _ _ _ _
    refine ⟨f, n, rfl, hg, hn, hp, rfl, fun j => ?_, fun _ _ => rfl, rfl, fun _ _ _ => rfl⟩
    rw [if_neg (by simp)]
  | cons x cs ih =>
    intro f i n hg hn hp hcs hnd hlen hfree
    rw [List.length_cons] at hlen
    cases x with
    | none =>
      have hnd' : (cs.filterMap id).Nodup := by simpa using hnd
      obtain ⟨g, n', h1, h2, h3, h4, h5, h6, h7, h8, h9⟩ := ih (i := i + 1) hg hn hp (fun c hc => hcs c (by simp [hc])) hnd'
        (by omega) (fun j h1 h2 => hfree j (by omega) h2)
      refine ⟨g, n', h1, h2, h3, h4, h5, fun j => ?_, h7, h8, fun k hk hk' => h9 k hk fun h => hk' (by simp [h])⟩
      rw [h6]
      by_cases hj : j = i
      · subst hj
        rw [if_neg (by omega), if_pos (by simp), Nat.sub_self, hfree j (by omega) (by omega)]
        rfl
      · by_cases hj2 : i + 1 ≤ j ∧ j < i + 1 + cs.length
        · rw [if_pos hj2, if_pos (by simp; omega)]
          obtain ⟨t, rfl⟩ : ∃ t, j = i + 1 + t := ⟨j - (i + 1), by omega⟩
          rw [show i + 1 + t - (i + 1) = t by omega, show i + 1 + t - i = t + 1 by omega]
          rfl
        · rw [if_neg hj2, if_neg (by simp; omega)]
    | some c =>
      have hnd' : c ∉ cs.filterMap id ∧ (cs.filterMap id).Nodup := by simpa using hnd
      obtain ⟨hne, m, hm, hmp⟩ := hcs c (by simp)
      obtain ⟨f1, n1, a1, a2, a3, a4, a5, a6, a7, a8⟩ := setChild_root hg hn hm (hfree i (by omega) (by omega)) hmp hp hne
      have har : n1.arity = n.arity := congrArg Sprout.arity a6
      have hil : i < n.children.length := (List.getElem?_eq_some_iff.mp (hfree i (by omega) (by omega))).1
      obtain ⟨g, n', h1, h2, h3, h4, h5, h6, h7, h8, h9⟩ := ih (i := i + 1) a2 a3 a4 (by
          intro d hd
          obtain ⟨b1, m', b2, b3⟩ := hcs d (by simp [hd])
          have hdc : d ≠ c := by
            rintro rfl
            exact hnd'.1 (List.mem_filterMap.mpr ⟨some d, hd, rfl⟩)
          exact ⟨b1, m', by rw [(a7 d (Ne.symm b1)).2 hdc]; exact b2, b3⟩) hnd'.2 (by omega) (by
          intro j j1 j2
          rw [a5, List.getElem?_set_ne (by omega)]
          exact hfree j (by omega) (by omega))
      refine ⟨g, n', ?_, h2, h3, h4, h5.trans a6, fun j => ?_, fun k hk => (h7 k hk).trans (a7 k hk).1, h8.trans a8, ?_⟩
      · simp only [attach, a1, Option.getD_some, Out.bind_ok, h1]
      · rw [h6]
        by_cases hj : j = i
        · subst hj
          rw [if_neg (by omega), if_pos (by simp), Nat.sub_self, a5, List.getElem?_set_self hil]
          rfl
        · by_cases hj2 : i + 1 ≤ j ∧ j < i + 1 + cs.length
          · rw [if_pos hj2, if_pos (by simp; omega)]
            obtain ⟨t, rfl⟩ : ∃ t, j = i + 1 + t := ⟨j - (i + 1), by omega⟩
            rw [show i + 1 + t - (i + 1) = t by omega, show i + 1 + t - i = t + 1 by omega]
            rfl
          · rw [if_neg hj2, if_neg (by simp; omega), a5, List.getElem?_set_ne (Ne.symm hj)]
      · intro k hk hk'
        rw [h9 k hk fun h => hk' (by simp [h])]
        exact (a7 k hk).2 fun h => hk' (by simp [h])

/-! ### Reading -/

/-- What reading a tree achieves. -/
structure Planted (ops : FloatOps) (g0 : Grove) (h0 : Nat) (g g' : Grove) (h : Nat) : Prop where
  grown : GrownForest ops g'.trees
  kept : ∀ k, k < g.trees.length → g'.trees.node k = g.trees.node k ∧ g'.data k = g.data k
  len : g.trees.length ≤ g'.trees.length
  new : g.trees.length ≤ h
  root : ∃ n, g'.trees.node h = some n ∧ n.parent = none
  same : SameTree g0 h0 g' h

/-- What reading the children of a node achieves. -/
structure Garden (ops : FloatOps) (g0 : Grove) (cs0 : List (Option Nat)) (g g' : Grove) (cs : List (Option Nat)) : Prop where
  grown : GrownForest ops g'.trees
  kept : ∀ k, k < g.trees.length → g'.trees.node k = g.trees.node k ∧ g'.data k = g.data k
  len : g.trees.length ≤ g'.trees.length
  length : cs.length = cs0.length
  nodup : (cs.filterMap id).Nodup
  new : ∀ c, some c ∈ cs → g.trees.length ≤ c ∧ ∃ n, g'.trees.node c = some n ∧ n.parent = none
  there : ∀ (i c0 : Nat), cs0[i]? = some (some c0) → ∃ c, cs[i]? = some (some c) ∧ SameTree g0 c0 g' c
  only : ∀ (i c : Nat), cs[i]? = some (some c) → ∃ c0, cs0[i]? = some (some c0)

theorem kept_of_eq {g g' : Grove} (h : ∀ k, k < g.trees.length → g'.trees.node k = g.trees.node k ∧ g'.data k = g.data k) :
    Kept g.trees.length g g' := fun k hk => ⟨by rw [(h k hk).1], (h k hk).2⟩

theorem reads_kids {ops : FloatOps} {g0 : Grove} {sub : Nat → Grove → Rd (Grove × Nat)} {bytes : Nat → Bytes}
    {b : Nat} : ∀ (cs0 : List (Option Nat)) (g : Grove), GrownForest ops g.trees →
    (∀ c, some c ∈ cs0 → ∀ g, GrownForest ops g.trees → ∃ g' h, (∀ t, b ≤ t → ReadsBack (sub t g) (bytes c) (g', h)) ∧
      Planted ops g0 c g g' h) →
    ∃ g' cs, (∀ t, b ≤ t → ReadsBack (deKids (sub t) cs0.length g) (cs0.flatMap (kidBytes bytes)) (g', cs)) ∧
      Garden ops g0 cs0 g g' cs := by
  intro cs0
  induction cs0 with
  | nil =>
    intro g hg _
    exact ⟨g, [], fun _ _ => reads_pure _, hg, fun _ _ => ⟨rfl, rfl⟩, Nat.le_refl _, rfl, by simp, by simp, by simp, by simp⟩
  | cons x cs0 ih =>
    intro g hg hsub
    cases x with
    | none =>
      obtain ⟨g', cs, h1, h2⟩ := ih g hg (fun c hc => hsub c (by simp [hc]))
      refine ⟨g', none :: cs, ?_, h2.grown, h2.kept, h2.len, by simp [h2.length], by simpa using h2.nodup, ?_, ?_, ?_⟩
      · intro t ht
        rw [List.length_cons, List.flatMap_cons]
        unfold deKids
        refine reads_bind (decodes_bool 0#32).1 ?_
        rw [if_pos rfl]
        exact reads_bind_pure (h1 t ht) rfl
      · intro c hc
        exact h2.new c (by simpa using hc)
      · intro i c0 hi
        cases i with
        | zero => simp at hi
        | succ i => exact h2.there i c0 hi
      · intro i c hi
        cases i with
        | zero => simp at hi
        | succ i => exact h2.only i c hi
    | some c0 =>
      obtain ⟨g1, h, r1, p⟩ := hsub c0 (by simp) g hg
      obtain ⟨g', cs, h1, h2⟩ := ih g1 p.grown (fun c hc => hsub c (by simp [hc]))
      obtain ⟨n, hn, hnp⟩ := p.root
      have hlt := node_lt hn
      have hkept := kept_of_eq h2.kept
      have hsame := hkept.sameTree (grown_healthy p.grown) hlt p.same
      refine ⟨g', some h :: cs, ?_, h2.grown, ?_, Nat.le_trans p.len h2.len, by simp [h2.length], ?_, ?_, ?_, ?_⟩
      · intro t ht
        rw [List.length_cons, List.flatMap_cons]
        unfold deKids
        simp only [kidBytes, List.append_assoc]
        refine reads_bind (decodes_bool 1#32).1 ?_
        rw [if_neg (by decide)]
        exact reads_bind (r1 t ht) (reads_bind_pure (h1 t ht) rfl)
      · intro k hk
        have := p.len
        obtain ⟨a1, a2⟩ := h2.kept k (by omega)
        obtain ⟨b1, b2⟩ := p.kept k hk
        exact ⟨a1.trans b1, a2.trans b2⟩
      · simp only [List.filterMap_cons, id, List.nodup_cons]
        refine ⟨fun hm => ?_, h2.nodup⟩
        obtain ⟨y, hy, hy'⟩ := List.mem_filterMap.mp hm
        have hy' : y = some h := hy'
        subst hy'
        have := (h2.new h hy).1
        omega
      · intro c hc
        rcases List.mem_cons.mp hc with hc | hc
        · cases hc
          exact ⟨p.new, n, by rw [(h2.kept h hlt).1]; exact hn, hnp⟩
        · obtain ⟨a1, a2⟩ := h2.new c hc
          have := p.len
          exact ⟨by omega, a2⟩
      · intro i c hi
        cases i with
        | zero =>
          simp only [List.getElem?_cons_zero, Option.some.injEq] at hi
          subst hi
          exact ⟨h, rfl, hsame⟩
        | succ i => exact h2.there i c hi
      · intro i c hi
        cases i with
        | zero => exact ⟨c0, rfl⟩
        | succ i => exact h2.only i c hi

theorem kidBytes_mem {bytes : Nat → Bytes} {cs : List (Option Nat)} {c : Nat} (hc : some c ∈ cs) :
    (bytes c).length ≤ (cs.flatMap (kidBytes bytes)).length := by
  induction cs with
  | nil => cases hc
  | cons x cs ih =>
    rw [List.flatMap_cons, List.length_append]
    rcases List.mem_cons.mp hc with rfl | hc
    · simp only [kidBytes, List.length_append]; omega
    · have := ih hc; omega

theorem reads_tree {ops : FloatOps} (little : Bool) {g0 : Grove} (addr : Nat → BitVec 64) (hg0 : GrownForest ops g0.trees)
    {fuel : Nat} : ∀ {h d : Nat}, Depth g0.trees h d → g0.trees.length ≤ d + fuel → StorableTree g0 h →
    ∀ g, GrownForest ops g.trees →
    ∃ g' h', (∀ turns, (treeBytes g0 addr fuel h).length ≤ turns →
      ReadsBack (deTreeFuel ops little turns g) (treeBytes g0 addr fuel h) (g', h')) ∧ Planted ops g0 h g g' h' := by
  have hh0 := grown_healthy hg0
  induction fuel with
  | zero => intro h d hd hl; have := depth_lt hd; omega
  | succ fuel ih =>
    intro h d hd hl hs g hg
    obtain ⟨n, hn⟩ : ∃ n, g0.trees.node h = some n := by cases hd <;> exact ⟨_, by assumption⟩
    obtain ⟨hv, hu⟩ := storable_here hs hn
    have hk := hh0.ok hn
    have hsound := grown_decent hg0 hn
    have hpos := objBytes_pos treeType (addr h)
    -- the children
    obtain ⟨g1, cs, r1, gd⟩ := reads_kids (ops := ops) (g0 := g0) (sub := deTreeFuel ops little)
      (bytes := treeBytes g0 addr fuel) (b := (n.children.flatMap (kidBytes (treeBytes g0 addr fuel))).length) n.children g hg (by
        intro c hc g hg
        obtain ⟨i, hi⟩ := child_mem hh0 hn hc
        have := kidBytes_mem (bytes := treeBytes g0 addr fuel) hc
        obtain ⟨g', h', r, p⟩ := ih (depth_child hh0 hd hi) (by omega) (storable_child hs hi) g hg
        exact ⟨g', h', fun t ht => r t (by omega), p⟩)
    rw [hk.children] at r1
    -- the node
    obtain ⟨x, s1, s2, s3, s4, s5, s6, s7, s8⟩ := sprout_ok (grown_healthy gd.grown) hsound
    have hseen : seen x = seen n := by
      simp only [seen, List.getD_eq_getElem?_getD] at *
      simp only [s4, s5, s6]
      rw [s4] at s7
      rw [s7]
      rfl
    have hxn : Forest.node (g1.trees ++ [some x]) g1.trees.length = some x := by rw [node_append, if_pos rfl]
    have hold : ∀ k, k ≠ g1.trees.length → Forest.node (g1.trees ++ [some x]) k = g1.trees.node k := by
      intro k hk; rw [node_append, if_neg hk]
    have hxa : x.arity = n.arity := s4
    obtain ⟨f3, x', t1, t2, t3, t4, t5, t6, t7, t8, t9⟩ := attach_ok (cs := cs) (i := 0)
      (sprout_grown gd.grown s1) hxn s3 (by
        intro c hc
        obtain ⟨a1, m, a2, a3⟩ := gd.new c hc
        have := node_lt a2
        exact ⟨by omega, m, by rw [hold c (by omega)]; exact a2, a3⟩) gd.nodup
      (by rw [gd.length, hk.children, hxa]; omega) (by
        intro j _ hj
        rw [s8, List.getElem?_replicate, if_pos]
        rw [hxa] at hj; exact hj)
    have hlen3 : f3.length = g1.trees.length + 1 := by rw [t8]; simp
    have hcs : ∀ (j c : Nat), x'.children[j]? = some (some c) ↔ cs[j]? = some (some c) := by
      intro j c
      rw [t6]
      by_cases hj : j < cs.length
      · rw [if_pos (by omega), Nat.sub_zero]
      · rw [if_neg (by omega), s8, List.getElem?_replicate, List.getElem?_eq_none (by omega)]
        split <;> simp
    -- the result
    let G : Grove := ⟨f3, fun k => if k = g1.trees.length then g0.data h else g1.data k⟩
    have hkept1 : Kept g1.trees.length g1 G := by
      intro k hk
      refine ⟨?_, if_neg (by omega)⟩
      rw [show G.trees = f3 from rfl, t7 k (by omega), hold k (by omega)]
    refine ⟨G, g1.trees.length, ?_, t2, ?_, ?_, gd.len, ⟨x', t3, t4⟩, ?_⟩
    · intro turns ht
      simp only [treeBytes, hn, List.length_append] at ht
      obtain ⟨turns, rfl⟩ : ∃ k, turns = k + 1 := ⟨turns - 1, by omega⟩
      have r1 := r1 turns (by omega)
      simp only [treeBytes, hn]
      unfold deTreeFuel
      refine reads_bind (decodes_obj _ _).1 ?_
      have hr : refute (treeType ≠ treeType) Err.invalidType = .ok () := by simp [refute]
      refine reads_bind (x := ()) (b₁ := []) (by simp only; rw [hr]; exact (decodes_lift ()).1) ?_
      refine reads_bind (decodes_size (n := n.arity) (by have : n.arity ≤ 2 ^ 63 - 2 := hsound.arity; omega)).1 ?_
      refine reads_bind (decodes_u64 little _).1 (reads_bind r1 (reads_bind (decodes_u64 little _).1
        (reads_bind (decodes_datum little _ (storable_writable hv)).1 ?_)))
      have e1 : DynTree.sprout ops g1.trees ⟨n.arity, (readBack n.value).v, n.weights.getD n.arity F64.zero, n.bias⟩ =
          .ok (g1.trees ++ [some x], g1.trees.length) := by
        rw [storable_readBack hv]; exact s1
      refine reads_bind (x := (g1.trees ++ [some x], g1.trees.length)) (b₁ := []) (by
        rw [e1]; exact (decodes_lift _).1) ?_
      refine reads_bind (x := f3) (b₁ := []) (by rw [t1]; exact (decodes_lift _).1) ?_
      exact reads_bind_pure (reads_userData hu) rfl
    · intro k hk
      have := gd.len
      obtain ⟨a1, a2⟩ := gd.kept k hk
      refine ⟨?_, ?_⟩
      · show f3.node k = _
        rw [t9 k (by omega) (fun hc => by have := (gd.new k hc).1; omega), hold k (by omega), a1]
      · show (if k = g1.trees.length then g0.data h else g1.data k) = _
        rw [if_neg (by omega), a2]
    · show _ ≤ f3.length
      have := gd.len
      omega
    · refine sameTree_node hn t3 (hseen.symm.trans t5.symm) (by show _ = (if _ then _ else _); rw [if_pos rfl]) ?_ ?_
      · intro i c0 hi
        obtain ⟨c, h1, h2⟩ := gd.there i c0 hi
        obtain ⟨-, m, hm, -⟩ := gd.new c (List.mem_iff_getElem?.mpr ⟨i, h1⟩)
        exact ⟨c, (hcs i c).mpr h1, hkept1.sameTree (grown_healthy gd.grown) (node_lt hm) h2⟩
      · intro i c hi
        exact gd.only i c ((hcs i c).mp hi)

/-! ### Totals and areas -/

theorem sameNumber_trans {a b c : F64} (h1 : SameNumber a b) (h2 : SameNumber b c) : SameNumber a c := by
  rcases h1 with rfl | ⟨x, a1, a2⟩
  · exact h2
  · rcases h2 with rfl | ⟨y, b1, b2⟩
    · exact .inr ⟨x, a1, a2⟩
    · rw [a2] at b1; cases b1
      exact .inr ⟨x, a1, b2⟩

/-- Two encodings of the same number are equal, except those of zero. -/
theorem sameNumber_cases {a b : F64} (h : SameNumber a b) : a = b ∨ (realValue a = some 0 ∧ realValue b = some 0) := by
  rcases h with rfl | ⟨x, h1, h2⟩
  · exact .inl rfl
  · have hna : F64.isNaN a = false := by
      cases h : F64.isNaN a with
      | false => rfl
      | true => rw [(realValue_none a).mpr h] at h1; cases h1
    have hnb : F64.isNaN b = false := by
      cases h : F64.isNaN b with
      | false => rfl
      | true => rw [(realValue_none b).mpr h] at h2; cases h2
    by_cases hx : x = 0
    · subst hx; exact .inr ⟨h1, h2⟩
    · left
      rw [IeeeLemmas.realValue_signed hna] at h1
      rw [IeeeLemmas.realValue_signed hnb] at h2
      have h1 := Option.some.inj h1
      have h2 := Option.some.inj h2
      unfold Ieee.signed at h1 h2
      rw [IeeeLemmas.mag_low] at h1 h2
      have e1 : Ieee.neg a = Ieee.neg b ∧ IeeeLemmas.uval (IeeeLemmas.low a) = IeeeLemmas.uval (IeeeLemmas.low b) := by
        cases ha : Ieee.neg a <;> cases hb : Ieee.neg b <;> simp only [ha, hb, if_true, Bool.false_eq_true, if_false] at h1 h2
          <;> (refine ⟨by first | rfl | (exfalso; omega), by omega⟩)
      have e2 : IeeeLemmas.low a = IeeeLemmas.low b :=
        Nat.le_antisymm (IeeeLemmas.uval_le_iff.mp (by omega)) (IeeeLemmas.uval_le_iff.mp (by omega))
      rw [← IeeeLemmas.pack_self a, ← IeeeLemmas.pack_self b, e1.1, e2]

theorem add_same {acc a b : F64} (hacc : acc ≠ 0x8000000000000000#64) (h : SameNumber a b) : Ieee.add acc a = Ieee.add acc b := by
  rcases sameNumber_cases h with rfl | ⟨h1, h2⟩
  · rfl
  · cases hn : F64.isNaN acc with
    | false => rw [IeeeLemmas.add_zero hn hacc h1, IeeeLemmas.add_zero hn hacc h2]
    | true => simp [Ieee.add, hn]

/-- Pointwise the same numbers. -/
def SameNumbers (l l' : List F64) : Prop :=
  l.length = l'.length ∧ ∀ (i : Nat) a b, l[i]? = some a → l'[i]? = some b → SameNumber a b

theorem partials_same : ∀ {l l' : List F64} {acc : F64}, acc ≠ 0x8000000000000000#64 → SameNumbers l l' →
    FloatOps.partials ieee acc l = FloatOps.partials ieee acc l' ∧ l.foldl Ieee.add acc = l'.foldl Ieee.add acc := by
  intro l
  induction l with
  | nil =>
    intro l' acc _ h
    cases l' with
    | nil => exact ⟨rfl, rfl⟩
    | cons b l' => have := h.1; simp at this
  | cons a l ih =>
    intro l' acc hacc h
    cases l' with
    | nil => have := h.1; simp at this
    | cons b l' =>
      have hab := add_same hacc (h.2 0 a b rfl rfl)
      have hl : SameNumbers l l' := ⟨by simpa using h.1, fun i x y hx hy => h.2 (i + 1) x y hx hy⟩
      obtain ⟨h1, h2⟩ := ih (acc := Ieee.add acc a) (IeeeLemmas.add_ne_negzero hacc) hl
      constructor
      · simp only [FloatOps.partials]
        show Ieee.add acc a :: FloatOps.partials ieee (Ieee.add acc a) l =
          Ieee.add acc b :: FloatOps.partials ieee (Ieee.add acc b) l'
        rw [← hab]
        exact congrArg _ h1
      · simp only [List.foldl_cons]
        rw [← hab]
        exact h2

theorem total_same {l l' : List F64} (h : SameNumbers l l') : ieee.total l = ieee.total l' :=
  (partials_same (acc := F64.zero) (by decide) h).2

theorem normalize_same {l l' : List F64} {x : F64} (h : SameNumbers l l') :
    normalizeAreas ieee l x = normalizeAreas ieee l' x := by
  unfold normalizeAreas
  rw [(partials_same (acc := F64.zero) (by decide) h).1]

theorem leads_cons {f : Forest} {h i k : Nat} {p : List Nat} (hl : Leads f h (i :: p) k) :
    ∃ c, f.getChild h i = .ok (some c) ∧ Leads f c p k := by
  cases hl with
  | down h1 h2 => exact ⟨_, h1, h2⟩

theorem sameTree_child {g g' : Grove} {h h' i c : Nat} (hs : SameTree g h g' h') (hc : g.trees.getChild h i = .ok (some c)) :
    ∃ c', g'.trees.getChild h' i = .ok (some c') ∧ SameTree g c g' c' := by
  obtain ⟨k', h1, -⟩ := hs.1 [i] c (.down hc .here)
  obtain ⟨c', h2, h3⟩ := leads_cons h1
  refine ⟨c', h2, fun p k hl => ?_, fun p k' hl => ?_⟩
  · obtain ⟨x, h4, h5⟩ := hs.1 (i :: p) k (.down hc hl)
    obtain ⟨y, h6, h7⟩ := leads_cons h4
    rw [h2] at h6; cases h6
    exact ⟨x, h7, h5⟩
  · obtain ⟨k, h4⟩ := hs.2 (i :: p) k' (.down h2 hl)
    obtain ⟨y, h6, h7⟩ := leads_cons h4
    rw [hc] at h6; cases h6
    exact ⟨k, h7⟩

theorem sameTree_nochild {g g' : Grove} {h h' i c' : Nat} (hs : SameTree g h g' h')
    (hc : g'.trees.getChild h' i = .ok (some c')) : ∃ c, g.trees.getChild h i = .ok (some c) := by
  obtain ⟨k, h1⟩ := hs.2 [i] c' (.down hc .here)
  obtain ⟨c, h2, -⟩ := leads_cons h1
  exact ⟨c, h2⟩

theorem sameTree_seen {g g' : Grove} {h h' : Nat} (hs : SameTree g h g' h') :
    ∃ n n', g.trees.node h = some n ∧ g'.trees.node h' = some n' ∧ seen n = seen n' := by
  obtain ⟨k', h1, s, h2, h3, -⟩ := hs.1 [] h .here
  cases h1
  obtain ⟨n, a1, a2, a3, a4, a5⟩ := shows_iff.mp h2
  obtain ⟨n', b1, b2, b3, b4, b5⟩ := shows_iff.mp h3
  refine ⟨n, n', a1, b1, ?_⟩
  simp only [seen, a2, a3, a5, b2, b3, b5]
  rw [a3] at a4
  rw [b3] at b4
  rw [a4, b4]

/-- Trees that look the same have the same totals, bit for bit, and the same numbers as weights. -/
theorem sameTree_weights {g g' : Grove} (hg : GrownForest ieee g.trees) (hg' : GrownForest ieee g'.trees) {r : Nat} :
    ∀ {h d h' : Nat}, Depth g.trees h d → g.trees.length ≤ d + r → SameTree g h g' h' →
    ∃ n n', g.trees.node h = some n ∧ g'.trees.node h' = some n' ∧ seen n = seen n' ∧
      SameNumbers n.weights n'.weights ∧ n.sum = n'.sum := by
  have hh := grown_healthy hg
  have hh' := grown_healthy hg'
  induction r with
  | zero => intro h d h' hd hl; have := depth_lt hd; omega
  | succ r ih =>
    intro h d h' hd hl hs
    obtain ⟨n, n', hn, hn', he⟩ := sameTree_seen hs
    have ok := hh.ok hn
    have ok' := hh'.ok hn'
    have ea : n.arity = n'.arity := congrArg Sprout.arity he
    have ew : n.weights.getD n.arity F64.zero = n'.weights.getD n'.arity F64.zero := congrArg Sprout.weight he
    have hsame : SameNumbers n.weights n'.weights := by
      refine ⟨by rw [ok.weights, ok'.weights, ea], fun i a b ha hb => ?_⟩
      have hi := (List.getElem?_eq_some_iff.mp ha).1
      rw [ok.weights] at hi
      by_cases hia : i = n.arity
      · subst hia
        rw [ea] at hb
        simp only [List.getD_eq_getElem?_getD, ha, hb] at ew
        exact .inl ew
      · have hc : ∃ c, n.children[i]? = some c := ⟨_, List.getElem?_eq_getElem (by rw [ok.children]; omega)⟩
        have hc' : ∃ c, n'.children[i]? = some c := ⟨_, List.getElem?_eq_getElem (by rw [ok'.children]; omega)⟩
        obtain ⟨c, hc⟩ := hc
        obtain ⟨c', hc'⟩ := hc'
        have w1 := hh.weighed hn (by simp) hc ha
        have w2 := hh'.weighed hn' (by simp) hc' hb
        cases c with
        | some c =>
          obtain ⟨x, h1, h2⟩ := sameTree_child hs (child_of hh hn hc)
          obtain ⟨m, hm, hi', hgd⟩ := getChild_ok h1
          rw [hn'] at hm; cases hm
          have := getD_some hgd
          rw [hc'] at this; cases this
          obtain ⟨m, m', a1, a2, a3, -, a5⟩ := ih (depth_child hh hd (child_of hh hn hc)) (by omega) h2
          obtain ⟨q, b1, b2⟩ := w1
          obtain ⟨q', b1', b2'⟩ := w2
          rw [a1] at b1; cases b1
          rw [a2] at b1'; cases b1'
          have eb : m.bias = m'.bias := congrArg Sprout.bias a3
          rw [← a5, ← eb] at b2'
          exact sameNumber_trans b2 (sameNumber_symm b2')
        | none =>
          cases c' with
          | none => exact .inl (w1.trans (Eq.symm w2))
          | some c' =>
            obtain ⟨c, h1⟩ := sameTree_nochild hs (child_of hh' hn' hc')
            obtain ⟨m, hm, hi', hgd⟩ := getChild_ok h1
            rw [hn] at hm; cases hm
            have := getD_some hgd
            rw [hc] at this; cases this
    refine ⟨n, n', hn, hn', he, hsame, ?_⟩
    rw [ok.sum, ok'.sum]
    exact total_same hsame

/-- Same totals everywhere, same areas where the total is positive. -/
theorem sameTree_areas {g g' : Grove} (hg : GrownForest ieee g.trees) (hg' : GrownForest ieee g'.trees) {h h' : Nat}
    (hs : SameTree g h g' h') :
    ∃ n n', g.trees.node h = some n ∧ g'.trees.node h' = some n' ∧ seen n = seen n' ∧ n.sum = n'.sum ∧
      (F64.lt F64.zero n.sum = true → n.areas = n'.areas) := by
  obtain ⟨n, -, hn, -⟩ := sameTree_seen hs
  have hh := grown_healthy hg
  have hh' := grown_healthy hg'
  obtain ⟨d, hd⟩ := hh.linked.rooted hn
  obtain ⟨n, n', h1, h2, h3, h4, h5⟩ := sameTree_weights hg hg' (r := g.trees.length) hd (by omega) hs
  refine ⟨n, n', h1, h2, h3, h5, fun hp => ?_⟩
  rw [(hh.ok h1).areas hp, (hh'.ok h2).areas (by rw [← h5]; exact hp), ← h5]
  exact normalize_same h4

theorem leads_sameTree {g g' : Grove} {h k : Nat} {p : List Nat} (hl : Leads g.trees h p k) : ∀ {h'},
    SameTree g h g' h' → ∃ k', Leads g'.trees h' p k' ∧ SameTree g k g' k' := by
  induction hl with
  | here => intro h' hs; exact ⟨h', .here, hs⟩
  | down hc _ ih =>
    intro h' hs
    obtain ⟨c', h1, h2⟩ := sameTree_child hs hc
    obtain ⟨k', h3, h4⟩ := ih h2
    exact ⟨k', .down h1 h3, h4⟩

/-- A total that is not a NaN is zero or positive. -/
theorem sum_cases {f : Forest} (hg : GrownForest ieee f) {h : Nat} {n : TreeNode} (hn : f.node h = some n)
    (hnan : F64.isNaN n.sum = false) : F64.feq n.sum F64.zero = true ∨ F64.lt F64.zero n.sum = true := by
  have hnn := (grown_nonNeg hg hn).sum
  rcases IeeeLemmas.nonNeg_iff.mp hnn with h | h
  · rw [hnan] at h; cases h
  · have h1 := IeeeLemmas.realValue_signed hnan
    have h0 := IeeeLemmas.realValue_zero
    by_cases hz : Ieee.signed n.sum = 0
    · exact .inl ((feq_iff _ _).mpr ⟨0, by rw [← hz]; exact h1, h0⟩)
    · exact .inr ((f64_lt_iff _ _).mpr ⟨0, _, h0, h1, by omega⟩)

theorem sampleWalk_same {g g' : Grove} (hg : GrownForest ieee g.trees) (hg' : GrownForest ieee g'.trees)
    (guess : Int → F64 → Int) (turns : Nat) (rnd : Nat → F64) {fuel : Nat} : ∀ {h h' k : Nat}, SameTree g h g' h' →
    (∀ p q n, Leads g.trees h p q → g.trees.node q = some n → F64.isNaN n.sum = false) →
    sampleWalk guess turns rnd fuel g'.trees h' k = sampleWalk guess turns rnd fuel g.trees h k := by
  have hh := grown_healthy hg
  have hh' := grown_healthy hg'
  induction fuel with
  | zero => intros; rfl
  | succ fuel ih =>
    intro h h' k hs hnan
    obtain ⟨n, n', hn, hn', h3, h4, h5⟩ := sameTree_areas hg hg' hs
    have ea : n.arity = n'.arity := congrArg Sprout.arity h3
    have hidx : sampleIndex guess turns n' (rnd k) = sampleIndex guess turns n (rnd k) := by
      unfold sampleIndex
      rw [← h4, ← ea]
      rcases sum_cases hg hn (hnan [] h n .here hn) with h | h
      · rw [if_pos h, if_pos h]
      · rw [h5 h]
    have hkid : ∀ i : Nat, (n.children[i]? = none ∧ n'.children[i]? = none) ∨
        (n.children[i]? = some none ∧ n'.children[i]? = some none) ∨
        ∃ c c', n.children[i]? = some (some c) ∧ n'.children[i]? = some (some c') ∧
          g.trees.getChild h i = .ok (some c) ∧ SameTree g c g' c' := by
      intro i
      cases hc : n.children[i]? with
      | none =>
        left
        refine ⟨rfl, ?_⟩
        rw [List.getElem?_eq_none_iff, (hh.ok hn).children] at hc
        rw [List.getElem?_eq_none_iff, (hh'.ok hn').children]
        omega
      | some x =>
        right
        cases x with
        | some c =>
          right
          obtain ⟨c', a1, a2⟩ := sameTree_child hs (child_of hh hn hc)
          obtain ⟨m, hm, -, hgd⟩ := getChild_ok a1
          rw [hn'] at hm; cases hm
          exact ⟨c, c', rfl, getD_some hgd, child_of hh hn hc, a2⟩
        | none =>
          left
          refine ⟨rfl, ?_⟩
          cases hc' : n'.children[i]? with
          | none =>
            exfalso
            rw [List.getElem?_eq_none_iff, (hh'.ok hn').children] at hc'
            have := (List.getElem?_eq_some_iff.mp hc).1
            rw [(hh.ok hn).children] at this
            omega
          | some y =>
            cases y with
            | none => rfl
            | some c' =>
              exfalso
              obtain ⟨c, a1⟩ := sameTree_nochild hs (child_of hh' hn' hc')
              obtain ⟨m, hm, -, hgd⟩ := getChild_ok a1
              rw [hn] at hm; cases hm
              have := getD_some hgd
              rw [hc] at this; cases this
    simp only [sampleWalk, hn, hn', hidx, ← ea]
    cases sampleIndex guess turns n (rnd k) with
    | none => rfl
    | some r =>
      cases r with
      | ub => rfl
      | err e => rfl
      | ok i =>
        simp only
        split
        · rfl
        · split
          · rfl
          · rcases hkid i.toNat with ⟨a, b⟩ | ⟨a, b⟩ | ⟨c, c', a, b, a1, a2⟩
            · rw [a, b]
            · rw [a, b]
            · rw [a, b]
              simp only
              rw [ih a2 (fun p q n hl hq => hnan (i.toNat :: p) q n (.down a1 hl) hq)]

theorem samplePositions_same {g g' : Grove} (hg : GrownForest ieee g.trees) (hg' : GrownForest ieee g'.trees)
    (guess : Int → F64 → Int) (turns : Nat) (rnd : Nat → F64) (fuel : Nat) {h h' : Nat} (hs : SameTree g h g' h')
    (hnan : ∀ p q n, Leads g.trees h p q → g.trees.node q = some n → F64.isNaN n.sum = false) {count : Nat} : ∀ {k : Nat},
    samplePositions guess turns rnd fuel g'.trees h' count k = samplePositions guess turns rnd fuel g.trees h count k := by
  induction count with
  | zero => intro k; rfl
  | succ count ih =>
    intro k
    simp only [samplePositions, sampleWalk_same hg hg' guess turns rnd hs hnan, ih]

end Forest

end CCS
