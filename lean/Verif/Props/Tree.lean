import Verif.Lemmas.TreeWalk
import Verif.Spec.Ieee

/-!
# Trees: weights, positions, attachment

Properties C68, C69, C70 and C71.  `GrownForest ops f` says that `f` is what any sequence of successful calls produces, for a
caller that does not attach a node below itself.
-/

namespace CCS.Props

open CCS CCS.Spec

/-! ## Forests of the examples -/

/-- `1.0` and other numbers. -/
def dHalf : F64 := 0x3fe0000000000000#64
def dTwo : F64 := 0x4000000000000000#64
def dThree : F64 := 0x4008000000000000#64

/-- Runs calls with IEEE arithmetic, stopping at the first that is refused. -/
def exGrow : List Forest.Op → Forest
  | [] => []
  | op :: l =>
    match (exGrow l).step ieee 9 op with
    | some (.ok f) => f
    | _ => exGrow l

/-- A root of arity 2 whose first child has arity 1 and a child of arity 0; last call first. -/
def exTreeOps : List Forest.Op :=
  [.setBias 1 dHalf, .setWeight 2 dThree, .setChild 0 0 1, .setChild 1 0 2,
   .create 0 (.int 3#64), .create 1 (.int 2#64), .create 2 (.int 1#64)]

def exTree : Forest := exGrow exTreeOps

/-- The way up from a node, for deciding that a node is not above another. -/
def exUp (f : Forest) : Nat → Nat → List Nat
  | 0, _ => []
  | k + 1, h => h :: (match f.getParent h with | .ok (some (p, _)) => exUp f k p | _ => [])

theorem exUp_above {f : Forest} {a t : Nat} (h : Above f a t) :
    ∀ k, (∃ l, exUp f k t = l ∧ (a ∈ l ∨ l.length = k)) := by
  intro k
  induction h generalizing k with
  | self =>
    cases k with
    | zero => exact ⟨_, rfl, .inr rfl⟩
    | succ k => exact ⟨_, rfl, .inl (by simp [exUp])⟩
  | up hp _ ih =>
    cases k with
    | zero => exact ⟨_, rfl, .inr rfl⟩
    | succ k =>
      obtain ⟨l, h1, h2⟩ := ih k
      refine ⟨_, rfl, ?_⟩
      simp only [exUp, hp, h1]
      rcases h2 with h2 | h2
      · exact .inl (List.mem_cons_of_mem _ h2)
      · exact .inr (by simp [h2])

theorem not_above {f : Forest} {a t : Nat} (k : Nat) (h1 : a ∉ exUp f k t) (h2 : (exUp f k t).length ≠ k) :
    ¬ Above f a t := by
  intro h
  obtain ⟨l, rfl, h3 | h3⟩ := exUp_above h k
  · exact h1 h3
  · exact h2 h3

theorem exGrow_step {op : Forest.Op} {l : List Forest.Op} (h : GrownForest ieee (exGrow l)) (hf : Fair (exGrow l) op) :
    GrownForest ieee (exGrow (op :: l)) := by
  simp only [exGrow]
  split
  · rename_i f hs; exact .step h hf hs
  · exact h

theorem exTree_grown : GrownForest ieee exTree := by
  refine exGrow_step (exGrow_step (exGrow_step (exGrow_step (exGrow_step (exGrow_step (exGrow_step .empty
    trivial) trivial) trivial) ?_) ?_) trivial) trivial
  · exact not_above 9 (by decide +kernel) (by decide +kernel)
  · exact not_above 9 (by decide +kernel) (by decide +kernel)

/-- Node 2 weighs 3; node 1 weighs 1 + 3 = 4, half of which counts in the root: 2 + 1 + 1 = 4. -/
example : exTree.length = 3 ∧ (exTree.node 2).map (·.sum) = some dThree ∧
    (exTree.node 1).map (·.sum) = some 0x4010000000000000#64 ∧
    (exTree.node 0).map (·.weights) = some [dTwo, F64.one, F64.one] ∧
    (exTree.node 0).map (·.sum) = some 0x4010000000000000#64 ∧
    (exTree.node 0).map (·.areas) = some [F64.zero, dHalf, 0x3fe8000000000000#64, F64.one] := by decide +kernel

/-! ## C68: subtree weights are always consistent -/

/-- After any sequence of calls, the total of every node is the sum, in order, of 1 for each missing child, of the
biased total of each present child, and of its own weight. -/
theorem C68_totals {ops : FloatOps} {f : Forest} (hg : GrownForest ops f) {h : Nat} {n : TreeNode}
    (hn : f.node h = some n) : Balanced ops f n := by
  have hh := Forest.grown_healthy hg
  have hk := hh.ok hn
  have hne : n.weights ≠ [] := by
    intro h; have := hk.weights; rw [h] at this; simp at this
  refine ⟨n.weights.dropLast, n.weights.getLast hne, ?_, ?_, ?_, ?_⟩
  · rw [List.length_dropLast, hk.weights, hk.children]; rfl
  · rw [List.dropLast_concat_getLast, hk.sum]
  · rw [List.dropLast_concat_getLast]
  · intro i c w hc hw
    have hi : i < n.arity := by
      have := (List.getElem?_eq_some_iff.mp hc).1
      rw [hk.children] at this; exact this
    rw [List.getElem?_dropLast] at hw
    split at hw
    · exact hh.weighed hn (by simp) hc hw
    · cases hw

/-- The weight of a node as last set is the one reported and used in totals (up to the sign of a zero), and setting it
changes no other weight, no bias and no link. -/
theorem C68_set_weight {ops : FloatOps} {f f' : Forest} (hg : GrownForest ops f) {h fuel : Nat} {w : F64}
    (hs : f.setWeight ops fuel h w = some (.ok f')) :
    (∃ v, f'.getWeight h = .ok v ∧ SameNumber v w) ∧ (∀ k, k ≠ h → f'.getWeight k = f.getWeight k) ∧
    (∀ k, f'.getBias k = f.getBias k) ∧ (∀ k, f'.getParent k = f.getParent k) ∧
    (∀ k i, f'.getChild k i = f.getChild k i) := by
  have hh := Forest.grown_healthy hg
  have hlive : ∃ n, f.node h = some n := by
    unfold Forest.setWeight at hs
    split at hs
    · cases hs
    · rename_i n hn; exact ⟨n, hn⟩
  obtain ⟨n, hn⟩ := hlive
  have hw : F64.lt w F64.zero = false := by
    simp only [Forest.setWeight, hn] at hs
    split at hs
    · cases hs
    · rename_i hx; simpa using hx
  obtain ⟨d, g, h1, hh', hr⟩ := Forest.setWeight_ok hh hn hw
  have : f' = g := by
    have := Forest.step_det (op := .setWeight h w) hs (h1 (d + 1) (by omega))
    exact Out.ok.inj this
  subst this
  have hsk : ∀ k, (∃ a b, f.node k = some a ∧ f'.node k = some b ∧ Forest.skel b = Forest.skel a) ∨
      (f.node k = none ∧ f'.node k = none) := by
    intro k
    cases ha : f.node k with
    | some a => obtain ⟨b, hb, he⟩ := hr.skel.node ha; exact .inl ⟨a, b, rfl, hb, he⟩
    | none =>
      cases hb : f'.node k with
      | none => exact .inr ⟨rfl, rfl⟩
      | some b => obtain ⟨a, ha', -⟩ := hr.skel.symm.node hb; rw [ha] at ha'; cases ha'
  refine ⟨?_, ?_, ?_, ?_, ?_⟩
  · obtain ⟨b, hb, he⟩ := hr.skel.node hn
    obtain ⟨v, h2, h3⟩ := hr.self hn hb rfl
    refine ⟨v, ?_, h3⟩
    simp [Forest.getWeight, hb, (Forest.skel_eq he).1, List.getD_eq_getElem?_getD, h2]
  · intro k hk
    rcases hsk k with ⟨a, b, ha, hb, he⟩ | ⟨ha, hb⟩
    · have := hr.own hk ha hb
      simp only [Forest.getWeight, ha, hb, (Forest.skel_eq he).1, List.getD_eq_getElem?_getD, this]
    · simp only [Forest.getWeight, ha, hb]
  · intro k
    rcases hsk k with ⟨a, b, ha, hb, he⟩ | ⟨ha, hb⟩
    · simp only [Forest.getBias, ha, hb, (Forest.skel_eq he).2.2.1]
    · simp only [Forest.getBias, ha, hb]
  · intro k
    rcases hsk k with ⟨a, b, ha, hb, he⟩ | ⟨ha, hb⟩
    · simp only [Forest.getParent, ha, hb, (Forest.skel_eq he).2.2.2.2]
    · simp only [Forest.getParent, ha, hb]
  · intro k i
    rcases hsk k with ⟨a, b, ha, hb, he⟩ | ⟨ha, hb⟩
    · simp only [Forest.getChild, ha, hb, (Forest.skel_eq he).1, (Forest.skel_eq he).2.1]
    · simp only [Forest.getChild, ha, hb]

/-- What a call that returns successfully leaves. -/
def exAfter (r : Option (Out Forest)) : Forest :=
  match r with
  | some (.ok f) => f
  | _ => []

example : (exTree.setWeight ieee 9 1 dTwo).isSome ∧ (exAfter (exTree.setWeight ieee 9 1 dTwo)).getWeight 1 = .ok dTwo ∧
    ((exAfter (exTree.setWeight ieee 9 1 dTwo)).node 0).map (·.sum) = some 0x4012000000000000#64 := by decide +kernel

/-- The bias of a node as last set is the one reported and used in totals (up to the sign of a zero), and setting it
changes no other bias, no own weight and no link. -/
theorem C68_set_bias {ops : FloatOps} {f f' : Forest} (hg : GrownForest ops f) {h fuel : Nat} {b : F64}
    (hs : f.setBias ops fuel h b = some (.ok f')) :
    (∃ v, f'.getBias h = .ok v ∧ SameNumber v b) ∧ (∀ k, k ≠ h → f'.getBias k = f.getBias k) ∧
    (∀ k, f'.getWeight k = f.getWeight k) ∧ (∀ k, f'.getParent k = f.getParent k) ∧
    (∀ k i, f'.getChild k i = f.getChild k i) := by
  have hh := Forest.grown_healthy hg
  have hlive : ∃ n, f.node h = some n := by
    unfold Forest.setBias at hs
    split at hs
    · cases hs
    · rename_i n hn; exact ⟨n, hn⟩
  obtain ⟨n, hn⟩ := hlive
  have hb : F64.lt b F64.zero = false := by
    simp only [Forest.setBias, hn] at hs
    split at hs
    · cases hs
    · rename_i hx; simpa using hx
  obtain ⟨d, g, h1, hh', hr⟩ := Forest.setBias_ok hh hn hb
  have : f' = g := by
    have := Forest.step_det (op := .setBias h b) hs (h1 (d + 1) (by omega))
    exact Out.ok.inj this
  subst this
  obtain ⟨m, hm, hsk, hw, hbias⟩ := hr.self hn
  have hcase : ∀ k, k ≠ h → (∃ x y, f.node k = some x ∧ f'.node k = some y ∧ Forest.skel y = Forest.skel x ∧
      y.weights[x.arity]? = x.weights[x.arity]?) ∨ (f.node k = none ∧ f'.node k = none) := by
    intro k hk
    cases ha : f.node k with
    | some a => obtain ⟨c, hc, he, he'⟩ := hr.other hk ha; exact .inl ⟨a, c, rfl, hc, he, he'⟩
    | none => exact .inr ⟨rfl, hr.dead ha⟩
  have e1 := Forest.skel_eq hsk
  refine ⟨⟨m.bias, by simp [Forest.getBias, hm], hbias⟩, ?_, ?_, ?_, ?_⟩
  · intro k hk
    rcases hcase k hk with ⟨a, c, ha, hc, he, -⟩ | ⟨ha, hc⟩
    · simp only [Forest.getBias, ha, hc, (Forest.skel_eq he).2.2.1]
    · simp only [Forest.getBias, ha, hc]
  · intro k
    by_cases hk : k = h
    · subst hk
      simp only [Forest.getWeight, hn, hm, e1.1, List.getD_eq_getElem?_getD, hw]
    · rcases hcase k hk with ⟨a, c, ha, hc, he, he'⟩ | ⟨ha, hc⟩
      · simp only [Forest.getWeight, ha, hc, (Forest.skel_eq he).1, List.getD_eq_getElem?_getD, he']
      · simp only [Forest.getWeight, ha, hc]
  · intro k
    by_cases hk : k = h
    · subst hk
      simp only [Forest.getParent, hn, hm, e1.2.2.2.2]
    · rcases hcase k hk with ⟨a, c, ha, hc, he, he'⟩ | ⟨ha, hc⟩
      · simp only [Forest.getParent, ha, hc, (Forest.skel_eq he).2.2.2.2]
      · simp only [Forest.getParent, ha, hc]
  · intro k i
    by_cases hk : k = h
    · subst hk
      simp only [Forest.getChild, hn, hm, e1.1, e1.2.1]
    · rcases hcase k hk with ⟨a, c, ha, hc, he, he'⟩ | ⟨ha, hc⟩
      · simp only [Forest.getChild, ha, hc, (Forest.skel_eq he).1, (Forest.skel_eq he).2.1]
      · simp only [Forest.getChild, ha, hc]

example : (exTree.setBias ieee 9 2 dTwo).isSome ∧ (exAfter (exTree.setBias ieee 9 2 dTwo)).getBias 2 = .ok dTwo ∧
    ((exAfter (exTree.setBias ieee 9 2 dTwo)).node 1).map (·.sum) = some 0x401c000000000000#64 := by decide +kernel

/-- Attaching a node sets its parent and the child of the parent, and changes no weight, no bias and no other link. -/
theorem C68_attach {ops : FloatOps} {f f' : Forest} (hg : GrownForest ops f) {h i c fuel : Nat} (hf : ¬ Above f c h)
    (hs : f.setChild ops fuel h i c = some (.ok f')) :
    f'.getChild h i = .ok (some c) ∧ f'.getParent c = .ok (some (h, i)) ∧
    (∀ k, f'.getWeight k = f.getWeight k) ∧ (∀ k, f'.getBias k = f.getBias k) ∧
    (∀ k, k ≠ c → f'.getParent k = f.getParent k) ∧
    (∀ k j, (k, j) ≠ (h, i) → f'.getChild k j = f.getChild k j) := by
  have hh := Forest.grown_healthy hg
  obtain ⟨n, m, hn, hm, hi, hp⟩ := Forest.setChild_inv hh hs
  have hne : h ≠ c := by rintro rfl; exact hf .self
  have hil : i < n.children.length := (List.getElem?_eq_some_iff.mp hi).1
  obtain ⟨d, g, h1, hh', hr⟩ := Forest.setChild_ok hh hn hm hi hp hf
  have : f' = g := by
    have := Forest.step_det (op := .setChild h i c) hs (h1 (d + 1) (by omega))
    exact Out.ok.inj this
  subst this
  have hnode := Forest.node_link (i := i) hn hm hne
  have hsk : ∀ k, (∃ a b, (f.link h i c).node k = some a ∧ f'.node k = some b ∧ Forest.skel b = Forest.skel a ∧
      b.weights[a.arity]? = a.weights[a.arity]?) ∨ ((f.link h i c).node k = none ∧ f'.node k = none) := by
    intro k
    cases ha : (f.link h i c).node k with
    | some a =>
      obtain ⟨b, hb, he⟩ := hr.skel.node ha
      refine .inl ⟨a, b, rfl, hb, he, ?_⟩
      by_cases hk : k = h
      · subst hk
        refine hr.other ha hb ?_
        rw [hnode, if_pos rfl] at ha
        cases ha
        have := (hh.ok hn).children
        show i ≠ n.arity
        omega
      · exact hr.own hk ha hb
    | none =>
      cases hb : f'.node k with
      | none => exact .inr ⟨rfl, rfl⟩
      | some b => obtain ⟨a, ha', -⟩ := hr.skel.symm.node hb; rw [ha] at ha'; cases ha'
  have hlen : (∀ k, f'.getWeight k = (f.link h i c).getWeight k) ∧ (∀ k, f'.getBias k = (f.link h i c).getBias k) ∧
      (∀ k, f'.getParent k = (f.link h i c).getParent k) ∧
      (∀ k j, f'.getChild k j = (f.link h i c).getChild k j) := by
    refine ⟨fun k => ?_, fun k => ?_, fun k => ?_, fun k j => ?_⟩
    · rcases hsk k with ⟨a, b, ha, hb, he, hw⟩ | ⟨ha, hb⟩
      · simp only [Forest.getWeight, ha, hb, (Forest.skel_eq he).1, List.getD_eq_getElem?_getD, hw]
      · simp only [Forest.getWeight, ha, hb]
    · rcases hsk k with ⟨a, b, ha, hb, he, hw⟩ | ⟨ha, hb⟩
      · simp only [Forest.getBias, ha, hb, (Forest.skel_eq he).2.2.1]
      · simp only [Forest.getBias, ha, hb]
    · rcases hsk k with ⟨a, b, ha, hb, he, hw⟩ | ⟨ha, hb⟩
      · simp only [Forest.getParent, ha, hb, (Forest.skel_eq he).2.2.2.2]
      · simp only [Forest.getParent, ha, hb]
    · rcases hsk k with ⟨a, b, ha, hb, he, hw⟩ | ⟨ha, hb⟩
      · simp only [Forest.getChild, ha, hb, (Forest.skel_eq he).1, (Forest.skel_eq he).2.1]
      · simp only [Forest.getChild, ha, hb]
  obtain ⟨q1, q2, q3, q4⟩ := hlen
  have hia : ¬ n.arity ≤ i := by have := (hh.ok hn).children; omega
  refine ⟨?_, ?_, fun k => ?_, fun k => ?_, fun k hk => ?_, fun k j hkj => ?_⟩
  · rw [q4]
    simp [Forest.getChild, hnode, hia, List.getD_eq_getElem?_getD, hil]
  · rw [q3]
    simp [Forest.getParent, hnode, Ne.symm hne]
  · rw [q1]
    simp only [Forest.getWeight, hnode]
    by_cases hkh : k = h
    · subst hkh; simp [hn]
    · by_cases hkc : k = c
      · subst hkc; simp [hkh, hm]
      · simp [hkh, hkc]
  · rw [q2]
    simp only [Forest.getBias, hnode]
    by_cases hkh : k = h
    · subst hkh; simp [hn]
    · by_cases hkc : k = c
      · subst hkc; simp [hkh, hm]
      · simp [hkh, hkc]
  · rw [q3]
    simp only [Forest.getParent, hnode]
    by_cases hkh : k = h
    · subst hkh; simp [hn]
    · simp [hkh, hk]
  · rw [q4]
    simp only [Forest.getChild, hnode]
    by_cases hkh : k = h
    · subst hkh
      have hj : j ≠ i := by rintro rfl; exact hkj rfl
      simp [hn, List.getD_eq_getElem?_getD, List.getElem?_set_ne (Ne.symm hj)]
    · by_cases hkc : k = c
      · subst hkc; simp [hkh, hm]
      · simp [hkh, hkc]

/-- The sampling areas of a node with a positive total are those of its weights; in any case they start at 0.0 and end at
1.0 and there is one for each slot and one for the node itself. -/
theorem C68_areas {ops : FloatOps} {f : Forest} (hg : GrownForest ops f) {h : Nat} {n : TreeNode}
    (hn : f.node h = some n) :
    (F64.lt F64.zero n.sum = true → n.areas = normalizeAreas ops n.weights (ops.div F64.one n.sum)) ∧
    n.areas.length = n.arity + 2 ∧ n.areas[0]? = some F64.zero ∧ n.areas[n.arity + 1]? = some F64.one := by
  have hk := (Forest.grown_healthy hg).ok hn
  exact ⟨hk.areas, hk.len, hk.first, hk.last⟩

/-- A fourth node is attached below the root; its total replaces the weight 1 of the free slot. -/
example : let g := exGrow (.setChild 0 1 3 :: .setWeight 3 dThree :: .create 0 (.int 4#64) :: exTreeOps)
    g.getChild 0 1 = .ok (some 3) ∧ g.getParent 3 = .ok (some (0, 1)) ∧
    (g.node 0).map (·.weights) = some [dTwo, dThree, F64.one] := by decide +kernel

/-! ## C69: the position of a node leads back to it -/

/-- For every node there are a root `r` above it and a position `p` such that, whatever the buffer, the position reported
is `p`, following `p` from `r` reaches the node, and the values reported for the node are those found along `p`. -/
theorem C69_leads_back {ops : FloatOps} {f : Forest} (hg : GrownForest ops f) {h : Nat} {n : TreeNode}
    (hn : f.node h = some n) :
    ∃ r p d vs, f.getParent r = .ok none ∧ Above f r h ∧ Leads f r p h ∧ f.nodeAt r p = .ok h ∧
      (∀ fuel room, d < fuel → f.getPosition fuel h (some room) =
        if room < p.length then some (.err .invalidValue)
        else some (.ok (p ++ List.replicate (room - p.length) 0, p.length))) ∧
      (∀ fuel, d < fuel → f.getPosition fuel h none = some (.ok ([], p.length))) ∧
      vs.length = p.length + 1 ∧
      (∀ fuel room, d < fuel → p.length + 1 ≤ room →
        f.getValues fuel h (some room) = some (.ok (vs ++ List.replicate (room - (p.length + 1)) .none, p.length + 1)) ∧
        f.valuesAt r p room = .ok (vs ++ List.replicate (room - (p.length + 1)) .none)) := by
  have hh := Forest.grown_healthy hg
  obtain ⟨d, hd⟩ := hh.linked.rooted hn
  obtain ⟨r, ns, h1, h2, h3, h4, h5, ⟨nr, h6, h7⟩, h8⟩ := Forest.upwards_spec hh hd
  have hlen : ((ns.drop 1).map (·.index)).length = ns.length - 1 := by simp
  refine ⟨r, (ns.drop 1).map (·.index), d, ns.map (·.value), h3, h4, h5, ?_, ?_, ?_, ?_, ?_⟩
  · simp only [Forest.nodeAt, h6]; exact Forest.leads_walk h5
  · intro fuel room hf
    simp only [Forest.getPosition, h1 fuel hf, hlen]
  · intro fuel hf
    simp only [Forest.getPosition, h1 fuel hf, hlen]
  · rw [hlen, List.length_map]; omega
  · intro fuel room hf hroom
    rw [hlen] at hroom ⊢
    have e : ns.length - 1 + 1 = ns.length := by omega
    rw [e] at hroom ⊢
    constructor
    · simp only [Forest.getValues, h1 fuel hf]
      rw [if_neg (by omega)]
    · simp only [Forest.valuesAt, h6, hlen, e]
      rw [refute_false (by omega), Out.bind_ok, h8, Out.bind_ok]
      cases ns with
      | nil => cases h7
      | cons x xs => cases h7; rfl

/-- The deepest node of the example: position (0, 0) below node 0, with its values. -/
example : exTree.getPosition 9 2 (some 3) = some (.ok ([0, 0, 0], 2)) ∧ exTree.nodeAt 0 [0, 0] = .ok 2 ∧
    exTree.getValues 9 2 (some 3) = some (.ok ([.int 1#64, .int 2#64, .int 3#64], 3)) ∧
    exTree.valuesAt 0 [0, 0] 3 = .ok [.int 1#64, .int 2#64, .int 3#64] := by decide +kernel

/-- Distinct nodes below the same root have distinct positions. -/
theorem C69_distinct {f : Forest} {r p a b : _} (ha : Leads f r p a) (hb : Leads f r p b) : a = b := by
  have h1 := Forest.leads_walk ha
  rw [Forest.leads_walk hb] at h1
  exact (Out.ok.inj h1).symm

/-- A node below a root has one position only: any position that leads to it is the one reported. -/
theorem C69_unique {ops : FloatOps} {f : Forest} (hg : GrownForest ops f) {r h : Nat} {p : List Nat}
    (hr : f.getParent r = .ok none) (hl : Leads f r p h) :
    ∃ d, ∀ fuel, d < fuel → f.getPosition fuel h (some p.length) = some (.ok (p, p.length)) := by
  have hh := Forest.grown_healthy hg
  have hrn : ∃ n, f.node r = some n ∧ n.parent = none := by
    unfold Forest.getParent at hr
    split at hr
    · cases hr
    · rename_i n hn
      exact ⟨n, hn, by simpa using hr⟩
  obtain ⟨nr, hnr, hpr⟩ := hrn
  obtain ⟨ms, h1, h2, h3⟩ := Forest.leads_upwards hh hl (ns := [nr]) (d := 0) (by
    intro fuel hf
    obtain ⟨k, rfl⟩ : ∃ k, fuel = k + 1 := ⟨fuel - 1, by omega⟩
    simp only [Forest.upwards, hnr, hpr])
  refine ⟨p.length, fun fuel hf => ?_⟩
  simp only [Forest.getPosition, h3 fuel (by omega)]
  simp [h1, h2]

example : Leads exTree 0 [0, 0] 2 := .down (c := 1) (by decide +kernel) (.down (c := 2) (by decide +kernel) .here)

/-! ## C70: a position reported valid designates a node -/

/-- A position along which every child exists is reported valid, and node and values are found. -/
theorem C70_node_valid {ops : FloatOps} {f : Forest} (hg : GrownForest ops f) {r h : Nat} {p : List Nat} {n : TreeNode}
    (hr : f.node r = some n) (hl : Leads f r p h) :
    f.positionIsValid r p = .ok true ∧ f.nodeAt r p = .ok h ∧
    ∃ vs, f.valuesAt r p (p.length + 1) = .ok vs ∧ vs.length = p.length + 1 := by
  have hh := Forest.grown_healthy hg
  have hw := Forest.leads_walk hl
  obtain ⟨vs, h1, h2⟩ := Forest.walkValues_ok (fun hc => Forest.child_live hh hc) hw
  refine ⟨?_, by simp only [Forest.nodeAt, hr]; exact hw, n.value :: vs, ?_, by simp [h2]⟩
  · simp only [Forest.positionIsValid, hr]
    rcases Forest.valid_cases hh (p := p) hr with h | ⟨-, h, -⟩ | ⟨-, h | h⟩
    · exact h.1
    all_goals rw [hw] at h; cases h
  · simp only [Forest.valuesAt, hr]
    rw [refute_false (by omega), Out.bind_ok, h1, Out.bind_ok]
    simp

/-- A position reported invalid designates nothing: asking for its node or values is refused, whatever the buffer. -/
theorem C70_invalid_refused {ops : FloatOps} {f : Forest} (hg : GrownForest ops f) {r : Nat} {p : List Nat} {n : TreeNode}
    (hr : f.node r = some n) (hv : f.positionIsValid r p = .ok false) :
    (∀ h, ¬ Leads f r p h) ∧ (∃ e, f.nodeAt r p = .err e) ∧ ∀ room, ∃ e, f.valuesAt r p room = .err e := by
  have hh := Forest.grown_healthy hg
  simp only [Forest.positionIsValid, hr] at hv
  have hw : ∃ e, f.walk r p = .err e := by
    rcases Forest.valid_cases hh (p := p) hr with h | ⟨h, -⟩ | ⟨-, h | h⟩
    · rw [hv] at h; cases h.1
    · rw [hv] at h; cases h
    · exact ⟨_, h⟩
    · exact ⟨_, h⟩
  obtain ⟨e, hw⟩ := hw
  refine ⟨fun h hl => ?_, ⟨e, by simp only [Forest.nodeAt, hr]; exact hw⟩, fun room => ?_⟩
  · rw [Forest.leads_walk hl] at hw; cases hw
  · by_cases hroom : room < p.length + 1
    · exact ⟨.invalidValue, by simp only [Forest.valuesAt, hr]; rw [refute_true hroom]; rfl⟩
    · refine ⟨e, ?_⟩
      simp only [Forest.valuesAt, hr]
      rw [refute_false hroom, Out.bind_ok, Forest.walkValues_err (fun hc => Forest.child_live hh hc) hw]
      rfl

/-- A position reported valid designates a node whose values can be obtained, unless its last step goes to a child that
was never attached.  Missing for the full property: that exception, which is real (`C70_missing_child`). -/
theorem C70_valid_partial {ops : FloatOps} {f : Forest} (hg : GrownForest ops f) {r : Nat} {p : List Nat} {n : TreeNode}
    (hr : f.node r = some n) (hv : f.positionIsValid r p = .ok true) :
    (∃ h, f.nodeAt r p = .ok h ∧ Leads f r p h ∧
      ∃ vs, f.valuesAt r p (p.length + 1) = .ok vs ∧ vs.length = p.length + 1) ∨
    ∃ pre i q, p = pre ++ [i] ∧ Leads f r pre q ∧ f.getChild q i = .ok none := by
  have hh := Forest.grown_healthy hg
  simp only [Forest.positionIsValid, hr] at hv
  rcases Forest.valid_cases hh (p := p) hr with ⟨-, x, h⟩ | ⟨-, -, h⟩ | ⟨h, -⟩
  · obtain ⟨vs, h1, h2⟩ := Forest.walkValues_ok (fun hc => Forest.child_live hh hc) h
    refine .inl ⟨x, by simp only [Forest.nodeAt, hr]; exact h, Forest.walk_leads h, n.value :: vs, ?_, by simp [h2]⟩
    simp only [Forest.valuesAt, hr]
    rw [refute_false (by omega), Out.bind_ok, h1, Out.bind_ok]
    simp
  · exact .inr h
  · rw [hv] at h; cases h

/-- The property fails whenever the last child of a position is missing: the position is reported valid, but asking for
its node or its values is refused. -/
theorem C70_missing_child {ops : FloatOps} {f : Forest} (hg : GrownForest ops f) {r q i : Nat} {p : List Nat} {n : TreeNode}
    (hr : f.node r = some n) (hl : Leads f r p q) (hc : f.getChild q i = .ok none) :
    f.positionIsValid r (p ++ [i]) = .ok true ∧ f.nodeAt r (p ++ [i]) = .err .invalidTree ∧
    ∀ room, p.length + 2 ≤ room → f.valuesAt r (p ++ [i]) room = .err .invalidTree := by
  have hh := Forest.grown_healthy hg
  have key : ∀ {r : Nat} {n : TreeNode}, f.node r = some n → Leads f r p q →
      f.validLoop (some r) (p ++ [i]) = .ok true ∧ f.walk r (p ++ [i]) = .err .invalidTree := by
    clear hr hl n r
    intro r n hr hl
    induction hl generalizing n with
    | here =>
      obtain ⟨m, hm, h1, h2⟩ := Forest.getChild_ok hc
      constructor
      · simp only [List.nil_append, Forest.validLoop, hm]
        rw [if_neg (by omega)]
      · simp [Forest.walk, Forest.stepDown, hc]
    | @down r j c p h hc' _ ih =>
      obtain ⟨m, hm, h1, h2⟩ := Forest.getChild_ok hc'
      obtain ⟨m', hm'⟩ := Forest.child_live hh hc'
      obtain ⟨h3, h4⟩ := ih hc hm'
      constructor
      · simp only [List.cons_append, Forest.validLoop, hm]
        rw [if_neg (by omega), h2, h3]
      · simp [Forest.walk, Forest.stepDown, hc', h4]
  obtain ⟨h1, h2⟩ := key hr hl
  refine ⟨by simp only [Forest.positionIsValid, hr]; exact h1, by simp only [Forest.nodeAt, hr]; exact h2, ?_⟩
  intro room hroom
  simp only [Forest.valuesAt, hr]
  rw [refute_false (by simp; omega), Out.bind_ok, Forest.walkValues_err (fun hc => Forest.child_live hh hc) h2]
  rfl

/-- Slot 1 of the root of the example is free. -/
example : Leads exTree 0 [] 0 ∧ exTree.getChild 0 1 = .ok none ∧ exTree.positionIsValid 0 [1] = .ok true ∧
    exTree.nodeAt 0 [1] = .err .invalidTree ∧ exTree.positionIsValid 0 [1, 0] = .ok false ∧
    exTree.positionIsValid 0 [2] = .ok false := ⟨.here, by decide +kernel⟩

/-! ## C71: attaching keeps the nodes a forest, and every operation ends -/

/-- No node met on the way up from the parent of a node is that node: after any history of calls that attach no node
below itself, no node is its own ancestor.  Missing for the full property: the library does not refuse the other
attachments (`C71_cycle`, `C71_endless`). -/
theorem C71_forest_partial {ops : FloatOps} {f : Forest} (hg : GrownForest ops f) {h p i : Nat}
    (hp : f.getParent h = .ok (some (p, i))) : ¬ Above f h p := by
  have hh := Forest.grown_healthy hg
  intro ha
  obtain ⟨n, hn, hnp, -⟩ := Forest.getParent_ok hp
  obtain ⟨d, hd⟩ := hh.linked.rooted hn
  cases hd with
  | root h1 h2 => rw [hn] at h1; cases h1; rw [hnp] at h2; cases h2
  | step h1 h2 h3 =>
    have h4 := h3
    rw [hn] at h1; cases h1; rw [hnp] at h2; cases h2
    obtain ⟨e, h5, h6⟩ := Forest.depth_above h3 ha
    have := h5.unique (.step hn hnp h4)
    omega

/-- Every call that attaches no node below itself returns, as do position and values of every node.  Missing for the
full property: the other attachments (`C71_endless`). -/
theorem C71_terminates_partial {ops : FloatOps} {f : Forest} (hg : GrownForest ops f) :
    (∀ op, Fair f op → ∃ fuel r, f.step ops fuel op = some r) ∧
    (∀ h n, f.node h = some n → ∀ room, ∃ fuel r, f.getPosition fuel h room = some r ∧ r ≠ .ub) ∧
    (∀ h n, f.node h = some n → ∀ room, ∃ fuel r, f.getValues fuel h room = some r ∧ r ≠ .ub) := by
  have hh := Forest.grown_healthy hg
  refine ⟨fun op hf => ?_, fun h n hn room => ?_, fun h n hn room => ?_⟩
  · obtain ⟨d, r, h1, -⟩ := Forest.step_total hh hf
    exact ⟨d + 1, r, h1 _ (by omega)⟩
  · obtain ⟨d, hd⟩ := hh.linked.rooted hn
    obtain ⟨r, ns, h1, -⟩ := Forest.upwards_spec hh hd
    refine ⟨d + 1, ?_⟩
    simp only [Forest.getPosition, h1 (d + 1) (by omega)]
    cases room with
    | none => exact ⟨_, rfl, by simp⟩
    | some k =>
      dsimp only
      split
      · exact ⟨_, rfl, by simp⟩
      · exact ⟨_, rfl, by simp⟩
  · obtain ⟨d, hd⟩ := hh.linked.rooted hn
    obtain ⟨r, ns, h1, -⟩ := Forest.upwards_spec hh hd
    refine ⟨d + 1, ?_⟩
    simp only [Forest.getValues, h1 (d + 1) (by omega)]
    cases room with
    | none => exact ⟨_, rfl, by simp⟩
    | some k =>
      dsimp only
      split
      · exact ⟨_, rfl, by simp⟩
      · exact ⟨_, rfl, by simp⟩

/-- Fair calls on live nodes never touch memory they do not own. -/
theorem C71_no_ub {ops : FloatOps} {f : Forest} (hg : GrownForest ops f) {op : Forest.Op} (hf : Fair f op)
    (hlive : match op with
      | .create _ _ => True
      | .setChild h _ c => (f.node h).isSome ∧ (f.node c).isSome
      | .setWeight h _ => (f.node h).isSome
      | .setBias h _ => (f.node h).isSome
      | .destroy h => (f.node h).isSome) (fuel : Nat) : f.step ops fuel op ≠ some .ub := by
  have hh := Forest.grown_healthy hg
  intro hu
  have hdet : ∀ {d r}, (∀ fuel, d < fuel → f.step ops fuel op = some r) → r = .ub := fun h =>
    Forest.step_det (h _ (Nat.lt_succ_self _)) hu
  cases op with
  | create a v =>
    simp only [Forest.step, Forest.create] at hu
    by_cases h1 : 4 < v.tag
    · rw [refute_true h1] at hu; cases hu
    · rw [refute_false h1, Out.bind_ok] at hu
      by_cases h2 : 2 ^ 63 - 2 < a
      · rw [refute_true h2] at hu; cases hu
      · rw [refute_false h2, Out.bind_ok] at hu
        by_cases h3 : v = .str none
        · rw [refute_true h3] at hu; cases hu
        · rw [refute_false h3, Out.bind_ok] at hu; cases hu
  | destroy h =>
    obtain ⟨n, hn⟩ := Option.isSome_iff_exists.mp hlive
    simp [Forest.step, Forest.destroy, hn] at hu
  | setWeight h w =>
    obtain ⟨n, hn⟩ := Option.isSome_iff_exists.mp hlive
    by_cases hw : F64.lt w F64.zero = true
    · simp [Forest.step, Forest.setWeight, hn, hw] at hu
    · obtain ⟨d, g, h1, -⟩ := Forest.setWeight_ok hh hn (by simpa using hw)
      cases hdet h1
  | setBias h w =>
    obtain ⟨n, hn⟩ := Option.isSome_iff_exists.mp hlive
    by_cases hw : F64.lt w F64.zero = true
    · simp [Forest.step, Forest.setBias, hn, hw] at hu
    · obtain ⟨d, g, h1, -⟩ := Forest.setBias_ok hh hn (by simpa using hw)
      cases hdet h1
  | setChild h i c =>
    obtain ⟨⟨n, hn⟩, m, hm⟩ := And.imp Option.isSome_iff_exists.mp Option.isSome_iff_exists.mp hlive
    by_cases h1 : n.arity ≤ i
    · simp [Forest.step, Forest.setChild, hn, hm, h1] at hu
    · by_cases h2 : (n.children.getD i none).isSome = true
      · simp only [Forest.step, Forest.setChild, hn, hm, if_neg h1, if_pos h2] at hu; cases hu
      · by_cases h3 : (m.parent.isSome || m.index != 0) = true
        · simp only [Forest.step, Forest.setChild, hn, hm, if_neg h1, if_neg h2, if_pos h3] at hu; cases hu
        · have hp : m.parent = none := by
            cases hp : m.parent with
            | none => rfl
            | some p => rw [hp] at h3; simp at h3
          obtain ⟨d, g, h4, -⟩ := Forest.setChild_ok hh hn hm
            (Forest.getD_none (by rw [(hh.ok hn).children]; omega) h2) hp hf
          cases hdet h4

example : GrownForest ieee exTree ∧ exTree.getParent 2 = .ok (some (1, 0)) ∧ Fair exTree (.setWeight 0 dTwo) ∧
    (exTree.node 0).isSome := ⟨exTree_grown, by decide +kernel, trivial, by decide +kernel⟩

/-- The library accepts to attach a root `c` to a free slot of a node `t` below it (or of `c` itself) when the biased total
of `c` is 1.0: then `c` is its own ancestor, and neither the position nor the values of `t` are ever returned. -/
theorem C71_cycle {ops : FloatOps} {f : Forest} (hg : GrownForest ops f) {t i c : Nat} {m : TreeNode}
    (hm : f.node c = some m) (hroot : f.getParent c = .ok none) (ht : ∃ n, f.node t = some n)
    (hab : Above f c t) (hfree : f.getChild t i = .ok none) (hone : F64.feq (ops.mul m.sum m.bias) F64.one = true) :
    ∃ f', (∀ fuel, f.setChild ops fuel t i c = some (.ok f')) ∧
      f'.getParent c = .ok (some (t, i)) ∧ Above f' c t ∧
      ∀ fuel room, f'.getPosition fuel t room = none ∧ f'.getValues fuel t room = none := by
  have hh := Forest.grown_healthy hg
  obtain ⟨n, hn⟩ := ht
  obtain ⟨n', hn', hi, hfr⟩ := Forest.getChild_ok hfree
  rw [hn] at hn'; cases hn'
  have hp : m.parent = none := by
    simp only [Forest.getParent, hm, Out.ok.injEq, Option.map_eq_none_iff] at hroot; exact hroot
  obtain ⟨n'', h1, h2, h3⟩ := Forest.link_target hn hm (i := i)
  have hslot : n.weights.getD i F64.zero = F64.one := by
    have hl : i < n.weights.length := by rw [(hh.ok hn).weights]; omega
    have := hh.weighed hn (i := i) (by simp) (Forest.getD_eq_none (by rw [(hh.ok hn).children]; omega) hfr)
      (List.getElem?_eq_getElem hl)
    rw [List.getD_eq_getElem?_getD, List.getElem?_eq_getElem hl]
    exact this
  refine ⟨f.link t i c, fun fuel => ?_, ?_, ?_, fun fuel room => ?_⟩
  · simp only [Forest.setChild, hn, hm]
    rw [if_neg (by omega), hfr]
    simp only [Option.isSome_none, Bool.false_eq_true, if_false, hp, hh.linked.zero hm hp]
    simp only [Bool.or_self, bne_self_eq_false, Bool.false_eq_true, if_false]
    simp only [Forest.updateWeight, h1, h2, h3]
    rw [if_neg (by omega), hslot, if_pos hone]
  · exact Forest.link_parent hn hm
  · exact Forest.above_link hn hm hab
  · have := Forest.upwards_endless (S := Forest.Between f c t)
      (fun x hx => Forest.between_parent (i := i) hn hm hab hx) fuel (x := t) ⟨.self, hab⟩
    simp [Forest.getPosition, Forest.getValues, this]

/-- Otherwise the call that attaches a root below itself never returns. -/
theorem C71_endless {ops : FloatOps} {f : Forest} (hg : GrownForest ops f) {t i c : Nat} {m : TreeNode}
    (hm : f.node c = some m) (hroot : f.getParent c = .ok none) (ht : ∃ n, f.node t = some n)
    (hab : Above f c t) (hfree : f.getChild t i = .ok none) (hone : F64.feq (ops.mul m.sum m.bias) F64.one = false) :
    ∀ fuel, f.setChild ops fuel t i c = none := by
  intro fuel
  have hh := Forest.grown_healthy hg
  obtain ⟨n, hn⟩ := ht
  obtain ⟨n', hn', hi, hfr⟩ := Forest.getChild_ok hfree
  rw [hn] at hn'; cases hn'
  have hp : m.parent = none := by
    simp only [Forest.getParent, hm, Out.ok.injEq, Option.map_eq_none_iff] at hroot; exact hroot
  obtain ⟨n'', h1, h2, h3⟩ := Forest.link_target hn hm (i := i)
  have hslot : n.weights.getD i F64.zero = F64.one := by
    have hl : i < n.weights.length := by rw [(hh.ok hn).weights]; omega
    have := hh.weighed hn (i := i) (by simp) (Forest.getD_eq_none (by rw [(hh.ok hn).children]; omega) hfr)
      (List.getElem?_eq_getElem hl)
    rw [List.getD_eq_getElem?_getD, List.getElem?_eq_getElem hl]
    exact this
  simp only [Forest.setChild, hn, hm]
  rw [if_neg (by omega), hfr]
  simp only [Option.isSome_none, Bool.false_eq_true, if_false, hp, hh.linked.zero hm hp]
  simp only [Bool.or_self, bne_self_eq_false, Bool.false_eq_true, if_false]
  simp only [Forest.updateWeight, h1, h2, h3]
  rw [if_neg (by omega), hslot, if_neg (by simp [hone])]
  exact Forest.updateLoop_endless (g := f.link t i c) (S := Forest.Between f c t)
    (fun x hx => Forest.between_parent (i := i) hn hm hab hx) fuel (fun _ => rfl) ⟨.self, hab⟩

/-- A root of arity 1 with bias 1/2: its total is 2, its biased total 1.0. -/
def exCycle : Forest := exGrow [.setBias 0 dHalf, .create 1 (.int 1#64)]

example : GrownForest ieee exCycle := exGrow_step (exGrow_step .empty trivial) trivial

example : exCycle.getParent 0 = .ok none ∧ exCycle.getChild 0 0 = .ok none ∧
    (exCycle.node 0).map (fun m => F64.feq (ieee.mul m.sum m.bias) F64.one) = some true ∧
    (exAfter (exCycle.setChild ieee 9 0 0 0)).getParent 0 = .ok (some (0, 0)) ∧
    (exAfter (exCycle.setChild ieee 9 0 0 0)).getPosition 100 0 none = none := by decide +kernel

/-- With the default bias the total is 2. -/
example : (exGrow [.create 1 (.int 1#64)]).getChild 0 0 = .ok none ∧
    ((exGrow [.create 1 (.int 1#64)]).node 0).map (fun m => F64.feq (ieee.mul m.sum m.bias) F64.one) = some false ∧
    (exGrow [.create 1 (.int 1#64)]).setChild ieee 100 0 0 0 = none := by decide +kernel

end CCS.Props
