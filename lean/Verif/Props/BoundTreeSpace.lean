import Verif.Lemmas.Interval
import Verif.Lemmas.TreeGrowth
import Verif.Props.BoundTree
import Verif.Props.TreeSpace
import Verif.Spec.BoundTreeSpace

/-!
# Tree spaces and tree configurations used from Python and Ruby

Property C159.
-/

namespace CCS.Props.BoundTreeSpace

open CCS CCS.Spec CCS.BoundInterval CCS.BoundTree CCS.BoundTree.Spec CCS.BoundTreeSpace CCS.BoundTreeSpace.Spec

/-! ## Positions given and taken back -/

theorem position_ok (c : TreeConfig) : BoundTreeSpace.position c = .ok (c.position.map BitVec.toNat) := by
  simp only [BoundTreeSpace.position, TreeConfig.getPosition, Out.bind_ok, List.length_replicate, Nat.lt_irrefl, if_false]
  simp

theorem toNat_ofNat_map {p : List Nat} (hp : ∀ i ∈ p, i < 2 ^ 64) : (p.map (BitVec.ofNat 64)).map BitVec.toNat = p := by
  rw [List.map_map]
  conv => rhs; rw [← List.map_id p]
  refine List.map_congr_left fun i hi => ?_
  have := hp i hi
  simp only [Function.comp_apply, BitVec.toNat_ofNat, id_eq]
  omega

/-- Any list of numbers that fit in 64 bits makes a configuration, whether or not the tree has such a position; the position it reports is the list given,
and the configuration belongs to the space. -/
theorem C159_create {α : Type} (lang : Lang) (s : Place) {p : List Nat} (hp : ∀ i ∈ p, i < 2 ^ 64) :
    ∃ c : Conf α, BoundTreeSpace.create lang s (ints p) = .ok c ∧ BoundTreeSpace.position c.config = .ok p ∧ c.config.space = s.handle ∧
      c.keptValues = none ∧ c.keptNode = none := by
  refine ⟨⟨⟨s.handle, p.map (BitVec.ofNat 64)⟩, none, none⟩, ?_, ?_, rfl, rfl, rfl⟩
  · simp only [BoundTreeSpace.create, BoundTree.positionGiven_nat lang hp, Out.bind_ok]
  · rw [position_ok]
    exact congrArg Out.ok (toNat_ofNat_map hp)

theorem toNat_injective : ∀ {l m : List (BitVec 64)}, l.map BitVec.toNat = m.map BitVec.toNat → l = m
  | [], [], _ => rfl
  | [], _ :: _, h => by simp at h
  | _ :: _, [], h => by simp at h
  | a :: l, b :: m, h => by
    simp only [List.map_cons, List.cons.injEq] at h
    rw [BitVec.eq_of_toNat_eq h.1, toNat_injective h.2]

/-- Two configurations at different addresses compare equal exactly when they have the same space and report the same position. -/
theorem C159_equal {pa pb : BitVec 64} (hp : pa ≠ pb) (a b : TreeConfig) :
    TreeConfig.cmp pa pb a b = 0 ↔ a.space = b.space ∧ BoundTreeSpace.position a = BoundTreeSpace.position b := by
  rw [position_ok, position_ok]
  simp only [TreeConfig.cmp, if_neg hp]
  by_cases h1 : TreeConfig.cmp3 a.space.toNat b.space.toNat = 0
  · rw [if_neg (by simpa using h1)]
    have hs := BitVec.eq_of_toNat_eq (cmp3_zero.1 h1)
    by_cases h2 : TreeConfig.cmp3 a.position.length b.position.length = 0
    · rw [if_neg (by simpa using h2), cmpLoop_zero _ _ (cmp3_zero.1 h2)]
      exact ⟨fun h => ⟨hs, by rw [h]⟩, fun h => toNat_injective (Out.ok.inj h.2)⟩
    · rw [if_pos h2]
      refine ⟨fun h => absurd h h2, fun h => absurd ?_ h2⟩
      have := congrArg List.length (Out.ok.inj h.2)
      simp only [List.length_map] at this
      rw [this]
      exact cmp3_zero.2 rfl
  · rw [if_pos h1]
    exact ⟨fun h => absurd h h1, fun h => absurd (by rw [h.1]; exact cmp3_zero.2 rfl) h1⟩

theorem positionGiven_wraps (p : List Int) (ks : List Int) (h : ks.length = p.length) :
    positionGiven .python (List.zipWith (fun i k => i + k * 2 ^ 64) p ks) = positionGiven .python p := by
  induction p generalizing ks with
  | nil => cases ks <;> rfl
  | cons i p ih =>
    cases ks with
    | nil => simp at h
    | cons k ks =>
      have hi : sizeGiven .python (i + k * 2 ^ 64) = sizeGiven .python i := by
        simp only [sizeGiven]
        congr 2
        apply BitVec.eq_of_toInt_eq
        rw [BitVec.toInt_ofInt, BitVec.toInt_ofInt]
        exact Int.add_mul_bmod_self_right ..
      simp only [List.zipWith_cons_cons, positionGiven, hi, ih ks (by simpa using h)]

/-- The property fails from Python: the numbers of a position count modulo 2^64, so that the configuration made is at another position than the one given,
which Ruby refuses. -/
theorem C159_python_wraps {α : Type} (s : Place) (p ks : List Int) (h : ks.length = p.length) :
    (BoundTreeSpace.create .python s (List.zipWith (fun i k => i + k * 2 ^ 64) p ks) : Out (Conf α)) = BoundTreeSpace.create .python s p ∧
    ∀ i : Int, 2 ^ 64 ≤ i → (BoundTreeSpace.create .ruby s (i :: p) : Out (Conf α)) = .err .external := by
  refine ⟨by simp only [BoundTreeSpace.create, positionGiven_wraps p ks h], fun i hi => ?_⟩
  have : sizeGiven .ruby i = .err .external := if_neg (fun hh => by omega)
  simp only [BoundTreeSpace.create, positionGiven, this]
  rfl

/-! ## Questions -/

theorem map_ints {p : List Nat} : (ints p).length = p.length := by simp [ints]

theorem bits_small (l : List (BitVec 64)) : ∀ i ∈ l.map BitVec.toNat, i < 2 ^ 64 := by
  intro i hi
  obtain ⟨b, -, rfl⟩ := List.mem_map.1 hi
  exact b.isLt

/-- The questions a configuration answers are those of its space at the position it reports: whether it is valid, its values and its node the first
time, and whether the space takes it for valid. -/
theorem C159_asks_space {α : Type} (t : Tongue α) (f : Forest) (s : Place) (c : Conf α) {p : List Nat}
    (hp : BoundTreeSpace.position c.config = .ok p) :
    BoundTreeSpace.check f s c = checkPosition t.lang f s (ints p) ∧
    (c.config.space = s.handle → checkConfiguration f s c = checkPosition t.lang f s (ints p)) ∧
    (c.keptValues = none → (BoundTreeSpace.values t f s c).2 = BoundTreeSpace.valuesAt t f s (ints p)) ∧
    (c.keptNode = none → (BoundTreeSpace.node f s c).2 = BoundTreeSpace.nodeAt t.lang f s (ints p)) := by
  rw [position_ok] at hp
  cases hp
  have hg := BoundTree.positionGiven_nat t.lang (bits_small c.config.position)
  refine ⟨?_, fun hs => ?_, fun hv => ?_, fun hn => ?_⟩
  · simp only [BoundTreeSpace.check, checkPosition, hg, Out.bind_ok]
  · simp only [checkConfiguration, TreeConfig.checkIn, checkPosition, hg, Out.bind_ok]
    rw [refute_false (by simpa using hs), Out.bind_ok]
  · simp only [BoundTreeSpace.values, hv, BoundTreeSpace.valuesAt, hg, Out.bind_ok, map_ints, List.length_map]
    cases (Forest.valuesAt f s.root (c.config.position.map BitVec.toNat) (c.config.position.length + 1)) with
    | ub => rfl
    | err e => rfl
    | ok vs =>
      simp only [Out.bind_ok]
      cases takeAll t vs <;> rfl
  · simp only [BoundTreeSpace.node, hn, BoundTreeSpace.nodeAt, hg, Out.bind_ok]
    cases Forest.nodeAt f s.root (c.config.position.map BitVec.toNat) <;> rfl

/-- A configuration of another space is refused, not judged. -/
theorem C159_other_space {α : Type} (f : Forest) (s : Place) (c : Conf α) (h : c.config.space ≠ s.handle) :
    checkConfiguration f s c = .err .invalidConfiguration := by
  simp only [checkConfiguration, TreeConfig.checkIn]
  rw [refute_true h]
  rfl

/-! ## Answers that are kept -/

section
variable {ops : FloatOps} {f g : Forest} (hg : GrownForest ops f) {s : Place}
include hg

theorem later_grown (hl : Later ops s f g) : GrownForest ops g := by
  induction hl with
  | now => exact hg
  | step _ hf _ hs ih => exact .step ih hf hs

theorem later_nodeAt (hl : Later ops s f g) {p : List Nat} {q : Nat} (h : f.nodeAt s.root p = .ok q) : g.nodeAt s.root p = .ok q := by
  induction hl with
  | now => exact h
  | step hl hf hd hs ih =>
    have hh := Forest.grown_healthy (later_grown hg hl)
    rename_i g1 g2 op fuel
    cases hn : g1.node s.root with
    | none => simp only [Forest.nodeAt, hn] at ih; cases ih
    | some n =>
      simp only [Forest.nodeAt, hn] at ih
      obtain ⟨n', h1, -⟩ := Forest.step_stays hh hf hs hn hd
      simp only [Forest.nodeAt, h1]
      exact Forest.walk_stays hh hf hs hd ih

theorem later_valuesAt (hl : Later ops s f g) {p : List Nat} {room : Nat} {vs : List Value} (h : f.valuesAt s.root p room = .ok vs) :
    g.valuesAt s.root p room = .ok vs := by
  induction hl with
  | now => exact h
  | step hl hf hd hs ih =>
    have hh := Forest.grown_healthy (later_grown hg hl)
    rename_i g1 g2 op fuel
    cases hn : g1.node s.root with
    | none => simp only [Forest.valuesAt, hn] at ih; cases ih
    | some n =>
      simp only [Forest.valuesAt, hn] at ih
      obtain ⟨n', h1, h2⟩ := Forest.step_stays hh hf hs hn hd
      simp only [Forest.valuesAt, h1, h2.value]
      by_cases hr : room < p.length + 1
      · rw [refute_true hr] at ih; cases ih
      · rw [refute_false hr, Out.bind_ok] at ih ⊢
        cases hw : g1.walkValues s.root p with
        | ub => rw [hw] at ih; cases ih
        | err e => rw [hw] at ih; cases ih
        | ok ws =>
          rw [hw] at ih
          rw [Forest.walkValues_stays hh hf hs hd hw]
          exact ih

theorem later_valid (hl : Later ops s f g) {p : List Nat} (h : f.positionIsValid s.root p = .ok true) :
    g.positionIsValid s.root p = .ok true := by
  induction hl with
  | now => exact h
  | step hl hf hd hs ih =>
    have hh := Forest.grown_healthy (later_grown hg hl)
    rename_i g1 g2 op fuel
    cases hn : g1.node s.root with
    | none => simp only [Forest.positionIsValid, hn] at ih; cases ih
    | some n =>
      simp only [Forest.positionIsValid, hn] at ih
      obtain ⟨n', h1, -⟩ := Forest.step_stays hh hf hs hn hd
      simp only [Forest.positionIsValid, h1]
      exact Forest.validLoop_stays hh hf hs (by intro h he; cases he; exact hd) ih _ (fun _ h => h) (fun h => nomatch h)

end

/-- Whatever is done to trees afterwards, what a space answers at a position it goes on answering: the node, the values, and that the position is
valid. -/
theorem C159_answers_stay {ops : FloatOps} {α : Type} (t : Tongue α) {f g : Forest} (hg : GrownForest ops f) {s : Place}
    (hl : Later ops s f g) (p : List Int) :
    (∀ h, BoundTreeSpace.nodeAt t.lang f s p = .ok h → BoundTreeSpace.nodeAt t.lang g s p = .ok h) ∧
    (∀ xs, BoundTreeSpace.valuesAt t f s p = .ok xs → BoundTreeSpace.valuesAt t g s p = .ok xs) ∧
    (checkPosition t.lang f s p = .ok true → checkPosition t.lang g s p = .ok true) := by
  cases hq : positionGiven t.lang p with
  | ub => simp only [BoundTreeSpace.nodeAt, BoundTreeSpace.valuesAt, checkPosition, hq]; exact ⟨fun _ h => h, fun _ h => h, fun h => h⟩
  | err e => simp only [BoundTreeSpace.nodeAt, BoundTreeSpace.valuesAt, checkPosition, hq]; exact ⟨fun _ h => h, fun _ h => h, fun h => h⟩
  | ok q =>
    simp only [BoundTreeSpace.nodeAt, BoundTreeSpace.valuesAt, checkPosition, hq, Out.bind_ok]
    refine ⟨fun h hh => later_nodeAt hg hl hh, fun xs hx => ?_, fun h => later_valid hg hl h⟩
    cases hv : f.valuesAt s.root q (p.length + 1) with
    | ub => rw [hv] at hx; cases hx
    | err e => rw [hv] at hx; cases hx
    | ok vs => rw [later_valuesAt hg hl hv]; rw [hv] at hx; exact hx

/-- What is known of an object after any life. -/
structure Fresh {α : Type} (ops : FloatOps) (t : Tongue α) (s : Place) (c : TreeConfig) (f : Forest) (o : Conf α) : Prop where
  grown : GrownForest ops f
  config : o.config = c
  values : ∀ xs, o.keptValues = some xs →
    ∃ vs, f.valuesAt s.root (c.position.map BitVec.toNat) (c.position.length + 1) = .ok vs ∧ takeAll t vs = .ok xs
  node : ∀ h, o.keptNode = some h → f.nodeAt s.root (c.position.map BitVec.toNat) = .ok h

theorem lived_fresh {α : Type} {ops : FloatOps} {t : Tongue α} {s : Place} {c : TreeConfig} {f : Forest} {o : Conf α}
    (hl : Lived ops t s c f o) : Fresh ops t s c f o := by
  induction hl with
  | made hg => exact ⟨hg, rfl, (fun _ h => nomatch h), (fun _ h => nomatch h)⟩
  | grow _ hf hd hs ih =>
    have hlater := Later.step (.now (ops := ops) (s := s)) hf hd hs
    refine ⟨.step ih.grown hf hs, ih.config, fun xs hx => ?_, fun h hn => later_nodeAt ih.grown hlater (ih.node h hn)⟩
    obtain ⟨vs, h1, h2⟩ := ih.values xs hx
    exact ⟨vs, later_valuesAt ih.grown hlater h1, h2⟩
  | @values f o _ ih =>
    simp only [BoundTreeSpace.values]
    split
    · exact ih
    · split
      · rename_i xs hx
        refine ⟨ih.grown, ih.config, fun ys hy => ?_, ih.node⟩
        obtain rfl := Option.some.inj hy
        rw [ih.config] at hx
        cases hv : f.valuesAt s.root (c.position.map BitVec.toNat) (c.position.length + 1) with
        | ub => rw [hv] at hx; cases hx
        | err e => rw [hv] at hx; cases hx
        | ok vs => rw [hv] at hx; exact ⟨vs, rfl, hx⟩
      · exact ih
  | @node f o _ ih =>
    simp only [BoundTreeSpace.node]
    split
    · exact ih
    · split
      · rename_i h hx
        refine ⟨ih.grown, ih.config, ih.values, fun k hk => ?_⟩
        obtain rfl := Option.some.inj hk
        rw [ih.config] at hx
        exact hx
      · exact ih

/-- The answers a configuration keeps are never out of date: whatever was done to trees and asked before, its values and its node are what its space
answers now at its position. -/
theorem C159_kept {α : Type} {ops : FloatOps} {t : Tongue α} {s : Place} {c : TreeConfig} {f : Forest} {o : Conf α}
    (hl : Lived ops t s c f o) {p : List Nat} (hp : BoundTreeSpace.position c = .ok p) :
    (BoundTreeSpace.values t f s o).2 = BoundTreeSpace.valuesAt t f s (ints p) ∧
    (BoundTreeSpace.node f s o).2 = BoundTreeSpace.nodeAt t.lang f s (ints p) ∧
    BoundTreeSpace.check f s o = checkPosition t.lang f s (ints p) := by
  have hf := lived_fresh hl
  have hp' : BoundTreeSpace.position o.config = .ok p := by rw [hf.config]; exact hp
  obtain ⟨h1, -, h2, h3⟩ := C159_asks_space t f s o hp'
  rw [position_ok] at hp
  cases hp
  have hgiven := BoundTree.positionGiven_nat t.lang (bits_small c.position)
  refine ⟨?_, ?_, h1⟩
  · cases hv : o.keptValues with
    | none => exact h2 hv
    | some xs =>
      obtain ⟨vs, h4, h5⟩ := hf.values xs hv
      simp only [BoundTreeSpace.values, hv, BoundTreeSpace.valuesAt, hgiven, Out.bind_ok, map_ints, List.length_map, h4, h5]
  · cases hn : o.keptNode with
    | none => exact h3 hn
    | some h =>
      simp only [BoundTreeSpace.node, hn, BoundTreeSpace.nodeAt, hgiven, Out.bind_ok, hf.node h hn]

/-- What holds of a configuration of a dynamic space at any moment. -/
structure DynFresh {α : Type} (ops : FloatOps) (t : Tongue α) (c : TreeConfig) (d : DynTree) (o : Conf α) : Prop where
  healthy : Forest.Healthy ops d.forest
  live : ∃ n, d.forest.node d.root = some n
  config : o.config = c
  values : ∀ xs, o.keptValues = some xs → ∃ v ws, d.forest.getValue d.root = .ok v ∧ Forest.Met d.forest d.root (c.position.map BitVec.toNat) ws ∧
    takeAll t (v :: ws) = .ok xs
  node : ∀ h, o.keptNode = some h → Leads d.forest d.root (c.position.map BitVec.toNat) h

theorem dynFresh_grows {α : Type} {ops : FloatOps} {t : Tongue α} {c : TreeConfig} {d d' : DynTree} {o : Conf α} (h : DynFresh ops t c d o)
    (hg : DynTree.Grows ops d d') : DynFresh ops t c d' o := by
  refine ⟨hg.healthy, hg.live h.live, h.config, fun xs hx => ?_, fun k hk => ?_⟩
  · obtain ⟨v, ws, h1, h2, h3⟩ := h.values xs hx
    exact ⟨v, ws, by rw [hg.root]; exact hg.keeps.getValue h1, by rw [hg.root]; exact hg.keeps.met h2, h3⟩
  · rw [hg.root]
    exact hg.keeps.leads (h.node k hk)

theorem dynValuesAt_grows {ops : FloatOps} {cb : List Nat → Out Sprout} {fuel : Nat} {d d' : DynTree} {c : TreeConfig} {r : Out (List Value)}
    (hh : Forest.Healthy ops d.forest) (hn : ∃ n, d.forest.node d.root = some n)
    (hx : d.valuesAt ops cb fuel (c.position.map BitVec.toNat) (c.position.length + 1) = some (d', r)) :
    DynTree.Grows ops d d' ∧ ∀ vs, r = .ok vs → ∃ v ws, d'.forest.getValue d'.root = .ok v ∧
      Forest.Met d'.forest d'.root (c.position.map BitVec.toNat) ws ∧ vs = v :: ws := by
  obtain ⟨h1, h2⟩ := DynTree.valuesAt_grows hh hn hx
  refine ⟨h1, fun vs hv => ?_⟩
  obtain ⟨-, v, ws, h3, h4, h5⟩ := h2 vs hv
  refine ⟨v, ws, by rw [h1.root]; exact h3, by rw [h1.root]; exact h4, ?_⟩
  simpa using h5

theorem dynLived_fresh {α : Type} {ops : FloatOps} {t : Tongue α} {c : TreeConfig} {d : DynTree} {o : Conf α} (hl : DynLived ops t c d o) :
    DynFresh ops t c d o := by
  induction hl with
  | made hg hn => exact ⟨Forest.grown_healthy hg, ⟨_, hn⟩, rfl, (fun _ h => nomatch h), (fun _ h => nomatch h)⟩
  | asked _ ha ih => exact dynFresh_grows ih (DynTree.asked_grows ih.healthy ih.live ha)
  | @values d d' o o' cb fuel r _ hx ih =>
    unfold dynValues at hx
    cases hk : o.keptValues with
    | some xs =>
      rw [hk] at hx
      cases hx
      exact ih
    | none =>
      rw [hk, ih.config] at hx
      obtain ⟨⟨d1, r1⟩, h1, h2⟩ := Option.map_eq_some_iff.1 hx
      obtain ⟨hg, hv⟩ := dynValuesAt_grows ih.healthy ih.live h1
      have hf := dynFresh_grows ih hg
      dsimp only at h2
      cases h3 : (r1 >>= takeAll t) with
      | ok xs =>
        rw [h3] at h2
        cases h2
        refine ⟨hf.healthy, hf.live, rfl, fun ys hy => ?_, hf.node⟩
        obtain rfl := Option.some.inj hy
        cases r1 with
        | ok vs =>
          obtain ⟨v, ws, a1, a2, rfl⟩ := hv vs rfl
          exact ⟨v, ws, a1, a2, h3⟩
        | err e => cases h3
        | ub => cases h3
      | err e => rw [h3] at h2; cases h2; exact hf
      | ub => rw [h3] at h2; cases h2; exact hf
  | @node d d' o o' cb fuel r _ hx ih =>
    unfold dynNode at hx
    cases hk : o.keptNode with
    | some xs =>
      rw [hk] at hx
      cases hx
      exact ih
    | none =>
      rw [hk, ih.config] at hx
      obtain ⟨⟨d1, r1⟩, h1, h2⟩ := Option.map_eq_some_iff.1 hx
      obtain ⟨hg, hv⟩ := DynTree.nodeAt_grows ih.healthy ih.live h1
      have hf := dynFresh_grows ih hg
      dsimp only at h2
      cases r1 with
      | ok k =>
        cases h2
        refine ⟨hf.healthy, hf.live, rfl, hf.values, fun h hh => ?_⟩
        obtain rfl := Option.some.inj hh
        rw [hg.root]
        exact hv k rfl
      | err e => cases h2; exact hf
      | ub => cases h2; exact hf

/-- So it is with configurations of dynamic spaces, even when the callback changes its mind: one that was asked before answers, and leaves the space, as
a new configuration of the same position does; what it kept is had without a call of the callback. -/
theorem C159_dynamic_kept {α : Type} {ops : FloatOps} {t : Tongue α} {c : TreeConfig} {d : DynTree} {o : Conf α} (hl : DynLived ops t c d o)
    (cb : List Nat → Out Sprout) (fuel : Nat) :
    (dynValues t ops cb fuel d o).map (fun x => (x.1, x.2.2)) = (dynValues t ops cb fuel d ⟨c, none, none⟩).map (fun x => (x.1, x.2.2)) ∧
    (dynNode ops cb fuel d o).map (fun x => (x.1, x.2.2)) = (dynNode (α := α) ops cb fuel d ⟨c, none, none⟩).map (fun x => (x.1, x.2.2)) ∧
    (∀ xs, o.keptValues = some xs → (dynValues t ops cb fuel d ⟨c, none, none⟩).map (fun x => (x.1, x.2.2)) = some (d, .ok xs)) ∧
    (∀ h, o.keptNode = some h → (dynNode (α := α) ops cb fuel d ⟨c, none, none⟩).map (fun x => (x.1, x.2.2)) = some (d, .ok h)) := by
  have hf := dynLived_fresh hl
  have hv : ∀ xs, o.keptValues = some xs → (dynValues t ops cb fuel d ⟨c, none, none⟩).map (fun x => (x.1, x.2.2)) = some (d, .ok xs) := by
    intro xs hx
    obtain ⟨v, ws, h1, h2, h3⟩ := hf.values xs hx
    have h4 : d.valuesAt ops cb fuel (c.position.map BitVec.toNat) (c.position.length + 1) = some (d, .ok (v :: ws)) := by
      unfold DynTree.valuesAt
      rw [if_neg (by simp), h1]
      simp only [DynTree.walkValues_there ops cb fuel h2 []]
      simp
    simp only [dynValues, h4, Option.map_some, Out.bind_ok, h3]
  have hn : ∀ h, o.keptNode = some h → (dynNode (α := α) ops cb fuel d ⟨c, none, none⟩).map (fun x => (x.1, x.2.2)) = some (d, .ok h) := by
    intro h hh
    have h4 : d.nodeAt ops cb fuel (c.position.map BitVec.toNat) = some (d, .ok h) := DynTree.walk_there ops cb fuel (hf.node h hh) []
    simp only [dynNode, h4, Option.map_some]
  refine ⟨?_, ?_, hv, hn⟩
  · cases hk : o.keptValues with
    | some xs => rw [hv xs hk]; simp only [dynValues, hk, Option.map_some]
    | none =>
      simp only [dynValues, hk, hf.config]
      cases d.valuesAt ops cb fuel (c.position.map BitVec.toNat) (c.position.length + 1) with
      | none => rfl
      | some x =>
        simp only [Option.map_some]
        cases x.2 >>= takeAll t <;> rfl
  · cases hk : o.keptNode with
    | some h => rw [hn h hk]; simp only [dynNode, hk, Option.map_some]
    | none =>
      simp only [dynNode, hk, hf.config]
      cases d.nodeAt ops cb fuel (c.position.map BitVec.toNat) with
      | none => rfl
      | some x =>
        simp only [Option.map_some]
        cases x.2 <;> rfl

theorem met_taken {α : Type} {t : Tongue α} {f : Forest} {h : Nat} {p : List Nat} {ws : List Value} (hm : Forest.Met f h p ws) :
    ∀ {v : Value} {xs : List α}, f.getValue h = .ok v → takeAll t (v :: ws) = .ok xs → xs.length = p.length + 1 ∧
      ∀ k ≤ p.length, ∃ q u x, Leads f h (p.take k) q ∧ f.getValue q = .ok u ∧ t.take { v := u } = .ok x ∧ xs[k]? = some x := by
  induction hm with
  | here =>
    intro v xs hv ht
    unfold takeAll at ht
    obtain ⟨x, h1, ht⟩ := bind_eq_ok ht
    obtain ⟨ys, h2, ht⟩ := bind_eq_ok ht
    cases h2
    cases ht
    refine ⟨rfl, fun k hk => ?_⟩
    obtain rfl : k = 0 := by simpa using hk
    exact ⟨_, v, x, .here, hv, h1, rfl⟩
  | @down h i c p w ws hc hw _ ih =>
    intro v xs hv ht
    unfold takeAll at ht
    obtain ⟨x, h1, ht⟩ := bind_eq_ok ht
    obtain ⟨ys, h2, ht⟩ := bind_eq_ok ht
    cases ht
    obtain ⟨i1, i2⟩ := ih hw h2
    refine ⟨by simp [i1], fun k hk => ?_⟩
    cases k with
    | zero => exact ⟨_, v, x, .here, hv, h1, rfl⟩
    | succ k =>
      obtain ⟨q, u, y, j1, j2, j3, j4⟩ := i2 k (by simpa using hk)
      exact ⟨q, u, y, .down hc j1, j2, j3, by simpa using j4⟩

/-- What a configuration of a dynamic space answers, asked before or not, is what is found in the tree of the space: its node is the one that the position
leads to, and its values are those of the nodes on the way, from the root on, as the language has them. -/
theorem C159_dynamic_finds {α : Type} {ops : FloatOps} {t : Tongue α} {c : TreeConfig} {d d' : DynTree} {o o' : Conf α} (hl : DynLived ops t c d o)
    {p : List Nat} (hp : BoundTreeSpace.position c = .ok p) (cb : List Nat → Out Sprout) (fuel : Nat) :
    (∀ h, dynNode ops cb fuel d o = some (d', o', .ok h) → Leads d'.forest d'.root p h) ∧
    (∀ xs, dynValues t ops cb fuel d o = some (d', o', .ok xs) → xs.length = p.length + 1 ∧
      ∀ k ≤ p.length, ∃ q u x, Leads d'.forest d'.root (p.take k) q ∧ d'.forest.getValue q = .ok u ∧ t.take { v := u } = .ok x ∧ xs[k]? = some x) := by
  rw [position_ok] at hp
  cases hp
  refine ⟨fun h hx => (dynLived_fresh (.node hl hx)).node h ?_, fun xs hx => ?_⟩
  · unfold dynNode at hx
    cases hk : o.keptNode with
    | some k => rw [hk] at hx; cases hx; exact hk
    | none =>
      rw [hk] at hx
      obtain ⟨⟨d1, r1⟩, -, hx⟩ := Option.map_eq_some_iff.1 hx
      cases r1 with
      | ok k => cases hx; rfl
      | err e => cases hx
      | ub => cases hx
  · have hk : o'.keptValues = some xs := by
      have hx' := hx
      unfold dynValues at hx'
      cases hk : o.keptValues with
      | some ys => rw [hk] at hx'; cases hx'; exact hk
      | none =>
        rw [hk] at hx'
        obtain ⟨⟨d1, r1⟩, -, hx'⟩ := Option.map_eq_some_iff.1 hx'
        dsimp only at hx'
        cases h3 : (r1 >>= takeAll t) with
        | ok ys => rw [h3] at hx'; cases hx'; rfl
        | err e => rw [h3] at hx'; cases hx'
        | ub => rw [h3] at hx'; cases hx'
    obtain ⟨v, ws, h1, h2, h3⟩ := (dynLived_fresh (.values hl hx)).values xs hk
    exact met_taken h2 h1 h3

/-- A configuration of a dynamic space was asked for its values with one callback; another callback, which gives other values, is not called for it. -/
example : ∃ d o, DynLived ieee python ⟨5, [1#64]⟩ d o ∧ o.keptValues = some [.int 9, .int 1] ∧
    (dynValues python ieee exFickle 5 exDyn ⟨⟨5, [1#64]⟩, none, none⟩).map (·.2.2) = some (.ok [.int 9, .int 7]) := by
  have h1 : (dynValues python ieee exCb 5 exDyn ⟨⟨5, [1#64]⟩, none, none⟩).map (·.2.1.keptValues) = some (some [.int 9, .int 1]) := by decide +kernel
  obtain ⟨⟨d, o, r⟩, h2, h3⟩ := Option.map_eq_some_iff.1 h1
  have h7 : (exDyn.forest.node exDyn.root).isSome = true := by decide +kernel
  obtain ⟨n, hn⟩ := Option.isSome_iff_exists.1 h7
  exact ⟨d, o, .values (.made (exGrow_step (l := []) (op := .create 2 (.int 9#64)) .empty trivial) hn) h2, h3, by decide +kernel⟩

/-- Below the root `0` there is a place for a child, node 1, that is not attached yet. -/
def exSparse : Forest := exGrow [.create 1 (.int 2#64), .create 1 (.int 1#64)]

/-- The same once the child is attached. -/
def exJoined : Forest := exGrow [.setChild 0 0 1, .create 1 (.int 2#64), .create 1 (.int 1#64)]

theorem exSparse_grown : GrownForest ieee exSparse := exGrow_step (exGrow_step .empty trivial) trivial

theorem exSparse_step : exSparse.step ieee 9 (.setChild 0 0 1) = some (.ok exJoined) := by
  have h : (match exSparse.step ieee 9 (.setChild 0 0 1) with | some (.ok f) => decide (f = exJoined) | _ => false) = true := by decide +kernel
  cases hs : exSparse.step ieee 9 (.setChild 0 0 1) with
  | none => rw [hs] at h; cases h
  | some r =>
    rw [hs] at h
    cases r with
    | ub => cases h
    | err e => cases h
    | ok g => exact congrArg (fun x => some (Out.ok x)) (of_decide_eq_true h)

theorem exSparse_fair : Fair exSparse (.setChild 0 0 1) := not_above 9 (by decide +kernel) (by decide +kernel)

theorem exJoined_later : Later ieee ⟨5, 0⟩ exSparse exJoined := .step .now exSparse_fair (by simp) exSparse_step

/-- A configuration asked for its values, in vain, before a child is attached, and twice after. -/
example : Lived ieee python ⟨5, 0⟩ ⟨5, [0#64]⟩ exJoined ⟨⟨5, [0#64]⟩, some [.int 1, .int 2], none⟩ ∧
    (BoundTreeSpace.values python exSparse ⟨5, 0⟩ ⟨⟨5, [0#64]⟩, none, none⟩).2 = .err .invalidTree ∧
    BoundTreeSpace.valuesAt python exJoined ⟨5, 0⟩ (ints [0]) = .ok [.int 1, .int 2] := by
  have h0 : (BoundTreeSpace.values python exSparse ⟨5, 0⟩ ⟨⟨5, [0#64]⟩, none, none⟩).2 = .err .invalidTree := by decide +kernel
  have h0' : (BoundTreeSpace.values python exSparse ⟨5, 0⟩ ⟨⟨5, [0#64]⟩, none, none⟩).1 = ⟨⟨5, [0#64]⟩, none, none⟩ := by decide +kernel
  have h1 : Lived ieee python ⟨5, 0⟩ ⟨5, [0#64]⟩ exSparse ⟨⟨5, [0#64]⟩, none, none⟩ := by
    have := Lived.values (Lived.made (t := python) (s := ⟨5, 0⟩) (c := ⟨5, [0#64]⟩) exSparse_grown)
    rw [h0'] at this
    exact this
  have h2 := Lived.values (Lived.grow h1 exSparse_fair (by simp) exSparse_step)
  have h3 := Lived.values h2
  have e : (BoundTreeSpace.values python exJoined ⟨5, 0⟩ (BoundTreeSpace.values python exJoined ⟨5, 0⟩ ⟨⟨5, [0#64]⟩, none, none⟩).1).1 =
    ⟨⟨5, [0#64]⟩, some [.int 1, .int 2], none⟩ := by decide +kernel
  rw [e] at h3
  exact ⟨h3, h0, by decide +kernel⟩

/-- What can change is the answer that a position is not valid, which `check` asks for each time. -/
theorem C159_check_changes : ∃ f g, GrownForest ieee f ∧ Later ieee ⟨5, 0⟩ f g ∧
    ∀ c : Conf Py.Val, c.config = ⟨5, [0#64, 0#64]⟩ → BoundTreeSpace.check f ⟨5, 0⟩ c = .ok false ∧ BoundTreeSpace.check g ⟨5, 0⟩ c = .ok true := by
  refine ⟨exSparse, exJoined, exSparse_grown, exJoined_later, fun c hc => ?_⟩
  simp only [BoundTreeSpace.check, hc]
  exact ⟨by decide +kernel, by decide +kernel⟩

/-! ## Samples -/

section
variable {guess : Int → F64 → Int} {turns fuel : Nat} {rnd : Nat → F64} {f : Forest} {s : Place}

theorem drawConfigs_ok {n : Nat} : ∀ {k : Nat} {ps : List (List Nat)}, f.samplePositions guess turns rnd fuel s.root n k = some (.ok ps) →
    drawConfigs guess turns rnd fuel f s n k = some (ps.map (fun p => ⟨s.handle, p.map (BitVec.ofNat 64)⟩), .ok ()) := by
  induction n with
  | zero => intro k ps h; simp only [Forest.samplePositions, Option.some.injEq, Out.ok.injEq] at h; subst h; rfl
  | succ n ih =>
    intro k ps h
    simp only [Forest.samplePositions] at h
    simp only [drawConfigs]
    split at h <;> try (cases h; done)
    rename_i p k' hw
    rw [hw]
    split at h <;> try (cases h; done)
    rename_i ps' hr
    cases h
    simp only [ih hr, List.map_cons]

theorem drawConfigs_err {n : Nat} : ∀ {k : Nat} {e : Err}, f.samplePositions guess turns rnd fuel s.root n k = some (.err e) →
    ∃ cs, drawConfigs guess turns rnd fuel f s n k = some (cs, .err e) := by
  induction n with
  | zero => intro k e h; simp [Forest.samplePositions] at h
  | succ n ih =>
    intro k e h
    simp only [Forest.samplePositions] at h
    simp only [drawConfigs]
    split at h <;> try (cases h; done)
    · rename_i e' hw
      cases h
      exact ⟨[], by rw [hw]⟩
    · rename_i p k' hw
      rw [hw]
      split at h <;> try (cases h; done)
      rename_i e' hr
      cases h
      obtain ⟨cs, hcs⟩ := ih hr
      exact ⟨_, by simp only [hcs]; rfl⟩

end

theorem drawConfigs_mono {guess : Int → F64 → Int} {rnd : Nat → F64} {f : Forest} {s : Place} {a b x y : Nat} (hxy : x ≤ y) (hab : a ≤ b) :
    ∀ {count k : Nat} {r : List TreeConfig × Out Unit}, drawConfigs guess a rnd x f s count k = some r →
    drawConfigs guess b rnd y f s count k = some r := by
  intro count
  induction count with
  | zero => intro k r hr; exact hr
  | succ count ih =>
    intro k r hr
    simp only [drawConfigs] at hr ⊢
    cases hw : f.sampleWalk guess a rnd x s.root k with
    | none => rw [hw] at hr; cases hr
    | some w =>
      rw [hw] at hr
      rw [Forest.sampleWalk_mono hab hw hxy]
      cases w with
      | ub => exact hr
      | err e => exact hr
      | ok w =>
        obtain ⟨p, k'⟩ := w
        simp only at hr ⊢
        cases hp : drawConfigs guess a rnd x f s count k' with
        | none => rw [hp] at hr; cases hr
        | some q => rw [hp] at hr; rw [ih hp]; exact hr

theorem valid_small {f : Forest} (hsize : ∀ h n, f.node h = some n → n.arity < 2 ^ 53) {p : List Nat} : ∀ {r : Option Nat},
    f.validLoop r p = .ok true → ∀ i ∈ p, i < 2 ^ 64 := by
  induction p with
  | nil => intro r _ i hi; cases hi
  | cons j p ih =>
    intro r h
    cases r with
    | none => simp [Forest.validLoop] at h
    | some r =>
      simp only [Forest.validLoop] at h
      split at h
      · cases h
      · rename_i n hn
        have := hsize r n hn
        split at h
        · simp at h
        · intro i hi
          rcases List.mem_cons.1 hi with rfl | hi
          · omega
          · exact ih h i hi

/-- Asking for any number of samples ends.  Either some node has a zero total, and an exception says that there is no distribution; or as many
configurations as asked for are returned, all of the space, and all of them valid.  Missing for the full property: a sample may have neither values nor
node (`C159_sample_no_node`), and what was drawn before an exception is lost (`C159_samples_loses`). -/
theorem C159_samples_partial {ops : FloatOps} {α : Type} {f : Forest} (hg : GrownForest ops f) {s : Place} {n : TreeNode}
    (hn : f.node s.root = some n) (hsize : ∀ h n, f.node h = some n → n.arity < 2 ^ 53) {rnd : Nat → F64} (hr : ∀ k, UnitDraw (rnd k))
    (count : Nat) :
    ∃ b, (∃ lost, (∃ q m, f.node q = some m ∧ F64.feq m.sum F64.zero = true) ∧ ∀ fuel turns, b ≤ fuel → b ≤ turns →
        BoundTreeSpace.samples (α := α) Ieee.guess turns rnd fuel f s count = some (lost, .err .invalidDistribution)) ∨
      (∃ cs : List (Conf α), cs.length = count ∧ (∀ c ∈ cs, c.config.space = s.handle ∧ checkConfiguration f s c = .ok true ∧
          BoundTreeSpace.check f s c = .ok true) ∧ ∀ fuel turns, b ≤ fuel → b ≤ turns →
        BoundTreeSpace.samples Ieee.guess turns rnd fuel f s count = some ([], .ok cs)) := by
  obtain ⟨b, res, h1, h2⟩ := C72_valid hg hn hsize hr count
  refine ⟨b, ?_⟩
  cases count with
  | zero => exact .inr ⟨[], rfl, (fun _ h => nomatch h), fun _ _ _ _ => rfl⟩
  | succ count =>
    have hz : ¬ ((count + 1 : Nat) : Int) = 0 := by omega
    have hneg : ¬ ((count + 1 : Nat) : Int) < 0 := by omega
    rcases h2 with ⟨rfl, hq⟩ | ⟨ps, rfl, h3, h4⟩
    · obtain ⟨cs, hcs⟩ := drawConfigs_err (s := s) (h1 b b (Nat.le_refl _) (Nat.le_refl _))
      refine .inl ⟨cs, hq, fun fuel turns hf ht => ?_⟩
      have hsame := drawConfigs_mono hf ht hcs
      simp only [BoundTreeSpace.samples, if_neg hz, if_neg hneg, Int.toNat_natCast, hsame]
    · refine .inr ⟨ps.map (fun p => ⟨⟨s.handle, p.map (BitVec.ofNat 64)⟩, none, none⟩), by rw [List.length_map]; exact h3, ?_, fun fuel turns hf ht => ?_⟩
      · intro c hc
        obtain ⟨p, hp, rfl⟩ := List.mem_map.1 hc
        have hv := h4 p hp
        have hsmall : ∀ i ∈ p, i < 2 ^ 64 := by
          simp only [Forest.positionIsValid, hn] at hv
          exact valid_small hsize hv
        have hmap := toNat_ofNat_map hsmall
        refine ⟨rfl, ?_, ?_⟩
        · simp only [checkConfiguration, TreeConfig.checkIn]
          rw [refute_false (by simp), Out.bind_ok]
          rw [show (List.map (fun x => x.toNat) (List.map (BitVec.ofNat 64) p)) = p from hmap]
          exact hv
        · simp only [BoundTreeSpace.check, hmap]
          exact hv
      · have := drawConfigs_ok (s := s) (h1 fuel turns hf ht)
        simp only [BoundTreeSpace.samples, if_neg hz, if_neg hneg, Int.toNat_natCast, this, List.map_map]
        rfl

/-- No samples asked for, none drawn; fewer than none, an exception. -/
theorem C159_samples_counts {α : Type} (guess : Int → F64 → Int) (turns : Nat) (rnd : Nat → F64) (fuel : Nat) (f : Forest) (s : Place) :
    BoundTreeSpace.samples (α := α) guess turns rnd fuel f s 0 = some ([], .ok []) ∧
    ∀ count : Int, count < 0 → BoundTreeSpace.samples (α := α) guess turns rnd fuel f s count = some ([], .err .external) := by
  refine ⟨rfl, fun count h => ?_⟩
  simp only [BoundTreeSpace.samples, if_neg (show ¬ count = 0 by omega), if_pos h]

/-- The samples are usable when no place of the tree is empty: each has a node and values, which are those met on the way to its position. -/
theorem C159_full_usable {ops : FloatOps} {α : Type} {t : Tongue α} (ht : Speaks t) {f : Forest} (hg : GrownForest ops f) {s : Place} {n : TreeNode}
    (hn : f.node s.root = some n) (hfull : ∀ p q i, Leads f s.root p q → f.getChild q i ≠ .ok none) {c : Conf α}
    (hv : BoundTreeSpace.check f s c = .ok true) (hk : c.keptValues = none ∧ c.keptNode = none) :
    ∃ p h hs xs, BoundTreeSpace.position c.config = .ok p ∧ (BoundTreeSpace.node f s c).2 = .ok h ∧
      (BoundTreeSpace.values t f s c).2 = .ok xs ∧ Along t.lang f s.root p hs ∧ hs.getLast? = some h ∧ Each (BoundTree.value t f) hs xs := by
  have key : ∀ {p : List Nat} {pre : List Nat} {r : Nat} {n : TreeNode}, Leads f s.root pre r → f.node r = some n →
      f.validLoop (some r) p = .ok true → ∃ h, Leads f r p h := by
    intro p
    induction p with
    | nil => intro pre r n _ _ _; exact ⟨r, .here⟩
    | cons i p ih =>
      intro pre r n hl hr hvalid
      simp only [Forest.validLoop, hr] at hvalid
      by_cases hi : n.arity ≤ i
      · rw [if_pos hi] at hvalid; simp at hvalid
      · rw [if_neg hi] at hvalid
        have hc : f.getChild r i = .ok (n.children.getD i none) := by simp only [Forest.getChild, hr, if_neg hi]
        cases hx : n.children.getD i none with
        | none => rw [hx] at hc; exact absurd hc (hfull _ _ _ hl)
        | some k =>
          rw [hx] at hc hvalid
          obtain ⟨m, hm⟩ := Forest.child_live (Forest.grown_healthy hg) hc
          obtain ⟨h, hh⟩ := ih (Forest.leads_append hl (.down hc .here)) hm hvalid
          exact ⟨h, .down hc hh⟩
  have hp := position_ok c.config
  obtain ⟨-, -, h2, h3⟩ := C159_asks_space t f s c hp
  simp only [BoundTreeSpace.check, Forest.positionIsValid, hn] at hv
  obtain ⟨h, hl⟩ := key .here hn hv
  obtain ⟨hsmall, hs, ha, hlast, hlen⟩ := BoundTree.leads_along hg t.lang hl
  obtain ⟨ws, xs, h5, h6, h7⟩ := BoundTree.along_values hg ht ha hsmall hn
  have hgiven := BoundTree.positionGiven_nat t.lang hsmall
  refine ⟨_, h, hs, xs, hp, ?_, ?_, ha, hlast, h7⟩
  · rw [h3 hk.2]
    simp only [BoundTreeSpace.nodeAt, hgiven, Out.bind_ok, Forest.nodeAt, hn]
    exact Forest.leads_walk hl
  · rw [h2 hk.1]
    simp only [BoundTreeSpace.valuesAt, hgiven, Out.bind_ok, Forest.valuesAt, hn, map_ints]
    rw [refute_false (by omega), Out.bind_ok, h5, Out.bind_ok, Nat.sub_self, Out.bind_ok]
    simpa using h6

/-- The tree with two leaves below its root has no empty place; from Ruby, the second leaf is a valid configuration, with its values. -/
example : GrownForest ieee exWhole ∧ (exWhole.node 0).isSome = true ∧ (∀ p q i, Leads exWhole 0 p q → exWhole.getChild q i ≠ .ok none) ∧
    BoundTreeSpace.check (α := Rb.Val) exWhole ⟨5, 0⟩ ⟨⟨5, [1#64]⟩, none, none⟩ = .ok true ∧
    (BoundTreeSpace.values ruby exWhole ⟨5, 0⟩ ⟨⟨5, [1#64]⟩, none, none⟩).2 = .ok [.int 9, .int 1] ∧
    (∀ h n, exWhole.node h = some n → n.arity < 2 ^ 53) := by
  refine ⟨exGrow_step (exGrow_step (exGrow_step (exGrow_step (exGrow_step .empty trivial) trivial) trivial) ?_) ?_, by decide +kernel, ?_,
    by decide +kernel, by decide +kernel, ?_⟩
  · exact not_above 9 (by decide +kernel) (by decide +kernel)
  · exact not_above 9 (by decide +kernel) (by decide +kernel)
  · intro p q i hl hc
    obtain ⟨n, hn, hi, hg⟩ := Forest.getChild_ok hc
    have h0 : (exWhole.node 0).map (fun n => (n.arity, n.children)) = some (2, [some 1, some 2]) := by decide +kernel
    have h1 : (exWhole.node 1).map (·.arity) = some 0 := by decide +kernel
    have h2 : (exWhole.node 2).map (·.arity) = some 0 := by decide +kernel
    rcases exWhole_leads hl with ⟨-, rfl⟩ | ⟨-, rfl⟩ | ⟨-, rfl⟩
    · rw [hn] at h0
      simp only [Option.map_some, Option.some.injEq, Prod.mk.injEq] at h0
      rw [h0.2] at hg
      rw [h0.1] at hi
      obtain rfl | rfl : i = 0 ∨ i = 1 := by omega
      · cases hg
      · cases hg
    · rw [hn] at h1; simp at h1; omega
    · rw [hn] at h2; simp at h2; omega
  · intro h n hn
    have hall : (exWhole.all fun x => match x with | some n => decide (n.arity < 3) | none => true) = true := by decide +kernel
    have := List.all_eq_true.mp hall _ (List.mem_of_getElem? (Forest.node_some.mp hn))
    have := of_decide_eq_true this
    omega

/-- The property fails: a sample may be a place where there is no child; it is said to be valid, but asking for its values or its node is an exception. -/
theorem C159_sample_no_node : ∃ f n, GrownForest ieee f ∧ f.node 0 = some n ∧ ∃ (rnd : Nat → F64) (c : Conf Py.Val), (∀ k, UnitDraw (rnd k)) ∧
    BoundTreeSpace.samples Ieee.guess 3 rnd 3 f ⟨5, 0⟩ 1 = some ([], .ok [c]) ∧ checkConfiguration f ⟨5, 0⟩ c = .ok true ∧
    (BoundTreeSpace.values python f ⟨5, 0⟩ c).2 = .err .invalidTree ∧ (BoundTreeSpace.node f ⟨5, 0⟩ c).2 = .err .invalidTree := by
  have hn : (exSparse.node 0).isSome = true := by decide +kernel
  obtain ⟨n, hn⟩ := Option.isSome_iff_exists.1 hn
  have hd : UnitDraw 0x3fd0000000000000#64 := areaHolds_of (by decide +kernel) (by decide +kernel)
  exact ⟨exSparse, n, exSparse_grown, hn, fun _ => 0x3fd0000000000000#64, ⟨⟨5, [0#64]⟩, none, none⟩,
    fun _ => hd, by decide +kernel, by decide +kernel, by decide +kernel, by decide +kernel⟩

/-- A root with a NaN weight, whose areas stay as they were, and a child whose total is zero. -/
def exHollow : Forest := exGrow [.setChild 0 0 1, .setWeight 1 F64.zero, .setWeight 0 Ieee.nan, .create 0 (.int 2#64), .create 1 (.int 1#64)]

/-- The property fails: when a draw fails, the configurations drawn before it are left to nobody. -/
theorem C159_samples_loses : GrownForest ieee exHollow ∧ ∃ rnd : Nat → F64, (∀ k, UnitDraw (rnd k)) ∧
    BoundTreeSpace.samples (α := Py.Val) Ieee.guess 3 rnd 3 exHollow ⟨5, 0⟩ 2 = some ([⟨5, []⟩], .err .invalidDistribution) := by
  refine ⟨exGrow_step (exGrow_step (exGrow_step (exGrow_step (exGrow_step .empty trivial) trivial) trivial) trivial) ?_,
    fun k => if k = 0 then 0x3fe8000000000000#64 else 0x3fd0000000000000#64, fun k => ?_, ?_⟩
  · exact not_above 9 (by decide +kernel) (by decide +kernel)
  · dsimp only
    split
    · exact areaHolds_of (by decide +kernel) (by decide +kernel)
    · exact areaHolds_of (by decide +kernel) (by decide +kernel)
  · decide +kernel

end CCS.Props.BoundTreeSpace
