import Verif.Lemmas.TreeSpace
import Verif.Lemmas.DynTree
import Verif.Lemmas.DynGrowth
import Verif.Props.Roulette

/-!
# Tree spaces

Properties C72, C73 and C82.
-/

namespace CCS.Props

open CCS CCS.Spec

/-! ## C72: tree samples are valid positions reached with a positive weight -/

/-- Sampling any tree, with any arithmetic and whatever its weights, ends: either some node has a zero total and the call
reports that there is no distribution, or as many positions are produced as asked for and all of them are valid. -/
theorem C72_valid {ops : FloatOps} {f : Forest} (hg : GrownForest ops f) {r : Nat} {n : TreeNode} (hn : f.node r = some n)
    (hsize : ∀ h n, f.node h = some n → n.arity < 2 ^ 53) {rnd : Nat → F64} (hr : ∀ k, UnitDraw (rnd k)) (count : Nat) :
    ∃ b res, (∀ fuel turns, b ≤ fuel → b ≤ turns → f.samplePositions Ieee.guess turns rnd fuel r count 0 = some res) ∧
      ((res = .err .invalidDistribution ∧ ∃ q m, f.node q = some m ∧ F64.feq m.sum F64.zero = true) ∨
       (∃ ps, res = .ok ps ∧ ps.length = count ∧ ∀ p ∈ ps, f.positionIsValid r p = .ok true)) := by
  have hh := Forest.grown_healthy hg
  obtain ⟨d, hd⟩ := hh.linked.rooted hn
  obtain ⟨b, hb⟩ := Forest.arity_bound f
  have hgood : ∀ h n k, f.node h = some n → GoodGuess Ieee.guess (n.arity + 1) (rnd k) :=
    fun h n k hn => C74_guess (by omega) (hsize h n hn) (hr k)
  rcases Forest.samplePositions_spec hh hr hgood hb hd (count := count) (k := 0) with ⟨q, m, h1, h2, h3⟩ | ⟨ps, h1, h2, h3⟩
  · exact ⟨max f.length b, _, fun fuel turns hf ht => h3 fuel turns (by omega) (by omega), .inl ⟨rfl, q, m, h1, h2⟩⟩
  · refine ⟨max f.length b, _, fun fuel turns hf ht => h3 fuel turns (by omega) (by omega), .inr ⟨ps, rfl, h1, ?_⟩⟩
    intro p hp
    obtain ⟨k, hk⟩ := h2 p hp
    simp only [Forest.positionIsValid, hn]
    exact Forest.drawn_valid hk

/-- With IEEE arithmetic, when every total is zero, or finite with a finite inverse, each step of a sampled position is a
slot whose area holds the draw and whose weight is not zero.  Missing for the full property: totals so small that
their inverse is infinite, infinite totals and NaN totals (`C72_tiny_total`, `C72_nan_weight`). -/
theorem C72_positive_partial {f : Forest} (hg : GrownForest ieee f) {r : Nat} {n : TreeNode} (hn : f.node r = some n)
    (hsize : ∀ h n, f.node h = some n → n.arity < 2 ^ 53)
    (htot : ∀ h n, f.node h = some n → F64.feq n.sum F64.zero = true ∨
      (F64.isFinite n.sum = true ∧ F64.isFinite (ieee.div F64.one n.sum) = true))
    {rnd : Nat → F64} (hr : ∀ k, UnitDraw (rnd k)) {count fuel turns : Nat} {ps : List (List Nat)}
    (hs : f.samplePositions Ieee.guess turns rnd fuel r count 0 = some (.ok ps)) :
    ∀ p ∈ ps, ∀ pre i rest, p = pre ++ i :: rest → ∃ q m k w, Leads f r pre q ∧ f.node q = some m ∧
      AreaOf m.areas i (rnd k) ∧ m.weights[i]? = some w ∧ realValue w ≠ some 0 := by
  have hh := Forest.grown_healthy hg
  obtain ⟨d, hd⟩ := hh.linked.rooted hn
  obtain ⟨b, hb⟩ := Forest.arity_bound f
  have hgood : ∀ h n k, f.node h = some n → GoodGuess Ieee.guess (n.arity + 1) (rnd k) :=
    fun h n k hn => C74_guess (by omega) (hsize h n hn) (hr k)
  have hs := Forest.samplePositions_mono (Nat.le_max_left turns b) (Nat.le_max_left fuel f.length) hs
  rcases Forest.samplePositions_spec hh hr hgood hb hd (count := count) (k := 0) with ⟨q, m, h1, h2, h3⟩ | ⟨ps', h1, h2, h3⟩
  · rw [h3 _ _ (by omega) (by omega)] at hs; cases hs
  · rw [h3 _ _ (by omega) (by omega)] at hs
    cases hs
    rintro p hp pre i rest rfl
    obtain ⟨k, hk⟩ := h2 _ hp
    obtain ⟨q, m, h4, h5, h6, h7, h8, h9⟩ := Forest.drawn_step hk
    have hk := hh.ok h5
    rcases htot q m h5 with hz | ⟨hf1, hf2⟩
    · rw [h7] at hz; cases hz
    · have hpos : F64.lt F64.zero m.sum = true := by
        have h10 := (Forest.grown_nonNeg hg h5).sum
        obtain ⟨hnum, -⟩ := IeeeLemmas.finite_num hf1
        have hv := IeeeLemmas.realValue_signed hnum
        rcases IeeeLemmas.nonNeg_iff.mp h10 with h | h
        · rw [hnum] at h; cases h
        · refine (f64_lt_iff _ _).mpr ⟨0, Ieee.signed m.sum, IeeeLemmas.realValue_zero, hv, ?_⟩
          rcases Int.lt_or_eq_of_le h with h | h
          · exact h
          · exfalso
            have : F64.feq m.sum F64.zero = true := (feq_iff _ _).mpr ⟨0, by show realValue m.sum = some 0; rw [hv, ← h], IeeeLemmas.realValue_zero⟩
            rw [h7] at this; cases this
      have ha := hk.areas hpos
      have hlen : 0 < m.weights.length := by rw [hk.weights]; omega
      rw [hk.sum] at hf1
      have hnums := IeeeLemmas.normalize_num hlen hf1 hf2
      rw [← ha] at hnums
      obtain ⟨-, -, x, -, -, hx, -⟩ := hr (k + pre.length)
      have hia : i < m.areas.length := by rw [hk.len]; omega
      have hib : i + 1 < m.areas.length := by rw [hk.len]; omega
      obtain ⟨a, hva⟩ := Option.ne_none_iff_exists'.mp (hnums m.areas[i] (List.getElem_mem hia))
      obtain ⟨b, hvb⟩ := Option.ne_none_iff_exists'.mp (hnums m.areas[i + 1] (List.getElem_mem hib))
      have harea : AreaOf m.areas i (rnd (k + pre.length)) :=
        ⟨_, _, List.getElem?_eq_getElem hia, List.getElem?_eq_getElem hib, a, b, x, hva, hvb, hx,
          not_nan_lt hx hva (h8 _ (List.getElem?_eq_getElem hia)), not_nan_le hx hvb (h9 _ (List.getElem?_eq_getElem hib))⟩
      have hiw : i < m.weights.length := by rw [hk.weights]; omega
      refine ⟨q, m, k + pre.length, m.weights[i], h4, h5, harea, List.getElem?_eq_getElem hiw, ?_⟩
      rw [ha] at harea
      exact IeeeLemmas.normalize_zero hf1 hf2 (by rw [hk.weights]; omega) harea (List.getElem?_eq_getElem hiw)

/-- Two samples of the example tree: the lowest node, then the free slot of the root. -/
example : (∀ h n, exTree.node h = some n → n.arity < 2 ^ 53) ∧
    (∀ h n, exTree.node h = some n → F64.feq n.sum F64.zero = true ∨
      (F64.isFinite n.sum = true ∧ F64.isFinite (ieee.div F64.one n.sum) = true)) ∧
    exTree.samplePositions Ieee.guess 3 (fun k => if k < 3 then 0x3fd0000000000000#64 else dHalf) 3 0 2 0 =
      some (.ok [[0, 0], [1]]) ∧ UnitDraw 0x3fd0000000000000#64 ∧ UnitDraw dHalf := by
  have key : ∀ (P : TreeNode → Bool), (exTree.all fun x => match x with | some n => P n | none => true) = true →
      ∀ h n, exTree.node h = some n → P n = true := by
    intro P hP h n hn
    have := List.all_eq_true.mp hP _ (List.mem_of_getElem? (Forest.node_some.mp hn))
    exact this
  refine ⟨?_, ?_, by decide +kernel, areaHolds_of (by decide +kernel) (by decide +kernel),
    areaHolds_of (by decide +kernel) (by decide +kernel)⟩
  · intro h n hn
    have := key (fun n => decide (n.arity < 3)) (by decide +kernel) h n hn
    have := of_decide_eq_true this
    omega
  · intro h n hn
    have := key (fun n => F64.isFinite n.sum && F64.isFinite (ieee.div F64.one n.sum)) (by decide +kernel) h n hn
    exact .inr (by simpa using this)

/-- The property fails when the total of a node is so small that its inverse is infinite: the bound of an area is NaN and a
child of weight zero is sampled. -/
def exTinyTree : Forest := exGrow [.setWeight 0 0x1#64, .setChild 0 0 1, .setBias 1 F64.zero, .create 0 (.int 2#64), .create 1 (.int 1#64)]

theorem C72_tiny_total : GrownForest ieee exTinyTree ∧
    (exTinyTree.node 0).map (·.weights) = some [F64.zero, 0x1#64] ∧
    (exTinyTree.node 0).map (·.areas) = some [F64.zero, Ieee.nan, F64.one] ∧
    exTinyTree.samplePositions Ieee.guess 3 (fun k => if k = 0 then 0x3fd0000000000000#64 else dHalf) 3 0 1 0 =
      some (.ok [[0]]) := by
  refine ⟨exGrow_step (exGrow_step (exGrow_step (exGrow_step (exGrow_step .empty
    trivial) trivial) trivial) ?_) trivial, by decide +kernel, by decide +kernel, by decide +kernel⟩
  exact not_above 9 (by decide +kernel) (by decide +kernel)

/-- It fails too when a weight is NaN, which is accepted: the areas are no longer updated, and a child attached with
weight zero is sampled. -/
def exNaNTree : Forest := exGrow [.setChild 0 0 1, .setBias 1 F64.zero, .setWeight 0 Ieee.nan, .create 0 (.int 2#64), .create 1 (.int 1#64)]

theorem C72_nan_weight : GrownForest ieee exNaNTree ∧
    (exNaNTree.node 0).map (·.weights) = some [F64.zero, Ieee.nan] ∧
    (exNaNTree.node 0).map (·.areas) = some [F64.zero, dHalf, F64.one] ∧
    exNaNTree.samplePositions Ieee.guess 3 (fun k => if k = 0 then 0x3fd0000000000000#64 else dHalf) 3 0 1 0 =
      some (.ok [[0]]) := by
  refine ⟨exGrow_step (exGrow_step (exGrow_step (exGrow_step (exGrow_step .empty
    trivial) trivial) trivial) trivial) ?_, by decide +kernel, by decide +kernel, by decide +kernel⟩
  exact not_above 9 (by decide +kernel) (by decide +kernel)

/-! ## C73: lazily built trees are indistinguishable from static ones -/

/-- A dynamic space whose callback returns, for each position, what the node of a complete tree shows there, answers any
sequence of queries as the static space over the complete tree does; and no position is passed to the callback twice. -/
theorem C73_same_answers {ops : FloatOps} {cb : List Nat → Out Sprout} {g : Forest} {gr : Nat} (hb : BuiltBy cb g gr)
    {t : DynTree} (hg : GrownForest ops t.forest) (hp : PartOf t.forest t.root g gr) (hc : t.calls = [])
    (qs : List DynTree.Query) :
    ∃ b t', (∀ fuel, b ≤ fuel → dynAnswers ops cb fuel t qs = some (qs.map (staticAnswer g gr), t')) ∧
      PartOf t'.forest t'.root g gr ∧ t'.calls.Nodup := by
  have hh := Forest.grown_healthy hg
  have ha : DynTree.Agrees ops cb g gr t := ⟨hh, hp, by rw [hc]; simp⟩
  have hk : DynTree.Kept ops cb t := ⟨hh, ha.live, ⟨by rw [hc]; simp, by rw [hc]; simp⟩⟩
  obtain ⟨b, t', h1, h2⟩ := DynTree.dynAnswers_agree hb (qs := qs) ha
  obtain ⟨b', as, t'', h3, h4⟩ := DynTree.dynAnswers_kept (qs := qs) hk
  have e1 := h2 (max b b') (by omega)
  rw [h3 (max b b') (by omega)] at e1
  cases e1
  refine ⟨b, t', h2, h1.part, ?_⟩
  rw [List.nodup_iff_count]
  intro p
  by_cases hm : p ∈ t'.calls
  · exact h4.recorded.once (h1.calls p hm)
  · rw [List.count_eq_zero.mpr hm]; exact Nat.zero_le _

/-- Whatever the callback does elsewhere, a position on which it succeeds is passed to it at most once, over any sequence of
queries, all of which end.  Missing for the full property: a position on which it fails is passed again by each query
(`C73_failed_retried`). -/
theorem C73_callback_once_partial {ops : FloatOps} {cb : List Nat → Out Sprout} {t : DynTree}
    (hg : GrownForest ops t.forest) {n : TreeNode} (hn : t.forest.node t.root = some n) (hc : t.calls = [])
    (qs : List DynTree.Query) :
    ∃ b as t', (∀ fuel, b ≤ fuel → dynAnswers ops cb fuel t qs = some (as, t')) ∧
      ∀ p, Works cb p → t'.calls.count p ≤ 1 := by
  obtain ⟨b, as, t', h1, h2⟩ := DynTree.dynAnswers_kept (qs := qs) (cb := cb)
    ⟨Forest.grown_healthy hg, ⟨n, hn⟩, ⟨by rw [hc]; simp, by rw [hc]; simp⟩⟩
  exact ⟨b, as, t', h1, fun p hw => h2.recorded.once hw⟩

/-- When the callback fails on the first child, each query of that child calls it again. -/
theorem C73_failed_retried {ops : FloatOps} {cb : List Nat → Out Sprout} {e : Err} (he : cb [0] = .err e) {t : DynTree}
    (hg : t.forest.getChild t.root 0 = .ok none) (fuel : Nat) :
    dynAnswers ops cb fuel t [.node [0], .node [0]] =
      some ([.node (.err e), .node (.err e)], { t with calls := [0] :: [0] :: t.calls }) := by
  simp [dynAnswers, DynTree.nodeAt, DynTree.walk, DynTree.getChild, hg, he]

/-- A complete tree with two leaves below its root. -/
def exWhole : Forest := exGrow [.setChild 0 1 2, .setChild 0 0 1, .create 0 (.int 1#64), .create 0 (.int 0#64),
  .create 2 (.int 9#64)]

/-- Its callback. -/
def exCb : List Nat → Out Sprout
  | [i] => .ok ⟨0, .int (BitVec.ofNat 64 i), F64.one, F64.one⟩
  | _ => .err .invalidValue

/-- The dynamic space starts with the root alone. -/
def exDyn : DynTree := ⟨exGrow [.create 2 (.int 9#64)], 0, []⟩

theorem exWhole_leads {p : List Nat} {q : Nat} (h : Leads exWhole 0 p q) :
    (p = [] ∧ q = 0) ∨ (p = [0] ∧ q = 1) ∨ (p = [1] ∧ q = 2) := by
  have leaf : ∀ c, c = 1 ∨ c = 2 → ∀ i d, exWhole.getChild c i ≠ .ok (some d) := by
    intro c hc i d hd
    obtain ⟨n, hn, hi, -⟩ := Forest.getChild_ok hd
    have h1 : (exWhole.node 1).map (·.arity) = some 0 := by decide +kernel
    have h2 : (exWhole.node 2).map (·.arity) = some 0 := by decide +kernel
    rcases hc with rfl | rfl
    · rw [hn] at h1; simp at h1; omega
    · rw [hn] at h2; simp at h2; omega
  cases h with
  | here => exact .inl ⟨rfl, rfl⟩
  | @down _ i c p _ hc hl =>
    have h1 : (exWhole.node 0).map (·.arity) = some 2 := by decide +kernel
    have hg : exWhole.getChild 0 0 = .ok (some 1) ∧ exWhole.getChild 0 1 = .ok (some 2) := by decide +kernel
    obtain ⟨n, hn, hi, -⟩ := Forest.getChild_ok hc
    rw [hn] at h1
    simp at h1
    obtain rfl | rfl : i = 0 ∨ i = 1 := by omega
    · rw [hg.1] at hc; cases hc
      cases hl with
      | here => exact .inr (.inl ⟨rfl, rfl⟩)
      | down hc' _ => exact absurd hc' (leaf _ (.inl rfl) _ _)
    · rw [hg.2] at hc; cases hc
      cases hl with
      | here => exact .inr (.inr ⟨rfl, rfl⟩)
      | down hc' _ => exact absurd hc' (leaf _ (.inr rfl) _ _)

theorem exWhole_built : BuiltBy exCb exWhole 0 := by
  constructor
  · intro p q n i hl hn hi
    rcases exWhole_leads hl with ⟨-, rfl⟩ | ⟨-, rfl⟩ | ⟨-, rfl⟩
    · have h1 : (exWhole.node 0).map (·.arity) = some 2 := by decide +kernel
      have hg : exWhole.getChild 0 0 = .ok (some 1) ∧ exWhole.getChild 0 1 = .ok (some 2) := by decide +kernel
      rw [hn] at h1
      simp at h1
      obtain rfl | rfl : i = 0 ∨ i = 1 := by omega
      · exact ⟨_, hg.1⟩
      · exact ⟨_, hg.2⟩
    · have h1 : (exWhole.node 1).map (·.arity) = some 0 := by decide +kernel
      rw [hn] at h1; simp at h1; omega
    · have h1 : (exWhole.node 2).map (·.arity) = some 0 := by decide +kernel
      rw [hn] at h1; simp at h1; omega
  · intro p q hl hp
    rcases exWhole_leads hl with ⟨rfl, rfl⟩ | ⟨rfl, rfl⟩ | ⟨rfl, rfl⟩
    · exact absurd rfl hp
    · exact ⟨_, rfl, ⟨by decide, by decide, by simp, by decide, by decide⟩, by decide +kernel, by decide +kernel,
        by decide +kernel, by decide +kernel⟩
    · exact ⟨_, rfl, ⟨by decide, by decide, by simp, by decide, by decide⟩, by decide +kernel, by decide +kernel,
        by decide +kernel, by decide +kernel⟩

theorem exDyn_part : PartOf exDyn.forest exDyn.root exWhole 0 := by
  intro p h hl
  cases hl with
  | here => exact ⟨0, ⟨2, .int 9#64, F64.one, F64.one⟩, .here,
      ⟨by decide +kernel, by decide +kernel, by decide +kernel, by decide +kernel⟩,
      ⟨by decide +kernel, by decide +kernel, by decide +kernel, by decide +kernel⟩⟩
  | @down _ i c p _ hc hl =>
    exfalso
    obtain ⟨n, hn, hi, hg⟩ := Forest.getChild_ok hc
    have h1 : (exDyn.forest.node exDyn.root).map (·.children) = some [none, none] := by decide +kernel
    rw [hn] at h1
    simp only [Option.map_some, Option.some.injEq] at h1
    rw [h1] at hg
    rcases i with - | - | i <;> cases hg

/-- The example meets the hypotheses; asking twice for the values at the second child calls the callback once. -/
example : BuiltBy exCb exWhole 0 ∧ GrownForest ieee exDyn.forest ∧ PartOf exDyn.forest exDyn.root exWhole 0 ∧
    (dynAnswers ieee exCb 5 exDyn [.values [1] 2, .valid [2], .values [1] 2]).map (·.2.calls) = some [[1]] :=
  ⟨exWhole_built, exGrow_step (l := []) (op := .create 2 (.int 9#64)) .empty trivial, exDyn_part, by decide +kernel⟩

/-- A node that a dynamic space has given for a position is the one it gives from then on, without calling the callback
again and without changing: whatever is asked in between, whatever those questions answer, and even if the callback no longer
does what it did. -/
theorem C73_node_stays {ops : FloatOps} {cb : List Nat → Out Sprout} {fuel : Nat} {t t1 t2 : DynTree} (hg : GrownForest ops t.forest)
    {n : TreeNode} (hn : t.forest.node t.root = some n) {p : List Nat} {h : Nat} (hx : t.nodeAt ops cb fuel p = some (t1, .ok h))
    (ha : Asked ops t1 t2) (cb' : List Nat → Out Sprout) (fuel' : Nat) : t2.nodeAt ops cb' fuel' p = some (t2, .ok h) := by
  obtain ⟨h1, h2⟩ := DynTree.nodeAt_grows (Forest.grown_healthy hg) ⟨n, hn⟩ hx
  have h3 := DynTree.asked_grows h1.healthy (h1.live ⟨n, hn⟩) ha
  refine DynTree.walk_there ops cb' fuel' ?_ []
  rw [h3.root, h1.root]
  exact h3.keeps.leads (h2 h rfl)

/-- So it is with the values at a position, -/
theorem C73_values_stay {ops : FloatOps} {cb : List Nat → Out Sprout} {fuel : Nat} {t t1 t2 : DynTree} (hg : GrownForest ops t.forest)
    {n : TreeNode} (hn : t.forest.node t.root = some n) {p : List Nat} {room : Nat} {vs : List Value}
    (hx : t.valuesAt ops cb fuel p room = some (t1, .ok vs)) (ha : Asked ops t1 t2) (cb' : List Nat → Out Sprout) (fuel' : Nat) :
    t2.valuesAt ops cb' fuel' p room = some (t2, .ok vs) := by
  obtain ⟨h1, h2⟩ := DynTree.valuesAt_grows (Forest.grown_healthy hg) ⟨n, hn⟩ hx
  have h3 := DynTree.asked_grows h1.healthy (h1.live ⟨n, hn⟩) ha
  obtain ⟨hr, v, ws, h4, h5, rfl⟩ := h2 vs rfl
  have hroot : t2.root = t.root := h3.root.trans h1.root
  unfold DynTree.valuesAt
  rw [if_neg (by omega), hroot, h3.keeps.getValue h4]
  simp only [DynTree.walkValues_there ops cb' fuel' (h3.keeps.met h5) []]

/-- and with whether a position is valid. -/
theorem C73_valid_stays {ops : FloatOps} {cb : List Nat → Out Sprout} {fuel : Nat} {t t1 t2 : DynTree} (hg : GrownForest ops t.forest)
    {n : TreeNode} (hn : t.forest.node t.root = some n) {p : List Nat} {b : Bool}
    (hx : t.positionIsValid ops cb fuel p = some (t1, .ok b)) (ha : Asked ops t1 t2) (cb' : List Nat → Out Sprout) (fuel' : Nat) :
    t2.positionIsValid ops cb' fuel' p = some (t2, .ok b) := by
  obtain ⟨h1, h2⟩ := DynTree.valid_grows (Forest.grown_healthy hg) ⟨n, hn⟩ hx
  have h3 := DynTree.asked_grows h1.healthy (h1.live ⟨n, hn⟩) ha
  refine DynTree.validLoop_there ops cb' fuel' ?_ []
  rw [h3.root, h1.root]
  exact h3.keeps.judged (h2 b rfl)

/-- A callback that changes its mind: it now fails on the first child and gives the others another value. -/
def exFickle : List Nat → Out Sprout
  | [0] => .err .invalidValue
  | _ => .ok ⟨3, .int 7#64, F64.one, F64.one⟩

/-- The value and the validity at the second child were asked with the first callback; with the other one the first child
fails, and the second answers as before. -/
example : ∃ t1 t2 t3, exDyn.valuesAt ieee exCb 5 [1] 2 = some (t1, .ok [.int 9#64, .int 1#64]) ∧ Asked ieee t1 t2 ∧
    (∃ n, exDyn.forest.node exDyn.root = some n) ∧
    t2.calls = [[0], [1]] ∧ t2.valuesAt ieee exFickle 5 [1] 2 = some (t3, .ok [.int 9#64, .int 1#64]) ∧ t3.calls = t2.calls := by
  have h1 : (exDyn.valuesAt ieee exCb 5 [1] 2).map (·.2) = some (.ok [.int 9#64, .int 1#64]) := by decide +kernel
  obtain ⟨⟨t1, r⟩, h2, h3⟩ := Option.map_eq_some_iff.1 h1
  cases h3
  have h4 : ((exDyn.valuesAt ieee exCb 5 [1] 2).bind fun x => x.1.query ieee exFickle 5 (.node [0])).map (·.calls) = some [[0], [1]] := by
    decide +kernel
  rw [h2, Option.bind_some] at h4
  obtain ⟨t2, h5, h6⟩ := Option.map_eq_some_iff.1 h4
  have h7 : (exDyn.forest.node exDyn.root).isSome = true := by decide +kernel
  obtain ⟨n, hn⟩ := Option.isSome_iff_exists.1 h7
  have ha : Asked ieee t1 t2 := .ask .none h5
  exact ⟨t1, t2, t2, h2, ha, ⟨n, hn⟩, h6, C73_values_stay (exGrow_step (l := []) (op := .create 2 (.int 9#64)) .empty trivial) hn h2 ha
    exFickle 5, rfl⟩

/-! ## C82: tree configurations compare, hash and report their position consistently -/

theorem cmp3_swap (a b : Nat) : TreeConfig.cmp3 a b = -TreeConfig.cmp3 b a := by
  unfold TreeConfig.cmp3
  repeat' split
  all_goals omega

theorem cmp3_zero {a b : Nat} : TreeConfig.cmp3 a b = 0 ↔ a = b := by
  unfold TreeConfig.cmp3
  repeat' split
  all_goals omega

theorem cmp3_neg {a b : Nat} : TreeConfig.cmp3 a b < 0 ↔ a < b := by
  unfold TreeConfig.cmp3
  repeat' split
  all_goals omega

theorem cmpLoop_swap (l : List (BitVec 64)) : ∀ m, TreeConfig.cmpLoop l m = -TreeConfig.cmpLoop m l := by
  induction l with
  | nil => intro m; cases m <;> rfl
  | cons a l ih =>
    intro m
    cases m with
    | nil => rfl
    | cons b m =>
      simp only [TreeConfig.cmpLoop]
      have := cmp3_swap a.toNat b.toNat
      by_cases h : TreeConfig.cmp3 a.toNat b.toNat = 0
      · rw [if_neg (by simpa using h), if_neg (by omega)]; exact ih m
      · rw [if_pos h, if_pos (by omega)]; exact this

theorem cmpLoop_zero (l : List (BitVec 64)) : ∀ m, l.length = m.length → (TreeConfig.cmpLoop l m = 0 ↔ l = m) := by
  induction l with
  | nil => intro m h; cases m with
    | nil => simp [TreeConfig.cmpLoop]
    | cons => cases h
  | cons a l ih =>
    intro m h
    cases m with
    | nil => cases h
    | cons b m =>
      simp only [TreeConfig.cmpLoop]
      by_cases h0 : TreeConfig.cmp3 a.toNat b.toNat = 0
      · rw [if_neg (by simpa using h0), ih m (by simpa using h), List.cons.injEq]
        have := BitVec.eq_of_toNat_eq (cmp3_zero.mp h0)
        simp [this]
      · rw [if_pos h0]
        constructor
        · intro h1; exact absurd h1 h0
        · intro h1
          cases h1
          exact absurd (cmp3_zero.mpr rfl) h0

/-- The order: first the space, then the length, then the positions in lexicographic order. -/
def TreeConfigLt (a b : TreeConfig) : Prop :=
  a.space.toNat < b.space.toNat ∨ (a.space = b.space ∧ (a.position.length < b.position.length ∨
    (a.position.length = b.position.length ∧ List.Lex (fun x y => x.toNat < y.toNat) a.position b.position)))

theorem cmpLoop_neg (l : List (BitVec 64)) : ∀ m, l.length = m.length →
    (TreeConfig.cmpLoop l m < 0 ↔ List.Lex (fun x y => x.toNat < y.toNat) l m) := by
  induction l with
  | nil => intro m h; cases m with
    | nil => simp [TreeConfig.cmpLoop]
    | cons => cases h
  | cons a l ih =>
    intro m h
    cases m with
    | nil => cases h
    | cons b m =>
      simp only [TreeConfig.cmpLoop]
      by_cases h0 : TreeConfig.cmp3 a.toNat b.toNat = 0
      · have hab := BitVec.eq_of_toNat_eq (cmp3_zero.mp h0)
        subst hab
        rw [if_neg (by simpa using h0), ih m (by simpa using h)]
        constructor
        · exact .cons
        · intro h1
          cases h1 with
          | cons h1 => exact h1
          | rel h1 => exact absurd h1 (Nat.lt_irrefl _)
      · rw [if_pos h0, cmp3_neg]
        constructor
        · intro h1; exact .rel h1
        · intro h1
          cases h1 with
          | cons h1 => exact absurd (cmp3_zero.mpr rfl) h0
          | rel h1 => exact h1

/-- Two configurations compare equal exactly when they have the same space and the same position, and the sign of the comparison is
that of the order above.  An address holds one configuration. -/
theorem C82_cmp {pa pb : BitVec 64} {a b : TreeConfig} (hp : pa = pb → a = b) :
    (TreeConfig.cmp pa pb a b = 0 ↔ a = b) ∧ (TreeConfig.cmp pa pb a b < 0 ↔ TreeConfigLt a b) ∧
    TreeConfig.cmp pb pa b a = -TreeConfig.cmp pa pb a b := by
  have irr : ∀ l : List (BitVec 64), ¬ List.Lex (fun x y => x.toNat < y.toNat) l l := by
    intro l hl
    rw [← cmpLoop_neg l l rfl, (cmpLoop_zero l l rfl).mpr rfl] at hl
    exact absurd hl (by omega)
  unfold TreeConfig.cmp
  by_cases h : pa = pb
  · have := hp h
    subst this
    simp only [h, if_true]
    refine ⟨by simp, ?_, by simp⟩
    constructor
    · intro h; omega
    · rintro (h1 | ⟨-, h1 | ⟨-, h1⟩⟩)
      · omega
      · omega
      · exact absurd h1 (irr _)
  · rw [if_neg h, if_neg (Ne.symm h)]
    have e1 := cmp3_swap a.space.toNat b.space.toNat
    have e2 := cmp3_swap a.position.length b.position.length
    have e3 := cmpLoop_swap a.position b.position
    have ext : a = b ↔ a.space = b.space ∧ a.position = b.position := by
      cases a; cases b; simp
    by_cases h1 : TreeConfig.cmp3 a.space.toNat b.space.toNat = 0
    · have hs := BitVec.eq_of_toNat_eq (cmp3_zero.mp h1)
      rw [if_neg (show ¬ TreeConfig.cmp3 a.space.toNat b.space.toNat ≠ 0 by omega),
        if_neg (show ¬ TreeConfig.cmp3 b.space.toNat a.space.toNat ≠ 0 by omega)]
      by_cases h2 : TreeConfig.cmp3 a.position.length b.position.length = 0
      · have hl := cmp3_zero.mp h2
        rw [if_neg (show ¬ TreeConfig.cmp3 a.position.length b.position.length ≠ 0 by omega),
          if_neg (show ¬ TreeConfig.cmp3 b.position.length a.position.length ≠ 0 by omega), cmpLoop_zero _ _ hl, cmpLoop_neg _ _ hl, ext]
        refine ⟨by simp [hs], ?_, by omega⟩
        unfold TreeConfigLt
        constructor
        · intro h; exact .inr ⟨hs, .inr ⟨hl, h⟩⟩
        · rintro (h3 | ⟨-, h3 | ⟨-, h3⟩⟩)
          · rw [hs] at h3; omega
          · omega
          · exact h3
      · rw [if_pos h2, if_pos (show TreeConfig.cmp3 b.position.length a.position.length ≠ 0 by omega), ext]
        refine ⟨⟨fun h => absurd h h2, fun h => absurd (cmp3_zero.mpr (by rw [h.2])) h2⟩, ?_, by omega⟩
        rw [cmp3_neg]
        unfold TreeConfigLt
        constructor
        · intro h; exact .inr ⟨hs, .inl h⟩
        · rintro (h3 | ⟨-, h3 | ⟨h3, -⟩⟩)
          · rw [hs] at h3; omega
          · exact h3
          · exact absurd (cmp3_zero.mpr h3) h2
    · rw [if_pos h1, if_pos (show TreeConfig.cmp3 b.space.toNat a.space.toNat ≠ 0 by omega), ext]
      refine ⟨⟨fun h => absurd h h1, fun h => absurd (cmp3_zero.mpr (by rw [h.1])) h1⟩, ?_, by omega⟩
      rw [cmp3_neg]
      unfold TreeConfigLt
      constructor
      · intro h; exact .inl h
      · rintro (h3 | ⟨h3, -⟩)
        · exact h3
        · exact absurd (cmp3_zero.mpr (by rw [h3])) h1

/-- The order is total: irreflexive, transitive, and any two different configurations are ordered. -/
theorem C82_order : (∀ a, ¬ TreeConfigLt a a) ∧ (∀ a b c, TreeConfigLt a b → TreeConfigLt b c → TreeConfigLt a c) ∧
    (∀ a b, a ≠ b → TreeConfigLt a b ∨ TreeConfigLt b a) := by
  have trans : ∀ {a b c : List (BitVec 64)}, List.Lex (fun x y => x.toNat < y.toNat) a b →
      List.Lex (fun x y => x.toNat < y.toNat) b c → List.Lex (fun x y => x.toNat < y.toNat) a c := by
    intro a b c h1
    induction h1 generalizing c with
    | nil => intro h2; cases h2 <;> exact .nil
    | cons _ ih =>
      intro h2
      cases h2 with
      | cons h2 => exact .cons (ih h2)
      | rel h2 => exact .rel h2
    | rel h1 =>
      intro h2
      cases h2 with
      | cons h2 => exact .rel h1
      | rel h2 => exact .rel (by omega)
  refine ⟨?_, ?_, ?_⟩
  · intro a h
    have := (C82_cmp (pa := 0#64) (pb := 0#64) (a := a) (b := a) (fun _ => rfl)).2.1.mpr h
    simp [TreeConfig.cmp] at this
  · rintro a b c (h1 | ⟨h1, h2⟩) (h3 | ⟨h3, h4⟩)
    · exact .inl (by omega)
    · exact .inl (by rw [← h3]; exact h1)
    · exact .inl (by rw [h1]; exact h3)
    · refine .inr ⟨h1.trans h3, ?_⟩
      rcases h2 with h2 | ⟨h2, h5⟩ <;> rcases h4 with h4 | ⟨h4, h6⟩
      · exact .inl (by omega)
      · exact .inl (by omega)
      · exact .inl (by omega)
      · exact .inr ⟨by omega, trans h5 h6⟩
  · intro a b hab
    obtain ⟨h1, h2, h3⟩ := C82_cmp (pa := 0#64) (pb := 1#64) (a := a) (b := b) (fun h => absurd h (by decide))
    obtain ⟨-, h4, -⟩ := C82_cmp (pa := 1#64) (pb := 0#64) (a := b) (b := a) (fun h => absurd h (by decide))
    rcases Int.lt_trichotomy (TreeConfig.cmp 0#64 1#64 a b) 0 with h | h | h
    · exact .inl (h2.mp h)
    · exact absurd (h1.mp h) hab
    · exact .inr (h4.mp (by omega))

/-- Configurations that compare equal have the same hash, whatever the function that hashes bytes and whatever the host. -/
theorem C82_hash {jen : Bytes → BitVec 32} {little : Bool} {pa pb : BitVec 64} {a b : TreeConfig} (hp : pa = pb → a = b)
    (h : TreeConfig.cmp pa pb a b = 0) : TreeConfig.hash jen little a = TreeConfig.hash jen little b := by
  rw [(C82_cmp hp).1.mp h]

/-- A buffer gets the position, and the size is that of the position; a buffer that is too small is refused. -/
theorem C82_position_partial (c : TreeConfig) (buffer : List (BitVec 64)) :
    c.getPosition none = .ok (none, c.position.length) ∧
    (buffer.length < c.position.length → c.getPosition (some buffer) = .err .invalidValue) ∧
    (c.position.length ≤ buffer.length → ∃ rest, c.getPosition (some buffer) = .ok (some (c.position ++ rest), c.position.length) ∧
      c.position.length + rest.length = buffer.length) := by
  refine ⟨rfl, fun h => by simp only [TreeConfig.getPosition, if_pos h], fun h => ?_⟩
  refine ⟨buffer.drop c.position.length, by simp only [TreeConfig.getPosition, if_neg (show ¬ buffer.length < c.position.length by omega)], ?_⟩
  rw [List.length_drop]
  omega

/-- The extra values of a buffer are not set to 0, against the documentation: for every configuration there is a buffer for
which they are not. -/
theorem C82_not_padded (c : TreeConfig) : ∃ buffer rest, c.getPosition (some buffer) = .ok (some (c.position ++ rest), c.position.length) ∧
    rest ≠ List.replicate rest.length 0#64 := by
  refine ⟨c.position ++ [7#64], [7#64], ?_, by decide⟩
  simp only [TreeConfig.getPosition]
  rw [if_neg (by simp)]
  simp

/-- Three configurations of the same space, compared by length, then by their first difference. -/
example : TreeConfig.cmp 1#64 2#64 ⟨5#64, [9#64]⟩ ⟨5#64, [0#64, 1#64]⟩ = -1 ∧
    TreeConfig.cmp 1#64 2#64 ⟨5#64, [3#64, 1#64]⟩ ⟨5#64, [0#64, 1#64]⟩ = 1 ∧
    TreeConfig.cmp 1#64 2#64 ⟨5#64, [3#64, 1#64]⟩ ⟨5#64, [3#64, 1#64]⟩ = 0 := by decide

end CCS.Props
