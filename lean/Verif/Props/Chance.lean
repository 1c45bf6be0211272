import Verif.Lemmas.Chance
import Verif.Props.TreeSpace
import Mathlib.Data.List.Nodup

/-!
# Probabilities of selections

Properties C139 and C140.  The draws that lead to an outcome form a box; its volume is the probability of the outcome for independent
draws that are uniform in `[0, 1)`.
-/

namespace CCS.Props

open CCS CCS.Spec

/-! ## C139: a roulette gives each area its share -/

/-- The draws that select an area of a roulette distribution form an interval, whose width differs from the weight of the area divided by the
sum of the weights by at most `(n + 1) / 2^49`, `n` being the number of areas. -/
theorem C139_shares {ws : List F64} {r : Roulette} (hr : createRoulette ieee ws = .ok r) (hfin : F64.isFinite (ieee.total ws) = true)
    (hsize : ws.length ≤ 2 ^ 49) {i : Nat} {w : F64} (hw : ws[i]? = some w) :
    ∃ lo hi, 0 ≤ lo ∧ lo ≤ hi ∧ hi ≤ 1 ∧
      (∀ t fuel, UnitDraw t → ws.length ≤ fuel →
        (r.samples Ieee.guess fuel [t] = some (.ok [(i : Int)]) ↔ lo ≤ toRat t ∧ toRat t < hi)) ∧
      |hi - lo - toRat w / (ws.map toRat).sum| ≤ (ws.length + 1) / 2 ^ 49 := by
  obtain ⟨h1, hmax, hnn, hz, hinv, rfl⟩ := createRoulette_ok hr
  have hi : i < ws.length := (List.getElem?_eq_some_iff.mp hw).1
  have hws : ∀ w ∈ ws, 0 ≤ Ieee.signed w := fun w hw =>
    IeeeLemmas.nonneg_signed (IeeeLemmas.mem_finite hfin hw) (hnn w hw)
  have hnum := (IeeeLemmas.finite_num hfin).1
  have hsp : 0 < Ieee.signed (ieee.total ws) := by
    have hge := (IeeeLemmas.prefix_near hws hfin 0 (Nat.zero_le _) (Nat.zero_le _)).1
    have hns : NonNeg (ieee.total ws) := IeeeLemmas.foldl_nonNeg (by unfold NonNeg; decide) hnn
    rcases Int.lt_or_eq_of_le (IeeeLemmas.nonneg_signed hfin hns) with h | h
    · exact h
    · exfalso
      have : F64.feq (ieee.total ws) F64.zero = true := (feq_iff _ _).mpr
        ⟨0, by show realValue (ieee.total ws) = some 0; rw [IeeeLemmas.realValue_signed hnum, ← h], IeeeLemmas.realValue_zero⟩
      rw [hz] at this; cases this
  have hu : IeeeLemmas.Usable ws := ⟨hws, h1, hsize, hfin, hsp, hinv⟩
  obtain ⟨u1, u2, u3⟩ := hu.span_unit hi
  refine ⟨_, _, u1, u2, u3, ?_, hu.width hw⟩
  intro t fuel ht hf
  have := hu.select ht hf i
  rw [and_iff_right hi] at this
  rw [← this]
  show Roulette.samples Ieee.guess fuel ⟨ws.length, IeeeLemmas.areasOf ws⟩ [t] = _ ↔ _
  simp only [Roulette.samples]
  cases search Ieee.guess fuel ws.length (IeeeLemmas.areasOf ws) t with
  | none => simp
  | some o => cases o <;> simp

/-- Weights 1, 2 and 3.5: the middle area gets the draws from 2/13 to 6/13, up to rounding. -/
example : (match createRoulette ieee [F64.one, dTwo, 0x400c000000000000#64] with | .ok _ => true | _ => false) = true ∧
    F64.isFinite (ieee.total [F64.one, dTwo, 0x400c000000000000#64]) = true ∧
    ([F64.one, dTwo, 0x400c000000000000#64].map toRat).sum = 13 / 2 := by
  refine ⟨by decide +kernel, by decide +kernel, by decide +kernel⟩

/-! ## C140: a tree gives each position its share -/

theorem ends_length {f : Forest} (hg : GrownForest ieee f) {r h : Nat} {n : TreeNode} (hn : f.node r = some n) {p : List Nat}
    (hl : Leads f r p h) : p.length < f.length := by
  have hh := Forest.grown_healthy hg
  obtain ⟨d, hd⟩ := hh.linked.rooted hn
  have key : ∀ {r p h d}, Leads f r p h → Forest.Depth f r d → Forest.Depth f h (d + p.length) := by
    intro r p h d hl
    induction hl generalizing d with
    | here => intro hd; exact hd
    | down hc _ ih =>
      intro hd
      have := ih (Forest.depth_child hh hd hc)
      rw [List.length_cons, Nat.add_comm _ 1, ← Nat.add_assoc]
      exact this
  have := Forest.depth_lt (key hl hd)
  omega

theorem ends_nodup (f : Forest) : ∀ m h, ((ends f m h).map (·.1)).Nodup := by
  intro m
  induction m with
  | zero => intro h; simp [ends]
  | succ m ih =>
    intro h
    cases hn : f.node h with
    | none => simp [ends, hn]
    | some n =>
      simp only [ends, hn, List.map_cons, List.map_flatMap, List.nodup_cons, List.nodup_flatMap]
      refine ⟨?_, ?_, ?_⟩
      · intro hmem
        obtain ⟨i, -, hm⟩ := List.mem_flatMap.mp hmem
        obtain ⟨⟨q, v⟩, h1, h2⟩ := List.mem_map.mp hm
        split at h1
        · rw [List.mem_singleton] at h1; cases h1; cases h2
        · obtain ⟨⟨q', v'⟩, -, h3⟩ := List.mem_map.mp h1; cases h3; cases h2
        · cases h1
      · intro i _
        split
        · simp
        · rename_i c hc
          rw [List.map_map]
          have e : ((fun x : List Nat × ℚ => x.1) ∘ fun e : List Nat × ℚ => (i :: e.1, biasOf f c * e.2)) =
              (fun p : List Nat => i :: p) ∘ fun x : List Nat × ℚ => x.1 := rfl
          rw [e, ← List.map_map]
          exact List.Nodup.map (fun a b hab => by cases hab; rfl) (ih c)
        · simp
      · refine List.Pairwise.imp ?_ (List.nodup_range (n := n.arity))
        intro i j hij
        have head : ∀ k q, q ∈ (match f.getChild h k with
            | .ok none => [([k], (1 : ℚ))]
            | .ok (some c) => (ends f m c).map fun e : List Nat × ℚ => (k :: e.1, biasOf f c * e.2)
            | _ => []).map (fun x : List Nat × ℚ => x.1) → ∃ q', q = k :: q' := by
          intro k q hq
          obtain ⟨⟨q', v⟩, h1, rfl⟩ := List.mem_map.mp hq
          split at h1
          · rw [List.mem_singleton] at h1; cases h1; exact ⟨[], rfl⟩
          · obtain ⟨⟨q', v'⟩, -, h3⟩ := List.mem_map.mp h1; cases h3; exact ⟨_, rfl⟩
          · cases h1
        intro q h1 h2
        obtain ⟨a, rfl⟩ := head i q h1
        obtain ⟨b, hb⟩ := head j _ h2
        cases hb
        exact hij rfl

theorem ends_unique {f : Forest} {m h : Nat} {p : List Nat} {w v : ℚ} (h1 : (p, w) ∈ ends f m h) (h2 : (p, v) ∈ ends f m h) :
    w = v := by
  have := ends_nodup f m h
  generalize ends f m h = l at *
  induction l with
  | nil => cases h1
  | cons a l ih =>
    rw [List.map_cons, List.nodup_cons] at this
    rcases List.mem_cons.mp h1 with e1 | m1
    · rcases List.mem_cons.mp h2 with e2 | m2
      · rw [← e1] at e2; cases e2; rfl
      · exact absurd (List.mem_map.mpr ⟨_, m2, by rw [← e1]⟩) this.1
    · rcases List.mem_cons.mp h2 with e2 | m2
      · exact absurd (List.mem_map.mpr ⟨_, m1, by rw [← e2]⟩) this.1
      · exact ih m1 m2 this.2

theorem ends_valid {f : Forest} (hg : GrownForest ieee f) {m h : Nat} {n : TreeNode} (hn : f.node h = some n)
    (ih : ∀ i c, f.getChild h i = .ok (some c) → ∀ q, q ∈ (ends f m c).map (·.1) ↔ f.validLoop (some c) q = .ok true) (p : List Nat) :
    p ∈ (ends f (m + 1) h).map (·.1) ↔ f.validLoop (some h) p = .ok true := by
  cases p with
  | nil =>
    simp only [Forest.validLoop, iff_true]
    simp [ends, hn]
  | cons i q =>
    simp only [Forest.validLoop, hn]
    constructor
    · intro hm
      obtain ⟨⟨p', w⟩, h1, h2⟩ := List.mem_map.mp hm
      simp only at h2
      subst h2
      rcases Forest.mem_ends hn h1 with ⟨h, -⟩ | ⟨j, hj, h, -, hc⟩ | ⟨j, hj, c, q', v, h, -, hc, hv⟩
      · cases h
      · cases h
        obtain ⟨m', h3, h4, h5⟩ := Forest.getChild_ok hc
        rw [hn] at h3; cases h3
        rw [if_neg (by omega), h5]
        rfl
      · cases h
        obtain ⟨m', h3, h4, h5⟩ := Forest.getChild_ok hc
        rw [hn] at h3; cases h3
        rw [if_neg (by omega), h5]
        exact (ih _ c hc _).mp (List.mem_map.mpr ⟨_, hv, rfl⟩)
    · intro hv
      split at hv
      · cases hv
      · rename_i hi
        obtain ⟨c, h1, h2⟩ := Forest.getChild_cases hg hn (by omega : i < n.arity)
        have h3 : n.children.getD i none = c := by rw [List.getD_eq_getElem?_getD, h1]; rfl
        rw [h3] at hv
        simp only [ends, hn, List.map_cons, List.mem_cons, List.map_flatMap, List.mem_flatMap, List.mem_range]
        refine .inr ⟨i, by omega, ?_⟩
        rw [h2]
        cases c with
        | none =>
          cases q with
          | nil => simp
          | cons a q => simp only [Forest.validLoop] at hv; cases hv
        | some c =>
          obtain ⟨⟨q', w⟩, h4, h5⟩ := List.mem_map.mp ((ih i c h2 q).mpr hv)
          simp only at h5
          subst h5
          exact List.mem_map.mpr ⟨_, List.mem_map.mpr ⟨_, h4, rfl⟩, rfl⟩

/-- The positions to which something is due are those the library calls valid, each listed once. -/
theorem C140_positions {f : Forest} (hg : GrownForest ieee f) {r : Nat} {n : TreeNode} (hn : f.node r = some n) {depth : Nat}
    (hd : ∀ {p h}, Leads f r p h → p.length ≤ depth) :
    ((ends f (depth + 1) r).map (·.1)).Nodup ∧
    ∀ p, p ∈ (ends f (depth + 1) r).map (·.1) ↔ f.positionIsValid r p = .ok true := by
  refine ⟨ends_nodup f _ _, ?_⟩
  have key : ∀ {m h n}, f.node h = some n → (∀ {p q}, Leads f h p q → p.length ≤ m) →
      ∀ p, p ∈ (ends f (m + 1) h).map (·.1) ↔ f.validLoop (some h) p = .ok true := by
    intro m
    induction m with
    | zero =>
      intro h n hn hd
      refine ends_valid hg hn ?_
      intro i c hc
      have := hd (.down hc .here)
      simp at this
    | succ m ih =>
      intro h n hn hd
      refine ends_valid hg hn ?_
      intro i c hc
      obtain ⟨x, hx⟩ := Forest.child_live (Forest.grown_healthy hg) hc
      refine ih hx ?_
      intro p q hl
      have := hd (.down hc hl)
      simp only [List.length_cons] at this
      omega
  intro p
  rw [key hn hd]
  simp only [Forest.positionIsValid, hn]

theorem falls_append {rnd : Nat → F64} {a b : List (ℚ × ℚ)} : ∀ {k : Nat}, Falls rnd k (a ++ b) ↔ Falls rnd k a ∧ Falls rnd (k + a.length) b := by
  induction a with
  | nil => intro k; simp [Falls]
  | cons x a ih =>
    intro k
    simp only [List.cons_append, Falls, ih, List.length_cons]
    rw [show k + 1 + a.length = k + (a.length + 1) by omega]
    constructor
    · rintro ⟨h1, h2, h3, h4⟩; exact ⟨⟨h1, h2, h3⟩, h4⟩
    · rintro ⟨⟨h1, h2, h3⟩, h4⟩; exact ⟨h1, h2, h3, h4⟩

/-- Each valid position has a box of draws.  Sampling gives a sequence of positions exactly when the draws fall in their boxes, one after the
other.  The volume of a box differs from what the position is due, divided by what all positions are due, by at most
`(l + 1) (depth + 1) (breadth + 2) / 2^48`, `l` being the length of the position. -/
theorem C140_shares {f : Forest} (hg : GrownForest ieee f) {r : Nat} {n : TreeNode} (hn : f.node r = some n) {breadth depth : Nat}
    (ht : Tame f r breadth depth) (hsize : (depth + 1) * (breadth + 2) ≤ 2 ^ 40) (hpos : 0 < dues (ends f (depth + 1) r)) :
    ∃ box : List Nat → List (ℚ × ℚ),
      (∀ p w, (p, w) ∈ ends f (depth + 1) r → UnitBox (box p) ∧
        |volume (box p) - w / dues (ends f (depth + 1) r)| ≤ (p.length + 1) * ((depth + 1) * (breadth + 2) / 2 ^ 48)) ∧
      ∀ ps : List (List Nat), (∀ p ∈ ps, f.positionIsValid r p = .ok true) → ∀ rnd, (∀ j, UnitDraw (rnd j)) →
        ∀ fuel turns, depth + 1 ≤ fuel → breadth + 1 ≤ turns →
        (f.samplePositions Ieee.guess turns rnd fuel r ps.length 0 = some (.ok ps) ↔ Falls rnd 0 (ps.flatMap box)) := by
  have hz : F64.feq n.sum F64.zero = false := by
    cases h : F64.feq n.sum F64.zero with
    | false => rfl
    | true => rw [(Forest.zero_iff hg hsize hn ht (Nat.le_refl _)).mp h] at hpos; exact absurd hpos (lt_irrefl _)
  have hbox : ∀ p, ∃ b, ∀ w, (p, w) ∈ ends f (depth + 1) r → UnitBox b ∧
      |volume b - w / dues (ends f (depth + 1) r)| ≤ (p.length + 1) * ((depth + 1) * (breadth + 2) / 2 ^ 48) ∧
      ∀ {rnd : Nat → F64} {k fuel turns k' : Nat}, (∀ j, UnitDraw (rnd j)) → depth + 1 ≤ fuel → breadth + 1 ≤ turns →
        (f.sampleWalk Ieee.guess turns rnd fuel r k = some (.ok (p, k')) ↔ Falls rnd k b ∧ k' = k + b.length) := by
    intro p
    by_cases h : ∃ w, (p, w) ∈ ends f (depth + 1) r
    · obtain ⟨w, hw⟩ := h
      obtain ⟨b, b1, -, b2, b3⟩ := Forest.box_of hg hsize hn ht (Nat.le_refl _) hz hw
      refine ⟨b, fun v hv => ?_⟩
      rw [← ends_unique hw hv]
      refine ⟨b1, ?_, b2⟩
      push_cast at b3
      exact b3
    · exact ⟨[], fun w hw => absurd ⟨w, hw⟩ h⟩
  choose box hbox using hbox
  refine ⟨box, fun p w hp => ⟨(hbox p w hp).1, (hbox p w hp).2.1⟩, ?_⟩
  intro ps hps rnd hr fuel turns hf htu
  have key : ∀ (ps : List (List Nat)) k, (∀ p ∈ ps, f.positionIsValid r p = .ok true) →
      (f.samplePositions Ieee.guess turns rnd fuel r ps.length k = some (.ok ps) ↔ Falls rnd k (ps.flatMap box)) := by
    intro ps
    induction ps with
    | nil => intro k _; simp [Forest.samplePositions, Falls]
    | cons p ps ih =>
      intro k hv
      obtain ⟨⟨p', w⟩, hp, he⟩ := List.mem_map.mp (((C140_positions hg hn ht.deep).2 p).mpr (hv p (List.mem_cons_self ..)))
      simp only at he
      subst he
      have hw : ∀ {k'}, _ := fun {k'} => (hbox p' w hp).2.2 (k := k) (k' := k') hr hf htu
      have ih' := ih (k + (box p').length) fun q hq => hv q (List.mem_cons_of_mem _ hq)
      rw [List.flatMap_cons, falls_append, ← ih', List.length_cons]
      simp only [Forest.samplePositions]
      constructor
      · intro h
        split at h
        · cases h
        · cases h
        · cases h
        · rename_i q k' hs
          split at h
          · cases h
          · cases h
          · cases h
          · rename_i qs hqs
            simp only [Option.some.injEq, Out.ok.injEq, List.cons.injEq] at h
            obtain ⟨rfl, rfl⟩ := h
            obtain ⟨h1, rfl⟩ := hw.mp hs
            exact ⟨h1, hqs⟩
      · rintro ⟨h1, h2⟩
        rw [hw.mpr ⟨h1, rfl⟩]
        simp only [h2]
  exact key ps 0 hps

theorem ends_ones {f : Forest} {r : Nat} {n : TreeNode} (hn : f.node r = some n) {depth : Nat}
    (hone : ∀ p h, Leads f r p h → f.getWeight h = .ok F64.one ∧ f.getBias h = .ok F64.one) :
    (∀ p w, (p, w) ∈ ends f (depth + 1) r → w = 1) ∧ dues (ends f (depth + 1) r) = (ends f (depth + 1) r).length ∧
    0 < dues (ends f (depth + 1) r) := by
  have key : ∀ {m h p w}, (∀ p q, Leads f h p q → f.getWeight q = .ok F64.one ∧ f.getBias q = .ok F64.one) →
      (p, w) ∈ ends f m h → w = 1 := by
    intro m
    induction m with
    | zero => intro h p w _ hm; simp [ends] at hm
    | succ m ih =>
      intro h p w hl hm
      cases hn : f.node h with
      | none => simp [ends, hn] at hm
      | some n =>
        rcases Forest.mem_ends hn hm with ⟨-, rfl⟩ | ⟨i, -, -, rfl, -⟩ | ⟨i, -, c, q, v, -, rfl, hc, hv⟩
        · simp only [weightOf, (hl _ _ .here).1, IeeeLemmas.toRat_one]
        · rfl
        · rw [ih (fun p q hq => hl _ q (.down hc hq)) hv]
          simp only [biasOf, (hl _ _ (.down hc .here)).2, IeeeLemmas.toRat_one, mul_one]
  have h1 : ∀ p w, (p, w) ∈ ends f (depth + 1) r → w = 1 := fun p w hm => key hone hm
  have h2 : dues (ends f (depth + 1) r) = (ends f (depth + 1) r).length := by
    unfold dues
    rw [List.eq_replicate_of_mem (a := (1 : ℚ)) (l := (ends f (depth + 1) r).map (·.2)), List.sum_replicate, List.length_map]
    · simp
    · intro x hx
      obtain ⟨⟨p, w⟩, hm, rfl⟩ := List.mem_map.mp hx
      exact h1 p w hm
  refine ⟨h1, h2, ?_⟩
  rw [h2]
  have : 0 < (ends f (depth + 1) r).length := by simp [ends, hn]
  exact_mod_cast this

/-- When no weight and no bias has been changed, all positions are equally likely: each of the `ps.length` valid positions has a box of draws
of volume `1 / ps.length`, within the same bound. -/
theorem C140_uniform {f : Forest} (hg : GrownForest ieee f) {r : Nat} {n : TreeNode} (hn : f.node r = some n) {breadth depth : Nat}
    (ht : Tame f r breadth depth) (hsize : (depth + 1) * (breadth + 2) ≤ 2 ^ 40)
    (hone : ∀ p h, Leads f r p h → f.getWeight h = .ok F64.one ∧ f.getBias h = .ok F64.one)
    {ps : List (List Nat)} (hnd : ps.Nodup) (hps : ∀ p, p ∈ ps ↔ f.positionIsValid r p = .ok true) :
    ∀ p ∈ ps, ∃ box, UnitBox box ∧ |volume box - 1 / ps.length| ≤ (p.length + 1) * ((depth + 1) * (breadth + 2) / 2 ^ 48) ∧
      ∀ rnd, (∀ j, UnitDraw (rnd j)) → ∀ fuel turns, depth + 1 ≤ fuel → breadth + 1 ≤ turns →
        (f.samplePositions Ieee.guess turns rnd fuel r 1 0 = some (.ok [p]) ↔ Falls rnd 0 box) := by
  obtain ⟨h1, h2, h3⟩ := ends_ones hn (depth := depth) hone
  obtain ⟨box, b1, b2⟩ := C140_shares hg hn ht hsize h3
  obtain ⟨q1, q2⟩ := C140_positions hg hn ht.deep
  have hlen : ps.length = (ends f (depth + 1) r).length := by
    have : ps.Perm ((ends f (depth + 1) r).map (·.1)) := (List.perm_ext_iff_of_nodup hnd q1).mpr fun p => by rw [hps, q2]
    rw [this.length_eq, List.length_map]
  intro p hp
  obtain ⟨⟨p', w⟩, hm, he⟩ := List.mem_map.mp ((q2 p).mpr ((hps p).mp hp))
  simp only at he
  subst he
  obtain ⟨c1, c2⟩ := b1 p' w hm
  rw [h1 p' w hm, h2, ← hlen] at c2
  refine ⟨box p', c1, c2, ?_⟩
  intro rnd hr fuel turns hf htu
  have := b2 [p'] (by intro q hq; rw [List.mem_singleton.mp hq]; exact (hps p').mp hp) rnd hr fuel turns hf htu
  simpa using this

/-- Checks all the nodes of a forest. -/
def exTame (f : Forest) (breadth : Nat) : Bool :=
  f.all fun x => match x with
    | some n => decide (n.arity ≤ breadth) && F64.isFinite n.sum && F64.isFinite (ieee.div F64.one n.sum) && F64.isFinite n.bias &&
      decide (1 / 2 ^ 1022 ≤ toRat n.sum * toRat n.bias)
    | none => true

theorem exTame_tame {f : Forest} (hg : GrownForest ieee f) {breadth depth r : Nat} {n : TreeNode} (hn : f.node r = some n)
    (hl : f.length = depth + 1) (h : exTame f breadth = true) : Tame f r breadth depth := by
  have key : ∀ {h n}, f.node h = some n → n.arity ≤ breadth ∧ F64.isFinite n.sum = true ∧ F64.isFinite (ieee.div F64.one n.sum) = true ∧
      F64.isFinite n.bias = true ∧ 1 / 2 ^ 1022 ≤ toRat n.sum * toRat n.bias := by
    intro k n hn
    have := List.all_eq_true.mp h _ (List.mem_of_getElem? (Forest.node_some.mp hn))
    simp only [Bool.and_eq_true, decide_eq_true_eq] at this
    exact ⟨this.1.1.1.1, this.1.1.1.2, this.1.1.2, this.1.2, this.2⟩
  refine ⟨fun hp => ?_, fun _ hm => (key hm).1, fun _ hm => ⟨(key hm).2.1, .inr (key hm).2.2.1⟩,
    fun _ _ hm => ⟨(key hm).2.2.2.1, .inr (key hm).2.2.2.2⟩⟩
  have := ends_length hg hn hp
  omega

/-- The example tree: the root is due 1, its free slot 1, its child 1/2 and the node below it 3/2. -/
example : GrownForest ieee exTree ∧ Tame exTree 0 2 2 ∧ ends exTree 3 0 = [([], 1), ([0], 1 / 2), ([0, 0], 3 / 2), ([1], 1)] ∧
    0 < dues (ends exTree 3 0) :=
  ⟨exTree_grown, exTame_tame exTree_grown (n := (exTree.node 0).get (by decide +kernel)) (by decide +kernel) (by decide +kernel)
    (by decide +kernel), by decide +kernel, by decide +kernel⟩

/-- A root of arity 2 with a child of arity 1, weights and biases as created. -/
def exPlainOps : List Forest.Op := [.setChild 0 0 1, .create 1 (.int 2#64), .create 2 (.int 1#64)]

theorem exPlain_grown : GrownForest ieee (exGrow exPlainOps) :=
  exGrow_step (exGrow_step (exGrow_step .empty trivial) trivial) (not_above 9 (by decide +kernel) (by decide +kernel))

/-- All its nodes have weight and bias 1; the valid positions are the root, its child, the free slot of the child and that of the root. -/
example : Tame (exGrow exPlainOps) 0 2 1 ∧
    (∀ p h, Leads (exGrow exPlainOps) 0 p h →
      (exGrow exPlainOps).getWeight h = .ok F64.one ∧ (exGrow exPlainOps).getBias h = .ok F64.one) ∧
    (ends (exGrow exPlainOps) 2 0).map (·.1) = [[], [0], [0, 0], [1]] := by
  have ht : Tame (exGrow exPlainOps) 0 2 1 :=
    exTame_tame exPlain_grown (n := ((exGrow exPlainOps).node 0).get (by decide +kernel)) (by decide +kernel) (by decide +kernel)
      (by decide +kernel)
  refine ⟨ht, ?_, by decide +kernel⟩
  intro p h hl
  have : ∀ {r p h}, Leads (exGrow exPlainOps) r p h → r < 2 → h < 2 := by
    intro r p h hl
    induction hl with
    | here => exact id
    | @down _ i _ _ c hc _ ih =>
      intro _
      apply ih
      obtain ⟨x, hx⟩ := Forest.child_live (Forest.grown_healthy exPlain_grown) hc
      have h1 := (List.getElem?_eq_some_iff.mp (Forest.node_some.mp hx)).1
      have h2 : (exGrow exPlainOps).length = 2 := by decide +kernel
      omega
  have h2 := this hl (by omega)
  have h3 : ∀ h < 2, (exGrow exPlainOps).getWeight h = .ok F64.one ∧ (exGrow exPlainOps).getBias h = .ok F64.one := by decide +kernel
  exact h3 h h2

end CCS.Props
