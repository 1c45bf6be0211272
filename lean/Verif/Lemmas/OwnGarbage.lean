import Verif.Lemmas.OwnTidy
import Mathlib.Data.Fintype.Card

/-! # Ownership: what exists can be reached -/

namespace CCS.Own

open CCS

/-- Objects own objects of lower levels, except composite distributions, expressions, trees and maps. -/
def Kind.level : Kind → Nat
  | .rng | .parameter | .distribution | .tree => 0
  | .expression => 1
  | .configurationSpace | .featuresSpace | .objectiveSpace | .treeSpace => 2
  | .configuration | .features | .treeConfiguration => 3
  | .evaluation | .featuresEvaluation | .treeEvaluation => 4
  | .tuner | .featuresTuner | .treeTuner => 5
  | .map => 6

theorem wants_of_holds {o : Obj} (ho : o.kind ≠ .map) {x : Ref} (hx : x ∈ o.holds) :
    ∃ k, (x, k) ∈ o.wants := by
  cases o <;> simp only [Obj.holds, Obj.wants, Obj.kind, List.mem_cons, List.mem_append,
    List.mem_map, List.not_mem_nil, Prod.mk.injEq] at hx ho ⊢ <;> grind

theorem level_of_wants {o : Obj} {x : Ref} {k : Kind} (hx : (x, k) ∈ o.wants) :
    k ≠ .map ∧ (k.level < o.kind.level ∨ k.level = o.kind.level ∧ o.nested = true) := by
  cases o <;> simp only [Obj.wants, Obj.kind, Obj.nested, List.mem_cons, List.mem_append,
    List.mem_map, List.not_mem_nil, Prod.mk.injEq] at hx ⊢ <;>
    grind [Kind.level]

/-- An object owns another. -/
def Edge (h : Heap) (a b : Ref) : Prop := ∃ n o, get h a = .live n o ∧ b ∈ o.holds

/-- What an object other than a map owns is not a map, and is of a lower level, or lower in a nest. -/
theorem edge_down {h : Heap} {E : List Ref} (f : Full h E) {a b : Ref} {n : Nat} {o : Obj}
    (ha : get h a = .live n o) (hb : b ∈ o.holds) (ho : o.kind ≠ .map) :
    ∃ m q, get h b = .live m q ∧ q.kind ≠ .map ∧
      (q.kind.level < o.kind.level ∨ q.kind.level = o.kind.level ∧ o.nested = true) := by
  obtain ⟨k, hk⟩ := wants_of_holds ho hb
  obtain ⟨m, q, hq⟩ := f.alive_field ha hb
  have := f.typed a n o ha b k hk m q hq
  rw [← this] at hk
  exact ⟨m, q, hq, level_of_wants hk⟩

theorem edges_down {h : Heap} {E : List Ref} (f : Full h E) {rank : Ref → Nat}
    (hr : ∀ x n o, get h x = .live n o → o.nested = true → ∀ y ∈ o.holds, rank y < rank x)
    {a b : Ref} (t : Relation.TransGen (Edge h) a b) {n : Nat} {o : Obj}
    (ha : get h a = .live n o) (ho : o.kind ≠ .map) :
    ∃ m q, get h b = .live m q ∧ q.kind ≠ .map ∧
      (q.kind.level < o.kind.level ∨ q.kind.level = o.kind.level ∧ rank b < rank a) := by
  induction t with
  | single e =>
    obtain ⟨n', o', ha', hb⟩ := e
    rw [ha] at ha'; cases ha'
    obtain ⟨m, q, h1, h2, h3⟩ := edge_down f ha hb ho
    exact ⟨m, q, h1, h2, h3.imp id fun h => ⟨h.1, hr a n o ha h.2 _ hb⟩⟩
  | tail _ e ih =>
    obtain ⟨m, q, h1, h2, h3⟩ := ih
    obtain ⟨n', o', hb', hc⟩ := e
    rw [h1] at hb'; cases hb'
    obtain ⟨m', q', g1, g2, g3⟩ := edge_down f h1 hc h2
    refine ⟨m', q', g1, g2, ?_⟩
    rcases h3 with h3 | ⟨h3, h4⟩
    · rcases g3 with g3 | ⟨g3, g4⟩
      · exact .inl (by omega)
      · exact .inl (by omega)
    · rcases g3 with g3 | ⟨g3, g4⟩
      · exact .inl (by omega)
      · have := hr _ m q h1 g4 _ hc
        exact .inr ⟨by omega, by omega⟩

/-- Only maps own maps. -/
theorem edges_map {h : Heap} {E : List Ref} (f : Full h E) {a b : Ref}
    (t : Relation.TransGen (Edge h) a b) {n : Nat} {es : List (Dat × Dat)}
    (hb : get h b = .live n (.map es)) : Contains h a b := by
  have one : ∀ a b, Edge h a b → (∃ n es, get h b = .live n (.map es)) →
      Contains h a b ∧ ∃ n es, get h a = .live n (.map es) := by
    rintro a b ⟨n, o, ha, hh⟩ ⟨m, es, hb⟩
    by_cases ho : o.kind = .map
    · obtain ⟨es', rfl⟩ := kind_map ho
      exact ⟨.entry ha hh hb, n, es', ha⟩
    · obtain ⟨m', q, h1, h2, -⟩ := edge_down f ha hh ho
      rw [hb] at h1; cases h1
      exact absurd rfl h2
  have all : Contains h a b ∧ ∃ n es, get h a = .live n (.map es) := by
    induction t using Relation.TransGen.head_induction_on with
    | single e => exact one _ _ e ⟨n, es, hb⟩
    | head e _ ih =>
      have := one _ _ e ih.2
      exact ⟨.trans this.1 ih.1, this.2⟩
  exact all.1

/-- What exists can be reached, unless it is in a map that contains itself, or reached from such a map. -/
theorem no_garbage {h : Heap} {E : List Ref} (f : Full h E) {r : Ref} (a : Alive h r) :
    Reach h E r ∨ ∃ m, Contains h m m ∧ Reach h [m] r := by
  let Bad : Ref → Prop := fun r => Alive h r ∧ ¬ Reach h E r ∧ ∀ m, Contains h m m → ¬ Reach h [m] r
  have up : ∀ r, Bad r → ∃ x, Bad x ∧ Edge h x r := by
    rintro r ⟨⟨n, o, hr⟩, h1, h2⟩
    have hc := f.counted r
    rw [hr] at hc
    have hE : E.count r = 0 := List.count_eq_zero.2 fun hm => h1 (.own hm)
    obtain ⟨x, m, q, hx, hq⟩ := holder_of_stored (h := h) (x := r) (by omega)
    exact ⟨x, ⟨⟨m, q, hx⟩, fun q' => h1 (.field q' hx hq), fun m' hm q' => h2 m' hm (.field q' hx hq)⟩,
      m, q, hx, hq⟩
  obtain ⟨rank, hrank⟩ := f.ranked
  have acyclic : ∀ x, Bad x → ¬ Relation.TransGen (Edge h) x x := by
    rintro x ⟨⟨n, o, hx⟩, -, h2⟩ t
    by_cases ho : o.kind = .map
    · obtain ⟨es, rfl⟩ := kind_map ho
      exact h2 x (edges_map f t hx) (.own (by simp))
    · obtain ⟨m, q, h3, -, h4⟩ := edges_down f hrank t hx ho
      rw [hx] at h3; cases h3
      omega
  let R : Fin h.length → Fin h.length → Prop := fun a b => Bad a ∧ Bad b ∧ Relation.TransGen (Edge h) a b
  have : IsTrans _ R := ⟨fun a b c h1 h2 => ⟨h1.1, h2.2.1, h1.2.2.trans h2.2.2⟩⟩
  have : Std.Irrefl R := ⟨fun a ha => acyclic a ha.1 ha.2.2⟩
  have : Finite (Fin h.length) := ⟨Equiv.refl _⟩
  have wf := Finite.wellFounded_of_trans_of_irrefl R
  have none : ∀ b : Fin h.length, ¬ Bad b := by
    intro b
    induction b using wf.induction with
    | h b ih =>
      intro hb
      obtain ⟨x, hx, e⟩ := up b hb
      have hlt : x < h.length := by
        obtain ⟨⟨n, o, hx⟩, -⟩ := hx
        exact lt_of_live hx
      exact ih ⟨x, hlt⟩ ⟨hx, hb, .single e⟩ hx
  have hlt : r < h.length := by
    obtain ⟨n, o, hr⟩ := a
    exact lt_of_live hr
  by_cases h1 : Reach h E r
  · exact .inl h1
  · by_cases h2 : ∃ m, Contains h m m ∧ Reach h [m] r
    · exact .inr h2
    · exact absurd ⟨a, h1, fun m hm hr => h2 ⟨m, hm, hr⟩⟩ (none ⟨r, hlt⟩)

end CCS.Own
