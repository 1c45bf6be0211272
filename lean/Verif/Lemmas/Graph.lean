import Verif.Spec.Graph

/-!
# Sorting, removal of duplicates and Kahn's algorithm
-/

namespace CCS

/-! ## Sorting and duplicates -/

theorem mem_insertNat {x y : Nat} {l : List Nat} : y ∈ insertNat x l ↔ y = x ∨ y ∈ l := by
  induction l with
  | nil => simp [insertNat]
  | cons a l ih =>
    unfold insertNat
    split <;> simp [ih, or_left_comm]

theorem mem_sortNat {y : Nat} {l : List Nat} : y ∈ sortNat l ↔ y ∈ l := by
  induction l with
  | nil => simp [sortNat]
  | cons a l ih => simp [sortNat, mem_insertNat, ih]

theorem insertNat_sorted {x : Nat} {l : List Nat} (h : l.Pairwise (· ≤ ·)) :
    (insertNat x l).Pairwise (· ≤ ·) := by
  induction l with
  | nil => simp [insertNat]
  | cons a l ih =>
    rw [List.pairwise_cons] at h
    unfold insertNat
    split
    · rename_i hx
      rw [List.pairwise_cons]
      refine ⟨fun b hb => ?_, List.pairwise_cons.2 h⟩
      rcases List.mem_cons.1 hb with rfl | hb
      · exact hx
      · exact Nat.le_trans hx (h.1 b hb)
    · rename_i hx
      rw [List.pairwise_cons]
      refine ⟨fun b hb => ?_, ih h.2⟩
      rcases mem_insertNat.1 hb with rfl | hb
      · omega
      · exact h.1 b hb

theorem sortNat_sorted (l : List Nat) : (sortNat l).Pairwise (· ≤ ·) := by
  induction l with
  | nil => exact List.Pairwise.nil
  | cons a l ih => exact insertNat_sorted ih

theorem mem_skipSame {a y : Nat} {l : List Nat} : y ∈ skipSame a l ∨ y = a ↔ y ∈ l ∨ y = a := by
  induction l generalizing a with
  | nil => simp [skipSame]
  | cons x l ih =>
    unfold skipSame
    split
    · have := @ih x
      simp only [List.mem_cons]
      constructor
      · rintro ((rfl | h) | rfl)
        · exact .inl (.inl rfl)
        · rcases this.1 (.inl h) with h | h
          · exact .inl (.inr h)
          · exact .inl (.inl h)
        · exact .inr rfl
      · rintro ((rfl | h) | rfl)
        · exact .inl (.inl rfl)
        · rcases this.2 (.inl h) with h | h
          · exact .inl (.inr h)
          · exact .inl (.inl h)
        · exact .inr rfl
    · rename_i hx
      have hx : x = a := Decidable.not_not.1 hx
      subst hx
      rw [ih]
      simp only [List.mem_cons]
      constructor
      · rintro (h | h)
        · exact .inl (.inr h)
        · exact .inr h
      · rintro ((h | h) | h)
        · exact .inr h
        · exact .inl h
        · exact .inr h

theorem skipSame_sorted {a : Nat} {l : List Nat} (h : (a :: l).Pairwise (· ≤ ·)) :
    (a :: skipSame a l).Pairwise (· < ·) := by
  induction l generalizing a with
  | nil => simp [skipSame]
  | cons x l ih =>
    rw [List.pairwise_cons, List.pairwise_cons] at h
    unfold skipSame
    split
    · rename_i hx
      have hax := h.1 x (by simp)
      have := ih (a := x) (List.pairwise_cons.2 h.2)
      rw [List.pairwise_cons]
      refine ⟨fun b hb => ?_, this⟩
      rcases List.mem_cons.1 hb with rfl | hb
      · omega
      · have := (List.pairwise_cons.1 this).1 b hb
        omega
    · exact ih (a := a) (List.pairwise_cons.2 ⟨fun b hb => h.1 b (by simp [hb]), h.2.2⟩)

theorem mem_uniqNat {y : Nat} {l : List Nat} : y ∈ uniqNat l ↔ y ∈ l := by
  rw [← mem_sortNat (l := l)]
  unfold uniqNat
  split
  · rename_i h; rw [h]
  · rename_i x xs h
    rw [h]
    have := @mem_skipSame x y xs
    simp only [List.mem_cons]
    constructor
    · rintro (h | h)
      · exact .inl h
      · exact (this.1 (.inl h)).symm
    · rintro (h | h)
      · exact .inl h
      · exact (this.2 (.inl h)).symm

theorem uniqNat_nodup (l : List Nat) : (uniqNat l).Nodup := by
  unfold uniqNat
  split
  · exact List.nodup_nil
  · rename_i x xs h
    have := skipSame_sorted (h ▸ sortNat_sorted l)
    exact this.imp (fun h => Nat.ne_of_lt h)

/-! ## Pigeonhole -/

/-- A list of distinct numbers below `n` has at most `n` elements. -/
theorem nodup_bounded : ∀ {n : Nat} {l : List Nat}, l.Nodup → (∀ x ∈ l, x < n) → l.length ≤ n
  | 0, l, _, hb => by
    cases l with
    | nil => simp
    | cons x l => exact absurd (hb x (by simp)) (by omega)
  | n + 1, l, hn, hb => by
    have h1 : (l.erase n).length ≤ n := by
      refine nodup_bounded (hn.erase n) fun x hx => ?_
      have := hb x (List.mem_of_mem_erase hx)
      have : x ≠ n := fun he => by
        subst he
        exact (List.Nodup.not_mem_erase hn) hx
      omega
    by_cases hm : n ∈ l
    · rw [List.length_erase_of_mem hm] at h1
      omega
    · rw [List.erase_of_not_mem hm] at h1
      omega

/-- A list of `n` distinct numbers below `n` contains all of them. -/
theorem nodup_full {n : Nat} {l : List Nat} (hn : l.Nodup) (hb : ∀ x ∈ l, x < n) (hl : n ≤ l.length) :
    ∀ i < n, i ∈ l := by
  intro i hi
  apply Decidable.byContradiction
  intro hni
  have := nodup_bounded (n := n) (l := i :: l) (List.nodup_cons.2 ⟨hni, hn⟩) (by
    intro x hx
    rcases List.mem_cons.1 hx with rfl | hx
    · exact hi
    · exact hb x hx)
  simp at this
  omega

theorem perm_range {n : Nat} {l : List Nat} (hn : l.Nodup) (hb : ∀ x ∈ l, x < n) (hl : n ≤ l.length) :
    l.Perm (List.range n) := by
  rw [List.perm_ext_iff_of_nodup hn List.nodup_range]
  intro a
  rw [List.mem_range]
  exact ⟨hb a, nodup_full hn hb hl a⟩

/-- Distinct elements of a list are at most as many as its elements. -/
theorem nodup_subset_length : ∀ {l m : List Nat}, l.Nodup → (∀ x ∈ l, x ∈ m) → l.length ≤ m.length
  | [], _, _, _ => by simp
  | x :: l, m, hn, hs => by
    rw [List.nodup_cons] at hn
    have hx := hs x (by simp)
    have := nodup_subset_length (l := l) (m := m.erase x) hn.2 fun y hy => by
      have hne : y ≠ x := fun h => hn.1 (h ▸ hy)
      exact (List.mem_erase_of_ne hne).2 (hs y (by simp [hy]))
    rw [List.length_erase_of_mem hx] at this
    have := List.length_pos_of_mem hx
    simp
    omega

theorem chain_concat {R : Nat → Nat → Prop} {i j k : Nat} (h : Spec.Chain R i j) (hR : R j k) :
    Spec.Chain R i k := by
  induction h with
  | one h => exact .more h (.one hR)
  | more h _ ih => exact .more h (ih hR)

/-- In a finite set where everything has a successor there is a cycle. -/
theorem cycle_of_successors {n : Nat} {R : Nat → Nat → Prop} {U : Nat → Prop}
    (hU : ∀ i, U i → i < n) (hs : ∀ i, U i → ∃ j, U j ∧ R i j) {i : Nat} (hi : U i) :
    ∃ j, Spec.Chain R j j := by
  apply Classical.byContradiction
  intro hno
  -- paths of every length, without repetition
  have key : ∀ k, ∃ (l : List Nat) (x : Nat), l.length = k ∧ l.Nodup ∧ U x ∧ (∀ y ∈ l, U y) ∧
      (∀ y ∈ l, Spec.Chain R y x) := by
    intro k
    induction k with
    | zero => exact ⟨[], i, rfl, List.nodup_nil, hi, by simp, by simp⟩
    | succ k ih =>
      obtain ⟨l, x, hl, hn, hx, hall, hch⟩ := ih
      obtain ⟨z, hz, hR⟩ := hs x hx
      refine ⟨x :: l, z, by simp [hl], List.nodup_cons.2 ⟨fun hm => ?_, hn⟩, hz, ?_, ?_⟩
      · exact hno ⟨x, hch x hm⟩
      · intro y hy
        rcases List.mem_cons.1 hy with rfl | hy
        · exact hx
        · exact hall y hy
      · intro y hy
        rcases List.mem_cons.1 hy with rfl | hy
        · exact .one hR
        · exact chain_concat (hch y hy) hR
  obtain ⟨l, x, hl, hn, -, hall, -⟩ := key (n + 1)
  have := nodup_bounded hn (fun y hy => hU y (hall y hy))
  omega

/-! ## Kahn's algorithm -/

theorem decrement_pos {k : Nat} (h : 0 < k) : decrement k = k - 1 := by
  unfold decrement
  rw [if_neg (by omega)]

theorem releaseChildren_spec : ∀ (cs edges queue : List Nat), cs.Nodup →
    (∀ c ∈ cs, ∃ k, edges[c]? = some k ∧ 0 < k) →
    ∃ edges' new, releaseChildren cs edges queue = .ok (edges', queue ++ new) ∧
      edges'.length = edges.length ∧
      (∀ j, edges'[j]? = if j ∈ cs then (edges[j]?).map (· - 1) else edges[j]?) ∧
      new.Nodup ∧ (∀ j, j ∈ new ↔ j ∈ cs ∧ edges[j]? = some 1)
  | [], edges, queue, _, _ => ⟨edges, [], by simp [releaseChildren], rfl, by simp, List.nodup_nil, by simp⟩
  | c :: cs, edges, queue, hn, hp => by
    rw [List.nodup_cons] at hn
    obtain ⟨k, hk, hk0⟩ := hp c (by simp)
    have hc : c < edges.length := (List.getElem?_eq_some_iff.1 hk).1
    have hp' : ∀ x ∈ cs, ∃ k', (edges.set c (decrement k))[x]? = some k' ∧ 0 < k' := by
      intro x hx
      have : c ≠ x := fun h => hn.1 (h ▸ hx)
      rw [List.getElem?_set_ne this]
      exact hp x (by simp [hx])
    obtain ⟨edges', new, hr, hlen, hget, hnd, hmem⟩ := releaseChildren_spec cs (edges.set c (decrement k))
      (if decrement k = 0 then queue ++ [c] else queue) hn.2 hp'
    have hcnew : c ∉ new := fun h => hn.1 ((hmem c).1 h).1
    refine ⟨edges', if decrement k = 0 then c :: new else new, ?_, by simpa using hlen, ?_, ?_, ?_⟩
    · unfold releaseChildren
      rw [hk]
      simp only
      rw [hr]
      split <;> simp
    · intro j
      rw [hget j]
      by_cases hj : j = c
      · subst hj
        rw [if_neg hn.1, if_pos (by simp), List.getElem?_set_self hc, hk, decrement_pos hk0]
        rfl
      · rw [List.getElem?_set_ne (Ne.symm hj)]
        simp [hj]
    · split
      · exact List.nodup_cons.2 ⟨hcnew, hnd⟩
      · exact hnd
    · intro j
      by_cases hj : j = c
      · subst hj
        rw [hk, decrement_pos hk0]
        split
        · simp; omega
        · simp only [List.mem_cons, true_or, true_and, Option.some.injEq]
          constructor
          · intro h; exact absurd h hcnew
          · intro h; omega
      · have := hmem j
        rw [List.getElem?_set_ne (Ne.symm hj)] at this
        split
        · simp [hj, this]
        · simp [hj, this]

/-- Parents and children describe the same edges, without repetition, between existing parameters. -/
structure EdgesOk (ws : List PWrap) : Prop where
  parents : ∀ (i : Nat) w, ws[i]? = some w → w.parents.Nodup ∧ ∀ p ∈ w.parents, p < ws.length
  children : ∀ (i : Nat) w, ws[i]? = some w → w.children.Nodup ∧
    ∀ c, c ∈ w.children ↔ ∃ w', ws[c]? = some w' ∧ i ∈ w'.parents

/-- Parents of `w` not yet in `done`. -/
def pendingParents (done : List Nat) (w : PWrap) : Nat := (w.parents.filter fun p => !done.contains p).length

structure KahnInv (ws : List PWrap) (edges queue sorted : List Nat) : Prop where
  nodup : (sorted ++ queue).Nodup
  bound : ∀ x ∈ sorted ++ queue, x < ws.length
  len : edges.length = ws.length
  count : ∀ (i : Nat) w, ws[i]? = some w → edges[i]? = some (pendingParents sorted w)
  ready : ∀ (i : Nat) w, ws[i]? = some w → (i ∈ sorted ++ queue ↔ ∀ p ∈ w.parents, p ∈ sorted)
  order : ∀ a i b, sorted = a ++ i :: b → ∀ w, ws[i]? = some w → ∀ p ∈ w.parents, p ∈ a

theorem pending_zero {done : List Nat} {w : PWrap} :
    pendingParents done w = 0 ↔ ∀ p ∈ w.parents, p ∈ done := by
  simp [pendingParents, List.filter_eq_nil_iff]

theorem filter_concat_length {done : List Nat} {i : Nat} (hi : i ∉ done) : ∀ {l : List Nat}, l.Nodup →
    (l.filter fun p => !(done ++ [i]).contains p).length =
      (l.filter fun p => !done.contains p).length - (if i ∈ l then 1 else 0) ∧
    (i ∈ l → 0 < (l.filter fun p => !done.contains p).length)
  | [], _ => by simp
  | x :: l, hn => by
    rw [List.nodup_cons] at hn
    obtain ⟨ih, ih2⟩ := filter_concat_length hi hn.2
    by_cases hx : x = i
    · subst hx
      rw [if_neg hn.1] at ih
      have h1 : done.contains x = false := by simpa using hi
      have h2 : (done ++ [x]).contains x = true := by simp
      rw [List.filter_cons, List.filter_cons, h1, h2, if_pos (c := x ∈ x :: l) (by simp)]
      generalize List.filter (fun p => !(done ++ [x]).contains p) l = A at *
      generalize List.filter (fun p => !done.contains p) l = B at *
      simp [ih]
    · have hc : (done ++ [i]).contains x = done.contains x := by simp [hx]
      rw [List.filter_cons, List.filter_cons, hc]
      have hm : i ∈ x :: l ↔ i ∈ l := by simp [Ne.symm hx]
      by_cases hil : i ∈ l
      · rw [if_pos hil] at ih
        rw [if_pos (hm.2 hil)]
        have := ih2 hil
        generalize List.filter (fun p => !(done ++ [i]).contains p) l = A at *
        generalize List.filter (fun p => !done.contains p) l = B at *
        cases done.contains x <;> simp [ih] <;> omega
      · rw [if_neg hil] at ih
        rw [if_neg (fun h => hil (hm.1 h))]
        refine ⟨?_, fun h => absurd (hm.1 h) hil⟩
        generalize List.filter (fun p => !(done ++ [i]).contains p) l = A at *
        generalize List.filter (fun p => !done.contains p) l = B at *
        cases done.contains x <;> simp [ih]

theorem pending_concat {ws : List PWrap} (he : EdgesOk ws) {done : List Nat} {i : Nat} (hi : i ∉ done)
    {j : Nat} {w : PWrap} (hw : ws[j]? = some w) :
    pendingParents (done ++ [i]) w = pendingParents done w - (if i ∈ w.parents then 1 else 0) ∧
    (i ∈ w.parents → 0 < pendingParents done w) :=
  filter_concat_length hi (he.parents j w hw).1

theorem kahn_step {ws : List PWrap} (he : EdgesOk ws) {edges q sorted : List Nat} {i : Nat}
    (hi : KahnInv ws edges (i :: q) sorted) :
    ∃ w, ws[i]? = some w ∧ ∃ edges' q', releaseChildren w.children edges q = .ok (edges', q') ∧
      KahnInv ws edges' q' (sorted ++ [i]) := by
  have hilt : i < ws.length := hi.bound i (by simp)
  refine ⟨ws[i], List.getElem?_eq_getElem hilt, ?_⟩
  have hw : ws[i]? = some ws[i] := List.getElem?_eq_getElem hilt
  obtain ⟨hcn, hcm⟩ := he.children i _ hw
  have hns : i ∉ sorted := by
    intro h
    have := hi.nodup
    rw [List.nodup_append] at this
    exact this.2.2 i h i (by simp) rfl
  have hpos : ∀ c ∈ ws[i].children, ∃ k, edges[c]? = some k ∧ 0 < k := by
    intro c hc
    obtain ⟨w', hw', hp⟩ := (hcm c).1 hc
    exact ⟨_, hi.count c w' hw', (pending_concat he hns hw').2 hp⟩
  obtain ⟨edges', new, hr, hlen, hget, hnd, hmem⟩ := releaseChildren_spec ws[i].children edges q hcn hpos
  refine ⟨edges', q ++ new, hr, ?_⟩
  have hcount : ∀ (j : Nat) w, ws[j]? = some w → edges'[j]? = some (pendingParents (sorted ++ [i]) w) := by
    intro j w hj
    rw [hget j, hi.count j w hj, (pending_concat he hns hj).1]
    by_cases hp : i ∈ w.parents
    · rw [if_pos ((hcm j).2 ⟨w, hj, hp⟩), if_pos hp]; rfl
    · rw [if_neg, if_neg hp]
      · rfl
      · intro hc
        obtain ⟨w', hw', hp'⟩ := (hcm j).1 hc
        rw [hj] at hw'
        exact hp (Option.some.inj hw' ▸ hp')
  have hready : ∀ (j : Nat) w, ws[j]? = some w →
      (j ∈ (sorted ++ [i]) ++ (q ++ new) ↔ ∀ p ∈ w.parents, p ∈ sorted ++ [i]) := by
    intro j w hj
    rw [← pending_zero (done := sorted ++ [i])]
    have hc1 := pending_concat he hns hj
    have hr1 := hi.ready j w hj
    rw [← pending_zero] at hr1
    have hmj := hmem j
    rw [hi.count j w hj] at hmj
    have hmem' : j ∈ (sorted ++ [i]) ++ (q ++ new) ↔ j ∈ sorted ++ i :: q ∨ j ∈ new := by
      simp [or_assoc, or_left_comm]
    rw [hmem', hr1, hmj, hc1.1, hcm j]
    constructor
    · rintro (h | ⟨⟨w', hw', hp⟩, h1⟩)
      · omega
      · rw [hj] at hw'
        have := Option.some.inj hw'
        subst this
        rw [if_pos hp]
        have := Option.some.inj h1
        omega
    · intro h
      by_cases hp : i ∈ w.parents
      · rw [if_pos hp] at h
        have := hc1.2 hp
        right
        exact ⟨⟨w, hj, hp⟩, by congr 1; omega⟩
      · rw [if_neg hp] at h
        left; omega
  have hnewfresh : ∀ j ∈ new, j ∉ sorted ++ i :: q := by
    intro j hj hj'
    obtain ⟨hjc, hj1⟩ := (hmem j).1 hj
    obtain ⟨w', hw', hp⟩ := (hcm j).1 hjc
    have := (hi.ready j w' hw').1 hj' i hp
    exact hns this
  refine ⟨?_, ?_, by rw [hlen, hi.len], hcount, hready, ?_⟩
  · have h1 : (sorted ++ [i]) ++ (q ++ new) = (sorted ++ i :: q) ++ new := by simp
    rw [h1, List.nodup_append]
    exact ⟨hi.nodup, hnd, fun a ha b hb hab => hnewfresh b hb (hab ▸ ha)⟩
  · intro x hx
    have h1 : (sorted ++ [i]) ++ (q ++ new) = (sorted ++ i :: q) ++ new := by simp
    rw [h1] at hx
    rcases List.mem_append.1 hx with hx | hx
    · exact hi.bound x hx
    · obtain ⟨w', hw', -⟩ := (hcm x).1 ((hmem x).1 hx).1
      exact (List.getElem?_eq_some_iff.1 hw').1
  · intro a j b hab w hj p hp
    rcases List.append_eq_append_iff.1 hab with ⟨c, hc1, hc2⟩ | ⟨c, hc1, hc2⟩
    · cases c with
      | nil =>
        simp at hc2
        obtain ⟨rfl, rfl⟩ := hc2
        rw [hc1, List.append_nil]
        exact (hi.ready i w hj).1 (by simp) p hp
      | cons x c =>
        simp at hc2
    · cases c with
      | nil =>
        simp at hc2
        obtain ⟨rfl, rfl⟩ := hc2
        rw [List.append_nil] at hc1
        rw [← hc1]
        exact (hi.ready j w hj).1 (by simp) p hp
      | cons x c =>
        simp at hc2
        obtain ⟨rfl, rfl⟩ := hc2
        exact hi.order a j c hc1 w hj p hp

theorem kahn_run {ws : List PWrap} (he : EdgesOk ws) :
    ∀ (fuel : Nat) (edges queue sorted : List Nat), KahnInv ws edges queue sorted →
      ws.length ≤ sorted.length + fuel →
      ∃ l edges', kahn ws fuel edges queue sorted = .ok l ∧ KahnInv ws edges' [] l := by
  intro fuel
  induction fuel with
  | zero =>
    intro edges queue sorted hi hf
    cases queue with
    | nil => exact ⟨sorted, edges, by unfold kahn; rfl, hi⟩
    | cons x q =>
      have := nodup_bounded hi.nodup hi.bound
      simp at this
      omega
  | succ fuel ih =>
    intro edges queue sorted hi hf
    cases queue with
    | nil => exact ⟨sorted, edges, by unfold kahn; rfl, hi⟩
    | cons x q =>
      obtain ⟨w, hw, edges', q', hr, hi'⟩ := kahn_step he hi
      obtain ⟨l, e', hk, hl⟩ := ih edges' q' (sorted ++ [x]) hi' (by simp; omega)
      refine ⟨l, e', ?_, hl⟩
      unfold kahn
      simp only [hw, hr]
      exact hk

theorem mem_roots : ∀ (ws : List PWrap) (k j : Nat),
    j ∈ roots k ws ↔ ∃ i w, j = k + i ∧ ws[i]? = some w ∧ w.parents = []
  | [], k, j => by simp [roots]
  | w :: ws, k, j => by
    have ih := mem_roots ws (k + 1) j
    have hshift : (∃ i w', j = k + i ∧ (w :: ws)[i]? = some w' ∧ w'.parents = []) ↔
        (j = k ∧ w.parents = []) ∨ ∃ i w', j = k + 1 + i ∧ ws[i]? = some w' ∧ w'.parents = [] := by
      constructor
      · rintro ⟨i, w', hj, hw, hp⟩
        cases i with
        | zero =>
          simp at hw; subst hw
          exact .inl ⟨hj, hp⟩
        | succ i => exact .inr ⟨i, w', by omega, by simpa using hw, hp⟩
      · rintro (⟨hj, hp⟩ | ⟨i, w', hj, hw, hp⟩)
        · exact ⟨0, w, hj, rfl, hp⟩
        · exact ⟨i + 1, w', by omega, by simpa using hw, hp⟩
    rw [hshift]
    unfold roots
    split
    · rename_i hz
      rw [List.mem_cons, ih]
      have : w.parents = [] := List.length_eq_zero_iff.1 hz
      simp [this]
    · rename_i hz
      have : ¬ w.parents = [] := fun h => hz (by simp [h])
      rw [ih]
      simp [this]

theorem roots_sorted : ∀ (ws : List PWrap) (k : Nat), (roots k ws).Nodup
  | [], k => List.nodup_nil
  | w :: ws, k => by
    have ih := roots_sorted ws (k + 1)
    unfold roots
    split
    · refine List.nodup_cons.2 ⟨fun h => ?_, ih⟩
      obtain ⟨i, w', hj, -⟩ := (mem_roots ws (k + 1) k).1 h
      omega
    · exact ih

theorem kahn_start (ws : List PWrap) :
    KahnInv ws (ws.map (·.parents.length)) (roots 0 ws) [] := by
  have hmem := mem_roots ws 0
  refine ⟨by simpa using roots_sorted ws 0, ?_, by simp, ?_, ?_, ?_⟩
  · intro x hx
    obtain ⟨i, w, hj, hw, -⟩ := (hmem x).1 (by simpa using hx)
    have := (List.getElem?_eq_some_iff.1 hw).1
    omega
  · intro i w hw
    have : w.parents.filter (fun p => !([] : List Nat).contains p) = w.parents :=
      List.filter_eq_self.2 (by simp)
    rw [pendingParents, this]
    simp [hw]
  · intro i w hw
    rw [List.nil_append, hmem i]
    constructor
    · rintro ⟨j, w', hj, hw', hp⟩
      have : j = i := by omega
      subst this
      rw [hw] at hw'
      rw [Option.some.inj hw', hp]
      simp
    · intro h
      refine ⟨i, w, by omega, hw, ?_⟩
      cases hp : w.parents with
      | nil => rfl
      | cons x l => exact absurd (h x (by simp [hp])) (by simp)
  · intro a i b h
    simp at h

/-- A finite acyclic-or-not verdict: the result is complete exactly when there is no cycle. -/
theorem kahn_result {ws : List PWrap} (he : EdgesOk ws) :
    ∃ l, kahn ws ws.length (ws.map (·.parents.length)) (roots 0 ws) [] = .ok l ∧
      l.Nodup ∧ (∀ x ∈ l, x < ws.length) ∧
      (∀ a i b, l = a ++ i :: b → ∀ w, ws[i]? = some w → ∀ p ∈ w.parents, p ∈ a) ∧
      (l.length < ws.length ↔ ∃ i, Spec.Chain (fun i p => ∃ w, ws[i]? = some w ∧ p ∈ w.parents) i i) := by
  obtain ⟨l, edges', hk, hi⟩ := kahn_run he ws.length _ _ _ (kahn_start ws) (by simp)
  have hn : l.Nodup := by simpa using hi.nodup
  have hb : ∀ x ∈ l, x < ws.length := by simpa using hi.bound
  refine ⟨l, hk, hn, hb, hi.order, ?_⟩
  constructor
  · intro hlt
    -- some parameter is missing, and each missing one has a missing parent
    have hmissing : ∃ i, i < ws.length ∧ i ∉ l := by
      apply Classical.byContradiction
      intro hno
      have hall : ∀ i < ws.length, i ∈ l := fun i hi' =>
        Classical.byContradiction fun h => hno ⟨i, hi', h⟩
      have hsub : (List.range ws.length).length ≤ l.length :=
        nodup_subset_length List.nodup_range (fun x hx => hall x (List.mem_range.1 hx))
      simp at hsub
      omega
    obtain ⟨i, hilt, hil⟩ := hmissing
    refine cycle_of_successors (n := ws.length) (U := fun i => i < ws.length ∧ i ∉ l) (fun i h => h.1) ?_ ⟨hilt, hil⟩
    rintro j ⟨hj, hjl⟩
    have hw : ws[j]? = some ws[j] := List.getElem?_eq_getElem hj
    have hr := hi.ready j _ hw
    rw [List.append_nil] at hr
    have : ¬ ∀ p ∈ ws[j].parents, p ∈ l := fun h => hjl (hr.2 h)
    apply Classical.byContradiction
    intro hno
    apply this
    intro p hp
    apply Classical.byContradiction
    intro hpl
    exact hno ⟨p, ⟨(he.parents j _ hw).2 p hp, hpl⟩, _, hw, hp⟩
  · rintro ⟨i, hc⟩
    apply Classical.byContradiction
    intro hge
    have hall := nodup_full hn hb (by omega)
    -- positions strictly decrease along a chain
    have hdec : ∀ i j, Spec.Chain (fun i p => ∃ w, ws[i]? = some w ∧ p ∈ w.parents) i j →
        ∀ a b, l = a ++ i :: b → j ∈ a := by
      intro i j h
      induction h with
      | one h =>
        intro a b hab
        obtain ⟨w, hw, hp⟩ := h
        exact hi.order a _ b hab w hw _ hp
      | @more i j k h _ ih =>
        intro a b hab
        obtain ⟨w, hw, hp⟩ := h
        have := hi.order a _ b hab w hw _ hp
        obtain ⟨a1, a2, rfl⟩ := List.append_of_mem this
        have := ih a1 (a2 ++ i :: b) (by rw [hab]; simp)
        simp [this]
    have hil : i < ws.length := by
      cases hc with
      | one h => obtain ⟨w, hw, -⟩ := h; exact (List.getElem?_eq_some_iff.1 hw).1
      | more h _ => obtain ⟨w, hw, -⟩ := h; exact (List.getElem?_eq_some_iff.1 hw).1
    obtain ⟨a, b, hab⟩ := List.append_of_mem (hall i hil)
    have hia := hdec i i hc a b hab
    rw [hab] at hn
    have := (List.nodup_append.1 hn).2.2 i hia i (by simp)
    exact this rfl

end CCS
