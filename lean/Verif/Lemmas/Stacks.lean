import Verif.Spec.Stacks

/-!
# Counting references to error stacks
-/

namespace CCS.Stacks

open CCS CCS.Stacks.Spec

/-- Reference counts are right, `r` being the number of references. -/
structure Counted (heap : Nat → Option Cell) (next : Nat) (r : Nat → Nat) : Prop where
  fresh : ∀ h, next ≤ h → heap h = none
  dead : ∀ h, heap h = none → r h = 0
  alive : ∀ h c, heap h = some c → c.refs = r h ∧ 0 < r h

theorem Counted.congr {heap next r r'} (h : Counted heap next r) (hr : ∀ a, r' a = r a) : Counted heap next r' := by
  have : r' = r := funext hr
  rw [this]
  exact h

theorem Counted.cell {heap next r} (h : Counted heap next r) {a : Nat} (ha : 0 < r a) :
    ∃ c, heap a = some c ∧ c.refs = r a := by
  cases hc : heap a with
  | none =>
    have := h.dead a hc
    omega
  | some c => exact ⟨c, rfl, (h.alive a c hc).1⟩

/-- A change of content. -/
theorem Counted.write {heap next r} (h : Counted heap next r) {a : Nat} {c c' : Cell} (ha : heap a = some c)
    (hc : c'.refs = c.refs) : Counted (put heap a (some c')) next r where
  fresh := by
    intro b hb
    have hne : b ≠ a := by
      rintro rfl
      rw [h.fresh b hb] at ha
      cases ha
    simp [put, hne, h.fresh b hb]
  dead := by
    intro b hb
    by_cases hne : b = a
    · simp [put, hne] at hb
    · simp [put, hne] at hb
      exact h.dead b hb
  alive := by
    intro b d hb
    by_cases hne : b = a
    · subst hne
      simp [put] at hb
      subst hb
      rw [hc]
      exact h.alive b c ha
    · simp [put, hne] at hb
      exact h.alive b d hb

theorem Counted.create {heap next r} (h : Counted heap next r) (e : ErrorStack) :
    Counted (put heap next (some ⟨e, 1⟩)) (next + 1) (fun a => if a = next then r a + 1 else r a) where
  fresh := by
    intro b hb
    have hne : b ≠ next := by omega
    simp [put, hne, h.fresh b (by omega)]
  dead := by
    intro b hb
    by_cases hne : b = next
    · simp [put, hne] at hb
    · simp [put, hne] at hb
      simp [hne, h.dead b hb]
  alive := by
    intro b d hb
    by_cases hne : b = next
    · subst hne
      simp [put] at hb
      subst hb
      have := h.dead b (h.fresh b (Nat.le_refl _))
      simp [this]
    · simp [put, hne] at hb
      simp only [hne, if_false]
      exact h.alive b d hb

theorem Counted.retain {heap next r} (h : Counted heap next r) {a : Nat} (ha : 0 < r a) :
    ∃ heap', retain heap a = .ok heap' ∧ Counted heap' next (fun b => if b = a then r b + 1 else r b) ∧
      ∀ b, (heap' b).map (·.content) = (heap b).map (·.content) := by
  obtain ⟨c, hc, hr⟩ := h.cell ha
  refine ⟨_, by unfold Stacks.retain; rw [hc]; simp only; rw [if_neg (by omega)], ⟨?_, ?_, ?_⟩, ?_⟩
  · intro b hb
    have hne : b ≠ a := by
      rintro rfl
      rw [h.fresh b hb] at hc
      cases hc
    simp [put, hne, h.fresh b hb]
  · intro b hb
    by_cases hne : b = a
    · simp [put, hne] at hb
    · simp [put, hne] at hb
      simp [hne, h.dead b hb]
  · intro b d hb
    by_cases hne : b = a
    · subst hne
      simp [put] at hb
      subst hb
      simp [hr]
    · simp [put, hne] at hb
      simp only [hne, if_false]
      exact h.alive b d hb
  · intro b
    by_cases hne : b = a
    · simp [put, hne, hc]
    · simp [put, hne]

theorem Counted.release {heap next r} (h : Counted heap next r) {a : Nat} (ha : 0 < r a) :
    ∃ heap', release heap a = .ok heap' ∧ Counted heap' next (fun b => if b = a then r b - 1 else r b) ∧
      ∀ b, 0 < (if b = a then r b - 1 else r b) → (heap' b).map (·.content) = (heap b).map (·.content) := by
  obtain ⟨c, hc, hr⟩ := h.cell ha
  by_cases h1 : c.refs = 1
  · refine ⟨put heap a none, by unfold Stacks.release; rw [hc]; simp only; rw [if_neg (by omega), if_pos h1], ⟨?_, ?_, ?_⟩, ?_⟩
    · intro b hb
      simp only [put]
      split
      · rfl
      · exact h.fresh b hb
    · intro b hb
      by_cases hne : b = a
      · subst hne; simp; omega
      · simp [put, hne] at hb
        simp [hne, h.dead b hb]
    · intro b d hb
      by_cases hne : b = a
      · simp [put, hne] at hb
      · simp [put, hne] at hb
        simp only [hne, if_false]
        exact h.alive b d hb
    · intro b hb
      by_cases hne : b = a
      · subst hne; simp at hb; omega
      · simp [put, hne]
  · refine ⟨_, by unfold Stacks.release; rw [hc]; simp only; rw [if_neg (by omega), if_neg h1], ⟨?_, ?_, ?_⟩, ?_⟩
    · intro b hb
      have hne : b ≠ a := by
        rintro rfl
        rw [h.fresh b hb] at hc
        cases hc
      simp [put, hne, h.fresh b hb]
    · intro b hb
      by_cases hne : b = a
      · simp [put, hne] at hb
      · simp [put, hne] at hb
        simp [hne, h.dead b hb]
    · intro b d hb
      by_cases hne : b = a
      · subst hne
        simp [put] at hb
        subst hb
        simp [hr]
        omega
      · simp [put, hne] at hb
        simp only [hne, if_false]
        exact h.alive b d hb
    · intro b _
      by_cases hne : b = a
      · simp [put, hne, hc]
      · simp [put, hne]

/-! ## The world -/

/-- Reference counts are right in a process. -/
def Right (w : World) (l : Ledger) : Prop := Counted w.heap w.next (references w l)

theorem slot_get {w : World} {t : Nat} (ht : t < w.slots.length) : w.slot t = w.slots[t] := by
  unfold World.slot
  simp [List.getD, List.getElem?_eq_getElem ht]

theorem count_set {w : World} {t : Nat} (ht : t < w.slots.length) (x : Option Nat) (a : Option Nat) :
    (w.slots.set t x).count a = w.slots.count a - (if w.slot t = a then 1 else 0) + (if x = a then 1 else 0) := by
  rw [List.count_set ht, ← slot_get ht]
  simp only [beq_iff_eq]

theorem count_slot {w : World} {t : Nat} {h : Nat} (hs : w.slot t = some h) : 0 < w.slots.count (some h) := by
  have ht : t < w.slots.length := by
    by_cases hlt : t < w.slots.length
    · exact hlt
    · unfold World.slot at hs
      simp [List.getD, List.getElem?_eq_none (Nat.le_of_not_lt hlt)] at hs
  rw [slot_get ht] at hs
  exact List.count_pos_iff.mpr (hs ▸ List.getElem_mem ht)

/-- Releasing the current stack of a thread: right once the variable is reset. -/
theorem Right.releaseCurrent {w : World} {l : Ledger} (h : Right w l) {t : Nat} (ht : t < w.slots.length) :
    ∃ heap, releaseCurrent w t = .ok heap ∧ Right { w with heap := heap, slots := w.slots.set t none } l ∧
      ∀ b, 0 < references { w with slots := w.slots.set t none } l b →
        (heap b).map (·.content) = (w.heap b).map (·.content) := by
  unfold Stacks.releaseCurrent
  cases hs : w.slot t with
  | none =>
    refine ⟨w.heap, rfl, ?_, fun b _ => rfl⟩
    refine Counted.congr h ?_
    intro a
    unfold references
    simp only
    rw [count_set ht]
    simp [hs]
  | some a =>
    have hpos : 0 < references w l a := by
      have := count_slot hs
      unfold references
      omega
    obtain ⟨heap, h1, h2, h3⟩ := Counted.release h hpos
    have hr : ∀ b, references { w with slots := w.slots.set t none } l b =
        (if b = a then references w l b - 1 else references w l b) := by
      intro b
      unfold references
      simp only
      rw [count_set ht, hs]
      have hc := count_slot hs
      by_cases hba : b = a
      · subst hba
        simp
        omega
      · have : ¬ a = b := fun x => hba x.symm
        simp [hba, this]
    refine ⟨heap, by simp only [h1], ?_, ?_⟩
    · exact Counted.congr h2 hr
    · intro b hb
      rw [hr] at hb
      exact h3 b hb

theorem slots_step {w : World} {t : Nat} {c : ErrCall} : (step w t c).1.slots.length = w.slots.length := by
  cases c with
  | create => rfl
  | raise => simp only [step]; split <;> simp
  | pushCurrent =>
    simp only [step]
    split
    · rfl
    · split <;> rfl
  | push h f =>
    cases h with
    | none => rfl
    | some h => simp only [step]; split <;> rfl
  | take => simp [step]
  | clear => simp only [step]; split <;> simp
  | set h =>
    cases h with
    | none => rfl
    | some h =>
      simp only [step]
      split
      · rfl
      · split <;> simp
  | retain h =>
    cases h with
    | none => rfl
    | some h => simp only [step]; split <;> rfl
  | release h =>
    cases h with
    | none => rfl
    | some h => simp only [step]; split <;> rfl
  | read h =>
    cases h with
    | none => rfl
    | some h => simp only [step]; split <;> rfl

/-- A permitted call is defined and keeps the counts right. -/
theorem step_right {w : World} {l : Ledger} (h : Right w l) {t : Nat} (ht : t < w.slots.length) {c : ErrCall}
    (hp : Permitted l c) : (step w t c).2 ≠ .ub ∧ Right (step w t c).1 (after l c (step w t c).2) := by
  cases c with
  | create code msg =>
    refine ⟨by simp [step], ?_⟩
    refine Counted.congr (Counted.create h ⟨code, msg, []⟩) ?_
    intro a
    simp only [step, after, settle, gain, references]
    split <;> omega
  | raise code msg =>
    obtain ⟨heap, h1, h2, -⟩ := Right.releaseCurrent h ht
    simp only [step, h1]
    refine ⟨by simp, ?_⟩
    refine Counted.congr (Counted.create h2 ⟨code, msg, []⟩) ?_
    intro a
    have hd := h2.dead w.next (h2.fresh w.next (Nat.le_refl _))
    simp only [references, after, settle] at hd ⊢
    rw [count_set ht] at hd
    rw [count_set ht, count_set ht]
    by_cases ha : a = w.next
    · subst ha; simp; omega
    · have : ¬ w.next = a := fun x => ha x.symm
      simp [ha, this]
  | pushCurrent f =>
    simp only [step]
    cases hs : w.slot t with
    | none => exact ⟨by simp, h⟩
    | some a =>
      have hpos : 0 < references w l a := by
        have := count_slot hs
        unfold references
        omega
      obtain ⟨c, hc, -⟩ := Counted.cell h hpos
      simp only [hc]
      exact ⟨by simp, Counted.write h hc rfl⟩
  | push a f =>
    cases a with
    | none => exact ⟨by simp [step], h⟩
    | some a =>
      have hpos : 0 < references w l a := Nat.lt_of_lt_of_le hp (Nat.le_add_right _ _)
      obtain ⟨c, hc, -⟩ := Counted.cell h hpos
      simp only [step, hc]
      exact ⟨by simp, Counted.write h hc rfl⟩
  | take =>
    refine ⟨by simp [step], ?_⟩
    refine Counted.congr h ?_
    intro a
    simp only [step, after]
    cases hs : w.slot t with
    | none =>
      simp only [settle, references]
      rw [count_set ht]
      simp [hs]
    | some b =>
      have hc := count_slot hs
      simp only [settle, references, gain]
      rw [count_set ht, hs]
      by_cases hab : a = b
      · subst hab; simp; omega
      · have : ¬ b = a := fun x => hab x.symm
        simp [hab, this]
  | clear =>
    obtain ⟨heap, h1, h2, -⟩ := Right.releaseCurrent h ht
    simp only [step, h1]
    exact ⟨by simp, h2⟩
  | set a =>
    cases a with
    | none => exact ⟨by simp [step], h⟩
    | some a =>
      have hpos : 0 < references w l a := Nat.lt_of_lt_of_le hp (Nat.le_add_right _ _)
      obtain ⟨c, hc, -⟩ := Counted.cell h hpos
      obtain ⟨heap, h1, h2, -⟩ := Right.releaseCurrent h ht
      simp only [step, hc, h1]
      refine ⟨by simp, ?_⟩
      refine Counted.congr h2 ?_
      intro b
      have hp' : 0 < l a := hp
      simp only [references, after, settle, lose]
      rw [count_set ht, count_set ht]
      by_cases hab : b = a
      · subst hab; simp; omega
      · have : ¬ a = b := fun x => hab x.symm
        simp [hab, this]
  | retain a =>
    cases a with
    | none => exact ⟨by simp [step], h⟩
    | some a =>
      have hpos : 0 < references w l a := Nat.lt_of_lt_of_le hp (Nat.le_add_right _ _)
      obtain ⟨heap, h1, h2, -⟩ := Counted.retain h hpos
      simp only [step, h1]
      refine ⟨by simp, Counted.congr h2 ?_⟩
      intro b
      simp only [references, after, settle, gain]
      split <;> omega
  | release a =>
    cases a with
    | none => exact ⟨by simp [step], h⟩
    | some a =>
      have hpos : 0 < references w l a := Nat.lt_of_lt_of_le hp (Nat.le_add_right _ _)
      obtain ⟨heap, h1, h2, -⟩ := Counted.release h hpos
      simp only [step, h1]
      refine ⟨by simp, Counted.congr h2 ?_⟩
      intro b
      have hp' : 0 < l a := hp
      simp only [references, after, settle, lose]
      by_cases hab : b = a
      · subst hab; simp; omega
      · simp [hab]
  | read a =>
    cases a with
    | none => exact ⟨by simp [step], h⟩
    | some a =>
      have hpos : 0 < references w l a := Nat.lt_of_lt_of_le hp (Nat.le_add_right _ _)
      obtain ⟨c, hc, -⟩ := Counted.cell h hpos
      simp only [step, hc]
      exact ⟨by simp, h⟩

theorem start_right (n : Nat) : Right (World.start n) noReference where
  fresh := fun _ _ => rfl
  dead := by
    intro h _
    simp [references, noReference, World.start, List.count_replicate]
  alive := by
    intro h c hc
    cases hc

theorem run_right : ∀ (schedule : List (Nat × ErrCall)) (w : World) (l : Ledger), Right w l → Lawful w l schedule →
    (∀ r ∈ answers w schedule, r ≠ .ub) ∧ Right (run w schedule) (owned w l schedule)
  | [], w, l, h, _ => ⟨by simp [answers], h⟩
  | (t, c) :: rest, w, l, h, hl => by
    obtain ⟨h1, h2, h3⟩ := hl
    obtain ⟨h4, h5⟩ := step_right h h1 h2
    obtain ⟨h6, h7⟩ := run_right rest _ _ h5 h3
    refine ⟨?_, h7⟩
    intro r hr
    simp only [answers, List.mem_cons] at hr
    rcases hr with rfl | hr
    · exact h4
    · exact h6 r hr

end CCS.Stacks
