import Verif.Lemmas.Stacks

/-!
# Error stacks are owned by one side at a time, and threads do not see each other's errors

C123: references to error stacks.  C124: independence of threads.  C125: reporting an error terminates.
-/

namespace CCS.Props

open CCS CCS.Stacks CCS.Stacks.Spec

/-! ## C123 -/

/-- **C123** For any number of threads and any schedule of calls in which the program only names stacks it has a reference to
(creating, getting and retaining give one, setting and releasing take one): no call touches freed memory, and a stack is in
memory exactly as long as the program or a thread has a reference to it, its count being the number of references. -/
theorem C123_owned_stacks (n : Nat) (schedule : List (Nat × ErrCall)) (hl : Lawful (World.start n) noReference schedule) :
    let w := run (World.start n) schedule
    let l := owned (World.start n) noReference schedule
    (∀ r ∈ answers (World.start n) schedule, r ≠ .ub) ∧
    (∀ h, w.heap h = none ↔ references w l h = 0) ∧
    (∀ h c, w.heap h = some c → c.refs = references w l h) := by
  obtain ⟨h1, h2⟩ := run_right schedule _ _ (start_right n) hl
  refine ⟨h1, ?_, fun h c hc => (h2.alive h c hc).1⟩
  intro h
  refine ⟨h2.dead h, ?_⟩
  intro h0
  cases hc : (run (World.start n) schedule).heap h with
  | none => rfl
  | some c =>
    have := (h2.alive h c hc).2
    omega

/-- **C123** When the program has given back all its references and every thread has cleared its error, no stack is left. -/
theorem C123_nothing_left (n : Nat) (schedule : List (Nat × ErrCall)) (hl : Lawful (World.start n) noReference schedule)
    (ho : ∀ h, owned (World.start n) noReference schedule h = 0)
    (hs : ∀ x ∈ (run (World.start n) schedule).slots, x = none) (h : Nat) :
    (run (World.start n) schedule).heap h = none := by
  obtain ⟨-, h2, -⟩ := C123_owned_stacks n schedule hl
  rw [h2]
  unfold references
  rw [ho h, List.count_eq_zero_of_not_mem]
  intro hm
  cases hs _ hm

/-- **C123** What is read of a stack is what it was created with and the frames pushed, in order: reading after creating and
pushing any frames. -/
theorem C123_reads (w : World) (t : Nat) (code : Err) (msg : Bytes) (frames : List Frame) :
    let w' := run w ((t, .create code msg) :: frames.map fun f => (t, .push (some w.next) f))
    (step w' t (.read (some w.next))).2 = .ok (.content ⟨code, msg, frames⟩) := by
  have key : ∀ (fs : List Frame) (w' : World) (e : ErrorStack) (k : Nat), w'.heap w.next = some ⟨e, k⟩ →
      (run w' (fs.map fun f => (t, .push (some w.next) f))).heap w.next = some ⟨{ e with elems := e.elems ++ fs }, k⟩ := by
    intro fs
    induction fs with
    | nil =>
      intro w' e k h
      simp [run, h]
    | cons f fs ih =>
      intro w' e k h
      simp only [List.map_cons, run]
      have := ih (step w' t (.push (some w.next) f)).1 { e with elems := e.elems ++ [f] } k
        (by simp only [step, h]; simp [put])
      rw [this]
      simp
  have h := key frames (step w t (.create code msg)).1 ⟨code, msg, []⟩ 1 (by simp [step, put])
  simp only [run, step] at h ⊢
  rw [h]
  simp

/-- **C123** Setting the error of a thread from Python keeps the reference of the Python object: whatever was current (the same
stack included), the counts stay right with the program having as many references as before. -/
theorem C123_binding_set {w : World} {l : Ledger} (h : Right w l) {t : Nat} (ht : t < w.slots.length) {a : Nat}
    (ha : 0 < l a) : ∃ w', bindingSet w t (some a) = (w', .ok .done) ∧ Right w' l ∧ w'.slot t = some a := by
  have h1 := step_right (t := t) (c := .set (some a)) h ht ha
  obtain ⟨c, hc, -⟩ := Counted.cell h (a := a) (Nat.lt_of_lt_of_le ha (Nat.le_add_right _ _))
  obtain ⟨heap, h2, h3, -⟩ := Right.releaseCurrent h ht
  have hstep : step w t (.set (some a)) = ({ w with heap := heap, slots := w.slots.set t (some a) }, .ok .done) := by
    simp only [step, hc, h2]
  rw [hstep] at h1
  have hr : Right { w with heap := heap, slots := w.slots.set t (some a) } (lose l a) := h1.2
  have hslot : ({ w with heap := heap, slots := w.slots.set t (some a) } : World).slot t = some a := by
    unfold World.slot
    simp [List.getD, ht]
  have hpos : 0 < references { w with heap := heap, slots := w.slots.set t (some a) } (lose l a) a :=
    Nat.lt_of_lt_of_le (count_slot hslot) (Nat.le_add_left _ _)
  obtain ⟨heap', h4, h5, -⟩ := Counted.retain hr hpos
  refine ⟨{ w with heap := heap', slots := w.slots.set t (some a) }, ?_, ?_, hslot⟩
  · unfold bindingSet
    rw [hstep]
    simp only [step, h4]
  · refine Counted.congr h5 ?_
    intro b
    simp only [references, lose]
    by_cases hb : b = a
    · subst hb; simp; omega
    · simp [hb]

/-- **C123, necessary** A program that sets a stack it has already given away: the second call releases the last reference and
keeps the address, and the next call of the thread touches freed memory. -/
theorem C123_given_away_twice :
    let schedule : List (Nat × ErrCall) := [(0, .create .invalidValue []), (0, .set (some 0)), (0, .set (some 0)), (0, .pushCurrent 1)]
    ¬ Lawful (World.start 1) noReference schedule ∧
    answers (World.start 1) schedule = [.ok (.handle (some 0)), .ok .done, .ok .done, .ub] := by
  refine ⟨?_, by decide +kernel⟩
  intro h
  exact absurd h.2.2.2.2.2.1 (by decide +kernel)

/-- A lawful schedule of two threads: one raises an error, gets it, hands it to the other thread, which clears it. -/
example : let schedule : List (Nat × ErrCall) := [(0, .raise .invalidValue [65#8]), (0, .pushCurrent 7), (1, .raise .outOfBounds []),
      (0, .take), (1, .read (some 0)), (1, .set (some 0)), (1, .clear)]
    Lawful (World.start 2) noReference schedule ∧
    answers (World.start 2) schedule = [.ok .done, .ok .done, .ok .done, .ok (.handle (some 0)),
      .ok (.content ⟨.invalidValue, [65#8], [7]⟩), .ok .done, .ok .done] ∧
    (run (World.start 2) schedule).heap 0 = none ∧ (run (World.start 2) schedule).heap 1 = none := by
  refine ⟨?_, by decide +kernel, by decide +kernel, by decide +kernel⟩
  simp only [Lawful]
  refine ⟨by decide, trivial, by decide +kernel, trivial, by decide +kernel, trivial, by decide +kernel, trivial,
    by decide +kernel, by decide +kernel, by decide +kernel, by decide +kernel, by decide +kernel, trivial, trivial⟩

/-! ## C124 -/

theorem slot_set_other {s : List (Option Nat)} {t u : Nat} (hne : u ≠ t) (x : Option Nat) :
    (s.set u x).getD t none = s.getD t none := by
  simp [List.getD, List.getElem?_set_ne hne]

theorem slot_set_same {s : List (Option Nat)} {t : Nat} (ht : t < s.length) (x : Option Nat) :
    (s.set t x).getD t none = x := by
  simp [List.getD, ht]

/-- What thread `t` sees only depends on its slot and on the content it designates. -/
theorem seen_congr {w w' : World} {t : Nat} (hs : w'.slot t = w.slot t)
    (hc : ∀ h, w.slot t = some h → (w'.heap h).map (·.content) = (w.heap h).map (·.content)) : seen w' t = seen w t := by
  unfold seen
  rw [hs]
  cases hw : w.slot t with
  | none => rfl
  | some h => exact hc h hw

theorem references_slot {w : World} {l : Ledger} {t h : Nat} (hs : w.slot t = some h) : 0 < references w l h :=
  Nat.lt_of_lt_of_le (count_slot hs) (Nat.le_add_left _ _)

theorem put_other {heap : Nat → Option Cell} {a b : Nat} {c : Option Cell} (h : b ≠ a) : put heap a c b = heap b := by
  simp [put, h]

/-- A call of another thread changes nothing for `t`. -/
theorem step_other {w : World} {l : Ledger} (h : Right w l) {t u : Nat} (hu : u < w.slots.length) (hne : u ≠ t) {c : ErrCall}
    (hp : Permitted l c) (ha : Apart w u c) : seen (step w u c).1 t = seen w t := by
  have alive : ∀ a, w.slot t = some a → a ≠ w.next := by
    intro a hs hn
    subst hn
    have := h.dead _ (h.fresh _ (Nat.le_refl _))
    have := references_slot (l := l) hs
    omega
  have released : ∀ heap, releaseCurrent w u = .ok heap → ∀ a, w.slot t = some a →
      (heap a).map (·.content) = (w.heap a).map (·.content) := by
    intro heap hr a hs
    obtain ⟨heap', h1, -, h3⟩ := Right.releaseCurrent h hu
    rw [h1] at hr
    cases hr
    apply h3
    apply references_slot (t := t)
    show (w.slots.set u none).getD t none = some a
    rw [slot_set_other hne]
    exact hs
  cases c with
  | create code msg =>
    refine seen_congr rfl ?_
    intro a hs
    simp only [step]
    rw [put_other (alive a hs)]
  | raise code msg =>
    obtain ⟨heap, h1, -, -⟩ := Right.releaseCurrent h hu
    simp only [step, h1]
    refine seen_congr (slot_set_other hne _) ?_
    intro a hs
    simp only
    rw [put_other (alive a hs)]
    exact released heap h1 a hs
  | pushCurrent f =>
    simp only [step]
    cases hs : w.slot u with
    | none => rfl
    | some b =>
      cases hc : w.heap b with
      | none => simp only [hc]
      | some c =>
        simp only [hc]
        refine seen_congr rfl ?_
        intro a hs'
        have hab : a ≠ b := by
          rintro rfl
          exact ha a hs t (fun x => hne x.symm) hs'
        simp only
        rw [put_other hab]
  | push b f =>
    cases b with
    | none => rfl
    | some b =>
      simp only [step]
      cases hc : w.heap b with
      | none => rfl
      | some c =>
        refine seen_congr rfl ?_
        intro a hs'
        have hab : a ≠ b := by
          rintro rfl
          exact ha t (fun x => hne x.symm) hs'
        simp only
        rw [put_other hab]
  | take =>
    refine seen_congr (slot_set_other hne _) ?_
    intro a _
    rfl
  | clear =>
    obtain ⟨heap, h1, -, -⟩ := Right.releaseCurrent h hu
    simp only [step, h1]
    refine seen_congr (slot_set_other hne _) ?_
    intro a hs
    exact released heap h1 a hs
  | set b =>
    cases b with
    | none => rfl
    | some b =>
      obtain ⟨heap, h1, -, -⟩ := Right.releaseCurrent h hu
      simp only [step, h1]
      cases hc : w.heap b with
      | none => rfl
      | some c =>
        refine seen_congr (slot_set_other hne _) ?_
        intro a hs
        exact released heap h1 a hs
  | retain b =>
    cases b with
    | none => rfl
    | some b =>
      have hpos : 0 < references w l b := Nat.lt_of_lt_of_le hp (Nat.le_add_right _ _)
      obtain ⟨heap, h1, -, h3⟩ := Counted.retain h hpos
      simp only [step, h1]
      exact seen_congr rfl fun a _ => h3 a
  | release b =>
    cases b with
    | none => rfl
    | some b =>
      have hp' : 0 < l b := hp
      have hpos : 0 < references w l b := Nat.lt_of_lt_of_le hp' (Nat.le_add_right _ _)
      obtain ⟨heap, h1, -, h3⟩ := Counted.release h hpos
      simp only [step, h1]
      refine seen_congr rfl ?_
      intro a hs
      apply h3
      have hr := references_slot (l := l) hs
      have hc := count_slot hs
      split
      · next hab =>
        subst hab
        unfold references
        omega
      · exact hr
  | read b =>
    cases b with
    | none => rfl
    | some b =>
      simp only [step]
      cases w.heap b <;> rfl

/-- A call of thread `t` does to its error what it does in the model of one thread. -/
theorem step_own {w : World} {l : Ledger} (h : Right w l) {t : Nat} (ht : t < w.slots.length) {c : ErrCall}
    (hp : Permitted l c) : seen (step w t c).1 t = slotRun (seen w t) (meaning w t c) := by
  have alive : ∀ a, w.slot t = some a → a ≠ w.next := by
    intro a hs hn
    subst hn
    have := h.dead _ (h.fresh _ (Nat.le_refl _))
    have := references_slot (l := l) hs
    omega
  cases c with
  | create code msg =>
    show seen (step w t (.create code msg)).1 t = seen w t
    refine seen_congr rfl ?_
    intro a hs
    simp only [step]
    rw [put_other (alive a hs)]
  | raise code msg =>
    obtain ⟨heap, h1, -, -⟩ := Right.releaseCurrent h ht
    simp only [step, h1, meaning, slotRun, List.foldl_cons, List.foldl_nil, slotStep, createError]
    unfold seen World.slot
    simp only
    rw [slot_set_same ht]
    simp [put]
  | pushCurrent f =>
    simp only [step, meaning, slotRun, List.foldl_cons, List.foldl_nil, slotStep, pushError]
    cases hs : w.slot t with
    | none => simp [seen, hs]
    | some b =>
      obtain ⟨c, hc, -⟩ := Counted.cell h (references_slot (l := l) hs)
      simp only [hc]
      have h1 : seen w t = some c.content := by simp [seen, hs, hc]
      rw [h1]
      have h2 : ({ w with heap := put w.heap b (some { c with content := { c.content with elems := c.content.elems ++ [f] } }) } :
          World).slot t = some b := hs
      unfold seen
      rw [h2]
      simp [put]
  | push b f =>
    cases b with
    | none => rfl
    | some b =>
      have hpos : 0 < references w l b := Nat.lt_of_lt_of_le hp (Nat.le_add_right _ _)
      obtain ⟨c, hc, -⟩ := Counted.cell h hpos
      simp only [step, hc, meaning, own]
      by_cases hs : w.slot t = some b
      · simp only [hs, beq_self_eq_true, if_true, slotRun, List.foldl_cons, List.foldl_nil, slotStep, pushError]
        have h1 : seen w t = some c.content := by simp [seen, hs, hc]
        rw [h1]
        have h2 : ({ w with heap := put w.heap b (some { c with content := { c.content with elems := c.content.elems ++ [f] } }) } :
            World).slot t = some b := hs
        unfold seen
        rw [h2]
        simp [put]
      · have hb : (w.slot t == some b) = false := by simpa using hs
        simp only [hb]
        show seen _ t = seen w t
        refine seen_congr rfl ?_
        intro a hs'
        have hab : a ≠ b := by
          rintro rfl
          exact hs hs'
        simp only
        rw [put_other hab]
  | take =>
    simp only [step, meaning, slotRun, List.foldl_cons, List.foldl_nil, slotStep, takeError]
    unfold seen World.slot
    simp only
    rw [slot_set_same ht]
    rfl
  | clear =>
    obtain ⟨heap, h1, -, -⟩ := Right.releaseCurrent h ht
    simp only [step, h1, meaning, slotRun, List.foldl_cons, List.foldl_nil, slotStep, clearError]
    unfold seen World.slot
    simp only
    rw [slot_set_same ht]
    rfl
  | set b =>
    cases b with
    | none => rfl
    | some b =>
      have hp' : 0 < l b := hp
      have hpos : 0 < references w l b := Nat.lt_of_lt_of_le hp' (Nat.le_add_right _ _)
      obtain ⟨c, hc, -⟩ := Counted.cell h hpos
      obtain ⟨heap, h1, -, h3⟩ := Right.releaseCurrent h ht
      simp only [step, hc, h1, meaning, slotRun, List.foldl_cons, List.foldl_nil, slotStep, setError]
      unfold seen World.slot
      simp only
      rw [slot_set_same ht]
      have := h3 b (Nat.lt_of_lt_of_le hp' (Nat.le_add_right _ _))
      simp only [Option.bind_some]
      rw [this, hc]
      rfl
  | retain b =>
    cases b with
    | none => rfl
    | some b =>
      have hpos : 0 < references w l b := Nat.lt_of_lt_of_le hp (Nat.le_add_right _ _)
      obtain ⟨heap, h1, -, h3⟩ := Counted.retain h hpos
      simp only [step, h1]
      exact seen_congr rfl fun a _ => h3 a
  | release b =>
    cases b with
    | none => rfl
    | some b =>
      have hp' : 0 < l b := hp
      have hpos : 0 < references w l b := Nat.lt_of_lt_of_le hp' (Nat.le_add_right _ _)
      obtain ⟨heap, h1, -, h3⟩ := Counted.release h hpos
      simp only [step, h1]
      show seen _ t = seen w t
      refine seen_congr rfl ?_
      intro a hs
      apply h3
      have hr := references_slot (l := l) hs
      have hc := count_slot hs
      split
      · next hab =>
        subst hab
        unfold references
        omega
      · exact hr
  | read b =>
    cases b with
    | none => rfl
    | some b =>
      simp only [step]
      cases w.heap b <;> rfl

theorem run_seen : ∀ (schedule : List (Nat × ErrCall)) (w : World) (l : Ledger) (t : Nat), Right w l →
    Lawful w l schedule → AllApart w schedule → seen (run w schedule) t = slotRun (seen w t) (part w t schedule)
  | [], _, _, _, _, _, _ => rfl
  | (u, c) :: rest, w, l, t, h, hl, ha => by
    obtain ⟨h1, h2, h3⟩ := hl
    obtain ⟨h4, h5⟩ := ha
    have ih := run_seen rest _ _ t (step_right h h1 h2).2 h3 h5
    simp only [run, part]
    rw [ih]
    by_cases hut : u = t
    · subst hut
      rw [step_own h h1 h2, if_pos rfl]
      unfold slotRun
      rw [List.foldl_append]
    · rw [step_other h h1 hut h2 h4, if_neg hut]
      rfl

/-- **C124** Whatever the schedule of the calls of all threads, each thread sees the error it would see if it were alone: the
content of its current error is what its own calls make of it, in order (as described by `C20`), no matter what the other
threads do in between. -/
theorem C124_threads_are_independent (n : Nat) (schedule : List (Nat × ErrCall))
    (hl : Lawful (World.start n) noReference schedule) (ha : AllApart (World.start n) schedule) (t : Nat) :
    seen (run (World.start n) schedule) t = slotRun none (part (World.start n) t schedule) := by
  have h := run_seen schedule _ _ t (start_right n) hl ha
  rw [h]
  congr 1
  unfold seen World.slot World.start
  cases hg : (List.replicate n (none : Option Nat))[t]? with
  | none => simp [List.getD, hg]
  | some x =>
    have : x = none := List.eq_of_mem_replicate (List.mem_of_getElem? hg)
    simp [List.getD, hg, this]

/-- **C124** In particular an error raised by a thread after any schedule, and the frames it adds, are what the thread gets,
whatever the other threads do meanwhile. -/
theorem C124_raised_error_is_got (n : Nat) (before between : List (Nat × ErrCall)) (t : Nat) (code : Err)
    (msg : Bytes)
    (hl : Lawful (World.start n) noReference (before ++ (t, .raise code msg) :: between))
    (ha : AllApart (World.start n) (before ++ (t, .raise code msg) :: between))
    (hb : ∀ x ∈ between, x.1 ≠ t) :
    seen (run (World.start n) (before ++ (t, .raise code msg) :: between)) t = some ⟨code, msg, []⟩ := by
  rw [C124_threads_are_independent n _ hl ha t]
  have hpart : ∀ (a b : List (Nat × ErrCall)) (w : World), part w t (a ++ b) = part w t a ++ part (run w a) t b := by
    intro a b
    induction a with
    | nil => intro w; rfl
    | cons x a ih =>
      intro w
      obtain ⟨u, c⟩ := x
      simp only [List.cons_append, part, run]
      rw [ih, List.append_assoc]
  have hnone : ∀ (b : List (Nat × ErrCall)) (w : World), (∀ x ∈ b, x.1 ≠ t) → part w t b = [] := by
    intro b
    induction b with
    | nil => intro w _; rfl
    | cons x b ih =>
      intro w hx
      obtain ⟨u, c⟩ := x
      simp only [part]
      rw [if_neg (hx (u, c) List.mem_cons_self), ih _ fun y hy => hx y (List.mem_cons_of_mem _ hy)]
      rfl
  rw [hpart]
  simp only [part, if_true]
  rw [hnone _ _ hb]
  simp [slotRun, meaning, slotStep, createError]

/-- Two threads raising errors at the same time, interleaved. -/
example : let schedule : List (Nat × ErrCall) := [(0, .raise .invalidValue []), (1, .raise .outOfBounds []), (0, .pushCurrent 1),
      (1, .pushCurrent 2), (0, .pushCurrent 3)]
    seen (run (World.start 2) schedule) 0 = some ⟨.invalidValue, [], [1, 3]⟩ ∧
    seen (run (World.start 2) schedule) 1 = some ⟨.outOfBounds, [], [2]⟩ ∧
    part (World.start 2) 0 schedule = [.create .invalidValue [], .push 1, .push 3] := by
  refine ⟨by decide +kernel, by decide +kernel, by decide +kernel⟩

/-! ## C125 -/

/-- **C125** Reporting an error ends, at a depth of 3 calls, unless the stack that is replaced is destroyed by the call and has
a failing destruction callback. -/
theorem C125_reporting_ends_partial (s : Watch) (h : ∀ o, s = some o → 0 < o.refs ∧ (o.refs = 1 → o.failing = false))
    (fuel : Nat) : raiseError (fuel + 3) s = some (some ⟨1, false⟩) := by
  cases s with
  | none => rfl
  | some o =>
    obtain ⟨h1, h2⟩ := h o rfl
    have h3 : ¬ o.refs ≤ 0 := by omega
    simp only [raiseError, clearCurrent, releaseWatched, h3, if_false]
    by_cases h4 : o.refs - 1 = 0
    · simp [h4, h2 (by omega)]
    · simp [h4]

/-- **C125, violated** When the stack that is being replaced is destroyed by the call and one of its destruction callbacks meets
an error of the library, reporting that error releases the same stack again, whose count is 0; this is refused, and reporting
the refusal starts again: the calls nest without end. -/
theorem C125_reporting_never_ends (fuel : Nat) :
    raiseError fuel (some ⟨1, true⟩) = none ∧ clearCurrent fuel (some ⟨1, true⟩) = none := by
  have zero : ∀ n, raiseError n (some ⟨0, true⟩) = none ∧ clearCurrent n (some ⟨0, true⟩) = none ∧
      releaseWatched n ⟨0, true⟩ = none := by
    intro n
    induction n with
    | zero => exact ⟨rfl, rfl, rfl⟩
    | succ n ih =>
      obtain ⟨h1, h2, h3⟩ := ih
      refine ⟨?_, ?_, ?_⟩
      · simp only [raiseError, h2]
      · simp only [clearCurrent, h3]
      · simp [releaseWatched, h1]
  have one : ∀ n, releaseWatched n ⟨1, true⟩ = none := by
    intro n
    cases n with
    | zero => rfl
    | succ n => simp [releaseWatched, (zero n).1]
  have hclear : ∀ n, clearCurrent n (some ⟨1, true⟩) = none := by
    intro n
    cases n with
    | zero => rfl
    | succ n => simp only [clearCurrent, one n]
  refine ⟨?_, hclear fuel⟩
  cases fuel with
  | zero => rfl
  | succ n => simp only [raiseError, hclear n]

/-- A stack of the program, retained, that is also the current error: replaced without being destroyed. -/
example : raiseError 3 (some ⟨2, true⟩) = some (some ⟨1, false⟩) := rfl

end CCS.Props
