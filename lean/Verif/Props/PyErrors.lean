/-
C138: exceptions raised in callbacks written in Python.
-/
import Verif.Spec.PyErrors

namespace CCS.Props
open CCS CCS.Py CCS.Py.Spec
open CCS.Stacks

namespace PyErr

theorem cut_all {s : Bytes} (h : 0#8 ∉ s) : s.takeWhile (· ≠ 0#8) = s := by
  induction s with
  | nil => rfl
  | cons x s ih =>
    simp only [List.mem_cons, not_or] at h
    rw [List.takeWhile_cons_of_pos (by simpa using Ne.symm h.1), ih h.2]

theorem bind_val {α β : Type} (a : α) (f : α → Out β) : (Out.ok a >>= f) = f a := rfl

theorem put_put (heap : Nat → Option Cell) (h : Nat) (a b : Option Cell) : put (put heap h a) h b = put heap h b := by
  funext x
  unfold put
  split <;> rfl

theorem put_same (heap : Nat → Option Cell) (h : Nat) (a : Option Cell) : put heap h a h = a := if_pos rfl

theorem newError_none (heap : Nat → Option Cell) (next : Nat) (code : Err) :
    newError ⟨heap, next, [none]⟩ code = .ok (⟨heap, next, [none]⟩, .error code none) := rfl

theorem newError_some (heap : Nat → Option Cell) (next h : Nat) (code : Err) :
    newError ⟨heap, next, [some h]⟩ code = .ok (⟨heap, next, [none]⟩, .error code (some h)) := rfl

theorem pushAll_spec (next h : Nat) (slots : List (Option Nat)) (c : Err) (m : Bytes) (n : Nat) :
    ∀ (fs els : List Frame) (heap : Nat → Option Cell), heap h = some ⟨⟨c, m, els⟩, n⟩ →
    pushAll ⟨heap, next, slots⟩ h fs = .ok ⟨put heap h (some ⟨⟨c, m, els ++ fs⟩, n⟩), next, slots⟩
  | [], els, heap, hh => by
    rw [List.append_nil, ← hh]
    have : put heap h (heap h) = heap := by
      funext x
      unfold put
      split
      · rename_i e; rw [e]
      · rfl
    rw [this]
    rfl
  | f :: fs, els, heap, hh => by
    have h1 : lib ⟨heap, next, slots⟩ (.push (some h) f) =
        .ok (⟨put heap h (some ⟨⟨c, m, els ++ [f]⟩, n⟩), next, slots⟩, .done) := by
      simp only [lib, step, hh]
    rw [pushAll, h1]
    show pushAll ⟨put heap h (some ⟨⟨c, m, els ++ [f]⟩, n⟩), next, slots⟩ h fs = _
    rw [pushAll_spec next h slots c m n fs (els ++ [f]) _ (put_same _ _ _), put_put, List.append_assoc]
    rfl

theorem report_spec (heap : Nat → Option Cell) (next h : Nat) (c : Err) (m : Bytes) (els trace : List Frame)
    (hh : heap h = some ⟨⟨c, m, els⟩, 1⟩) :
    report ⟨heap, next, [none]⟩ h trace = .ok (⟨put heap h (some ⟨⟨c, m, els ++ trace⟩, 1⟩), next, [some h]⟩, c) := by
  unfold report
  rw [pushAll_spec next h [none] c m 1 trace els heap hh]
  have h1 : lib ⟨put heap h (some ⟨⟨c, m, els ++ trace⟩, 1⟩), next, [none]⟩ (.set (some h)) =
      .ok (⟨put heap h (some ⟨⟨c, m, els ++ trace⟩, 1⟩), next, [some h]⟩, .done) := by
    simp only [lib, step, put_same, releaseCurrent, World.slot]
    rfl
  have h2 : lib ⟨put heap h (some ⟨⟨c, m, els ++ trace⟩, 1⟩), next, [some h]⟩ (.retain (some h)) =
      .ok (⟨put heap h (some ⟨⟨c, m, els ++ trace⟩, 2⟩), next, [some h]⟩, .done) := by
    simp only [lib, step, Stacks.retain, put_same, put_put]
    rfl
  have h3 : lib ⟨put heap h (some ⟨⟨c, m, els ++ trace⟩, 2⟩), next, [some h]⟩ (.read (some h)) =
      .ok (⟨put heap h (some ⟨⟨c, m, els ++ trace⟩, 2⟩), next, [some h]⟩, .content ⟨c, m, els ++ trace⟩) := by
    simp only [lib, step, put_same]
  have h4 : lib ⟨put heap h (some ⟨⟨c, m, els ++ trace⟩, 2⟩), next, [some h]⟩ (.release (some h)) =
      .ok (⟨put heap h (some ⟨⟨c, m, els ++ trace⟩, 1⟩), next, [some h]⟩, .done) := by
    simp only [lib, step, Stacks.release, put_same, put_put]
    rfl
  show (lib _ (.set (some h)) >>= _) = _
  rw [h1]
  show (lib _ (.retain (some h)) >>= _) = _
  rw [h2]
  show (lib _ (.read (some h)) >>= _) = _
  rw [h3]
  show (lib _ (.release (some h)) >>= _) = _
  rw [h4]
  rfl

theorem addFrames_spec (next h : Nat) (c : Err) (m : Bytes) (n : Nat) :
    ∀ (fs els : List Frame) (heap : Nat → Option Cell), heap h = some ⟨⟨c, m, els⟩, n⟩ →
    addFrames ⟨heap, next, [some h]⟩ fs = ⟨put heap h (some ⟨⟨c, m, els ++ fs⟩, n⟩), next, [some h]⟩
  | [], els, heap, hh => by
    rw [List.append_nil, ← hh]
    have : put heap h (heap h) = heap := by
      funext x
      unfold put
      split
      · rename_i e; rw [e]
      · rfl
    rw [this]
    rfl
  | f :: fs, els, heap, hh => by
    have h1 : (step ⟨heap, next, [some h]⟩ 0 (.pushCurrent f)).1 =
        ⟨put heap h (some ⟨⟨c, m, els ++ [f]⟩, n⟩), next, [some h]⟩ := by
      have : World.slot ⟨heap, next, [some h]⟩ 0 = some h := rfl
      simp only [step, this, hh]
    rw [addFrames, h1, addFrames_spec next h c m n fs (els ++ [f]) _ (put_same _ _ _), put_put, List.append_assoc]
    rfl

/-- An exception whose text can be told. -/
def Plain : Exc → Prop
  | .other text => text ≠ [] ∧ 0#8 ∉ text
  | _ => True

/-- The stack that `setError` reports, in memory. -/
theorem setError_spec (heap : Nat → Option Cell) (next : Nat) (hn : ∀ a, next ≤ a → heap a = none) {e : Exc} {r : Report}
    (hs : Shows ⟨heap, next, [none]⟩ e r) (hp : Plain e) (trace : List Frame) :
    ∃ h next', Py.setError ⟨heap, next, [none]⟩ e trace =
      .ok (some (⟨put heap h (some ⟨⟨r.code, r.text, r.places ++ trace⟩, 1⟩), next', [some h]⟩, r.code)) ∧
      (∀ a, next' ≤ a → heap a = none) ∧ h < next' ∧ next ≤ next' ∧ (heap h = none ∨ held e = some h) ∧
      (∀ a, held e = some a → a = h) := by
  have lt : ∀ {a c}, heap a = some c → a < next := by
    intro a c h
    apply Decidable.byContradiction
    intro h1
    rw [hn a (by omega)] at h
    cases h
  have fresh : ∀ (code : Err) (text : Bytes) (els : List Frame),
      report ⟨put heap next (some ⟨⟨code, text, els⟩, 1⟩), next + 1, [none]⟩ next trace =
        .ok (⟨put heap next (some ⟨⟨code, text, els ++ trace⟩, 1⟩), next + 1, [some next]⟩, code) := by
    intro code text els
    rw [report_spec _ _ _ code text els trace (put_same _ _ _), put_put]
  cases e with
  | error code st =>
    cases st with
    | some h =>
      obtain ⟨rfl, hh⟩ := hs
      refine ⟨h, next, ?_, hn, lt hh, Nat.le_refl _, Or.inr rfl, fun a ha => by cases ha; rfl⟩
      show (report _ h trace >>= _) = _
      rw [report_spec _ _ _ _ _ _ trace hh]
      rfl
    | none =>
      obtain ⟨rfl, h1, h2⟩ := hs
      refine ⟨next, next + 1, ?_, fun a ha => hn a (by omega), by omega, by omega, Or.inl (hn _ (Nat.le_refl _)), nofun⟩
      show ((report ⟨put heap next (some ⟨⟨r.code, [], []⟩, 1⟩), next + 1, [none]⟩ next trace) >>= _) = _
      rw [fresh, h1, h2]
      rfl
  | other text =>
    have hr : r = ⟨.external, text, []⟩ := hs
    subst hr
    refine ⟨next, next + 1, ?_, fun a ha => hn a (by omega), by omega, by omega, Or.inl (hn _ (Nat.le_refl _)), nofun⟩
    have h1 : newStack ⟨heap, next, [none]⟩ .external (some text) =
        .ok (some (⟨put heap next (some ⟨⟨.external, text, []⟩, 1⟩), next + 1, [none]⟩, next)) := by
      rw [newStack, if_neg (by intro h; cases h; exact hp.1 rfl)]
      show Out.ok (some (World.mk (put heap next (some ⟨⟨.external, text.takeWhile (· ≠ 0#8), []⟩, 1⟩)) _ _, next)) = _
      rw [cut_all hp.2]
    show (newStack _ _ _ >>= _) = _
    rw [h1]
    show ((report ⟨put heap next (some ⟨⟨.external, text, []⟩, 1⟩), next + 1, [none]⟩ next trace) >>= _) = _
    rw [fresh]
    rfl
  | exit => cases hs

theorem crossing_spec (junk : Option Err) (heap : Nat → Option Cell) (next : Nat) (hn : ∀ a, next ≤ a → heap a = none)
    {e : Exc} {r : Report} (hs : Shows ⟨heap, next, [none]⟩ e r) (hp : Plain e) (trace path : List Frame) :
    ∃ h next', crossing junk ⟨heap, next, [none]⟩ path (some (e, trace)) =
      .ok (⟨put heap h (some ⟨⟨r.code, r.text, r.places ++ trace ++ path⟩, 1⟩), next', [none]⟩, some (.error r.code (some h))) ∧
      (∀ a, next' ≤ a → heap a = none) ∧ h < next' ∧ next ≤ next' ∧ (heap h = none ∨ held e = some h) ∧
      (∀ a, held e = some a → a = h) := by
  obtain ⟨h, next', h1, h2, h3⟩ := setError_spec heap next hn hs hp trace
  refine ⟨h, next', ?_, h2, h3⟩
  show (Py.setError _ e trace >>= _) = _
  rw [h1]
  simp only [bind_val]
  rw [addFrames_spec next' h _ _ _ path _ _ (put_same _ _ _), put_put, newError_some]
  rfl

/-- What is left in memory: nothing but the stack of the exception. -/
structure Left (heap : Nat → Option Cell) (w : World) (r : Option (Exc × List Frame)) (o : Option (Report × List Frame)) : Prop where
  slots : w.slots = [none]
  fresh : ∀ a, w.next ≤ a → w.heap a = none
  told : match o with
    | none => r = none ∧ w.heap = heap
    | some (rep, trace) => ∃ e, r = some (e, trace) ∧ Shows w e rep ∧ Plain e ∧ (∀ a, held e ≠ some a → w.heap a = heap a) ∧
        ∀ a, held e = some a → heap a = none

theorem exec_spec (junk : Option Err) : ∀ (b : Py.Body) (heap : Nat → Option Cell) (next : Nat), Told b →
    (∀ a, next ≤ a → heap a = none) →
    ∃ w r, exec junk ⟨heap, next, [none]⟩ b = .ok (w, r) ∧ next ≤ w.next ∧ Left heap w r (outcome b)
  | .done, heap, next, _, hn => ⟨_, _, rfl, Nat.le_refl _, rfl, hn, rfl, rfl⟩
  | .raise trace text, heap, next, ht, hn =>
    ⟨_, _, rfl, Nat.le_refl _, rfl, hn, _, rfl, rfl, ht, fun _ _ => rfl, nofun⟩
  | .raiseError trace code, heap, next, ht, hn =>
    ⟨_, _, rfl, Nat.le_refl _, rfl, hn, _, rfl, ⟨rfl, rfl, rfl⟩, trivial, fun _ _ => rfl, nofun⟩
  | .exit, _, _, ht, _ => by cases ht
  | .call path callback trace next', heap, next, ht, hn => by
    obtain ⟨⟨heap1, next1, slots1⟩, r1, h1, h2, h3⟩ := exec_spec junk callback heap next ht.1 hn
    obtain ⟨hsl, hfr, htold⟩ := h3
    cases hsl
    simp only [exec, h1]
    cases ho : outcome callback with
    | none =>
      rw [ho] at htold
      obtain ⟨rfl, hh⟩ := htold
      cases hh
      obtain ⟨w2, r2, g1, g2, g3⟩ := exec_spec junk next' heap1 next1 ht.2 hfr
      refine ⟨w2, r2, g1, Nat.le_trans h2 g2, ?_⟩
      simp only [outcome, ho]
      exact g3
    | some p =>
      obtain ⟨rep, inner⟩ := p
      rw [ho] at htold
      obtain ⟨e, rfl, hs, hp, hx, hy⟩ := htold
      obtain ⟨h, next2, c1, c2, c3, c4, c5, c6⟩ := crossing_spec junk heap1 next1 hfr hs hp inner path
      refine ⟨⟨put heap1 h (some ⟨⟨rep.code, rep.text, rep.places ++ inner ++ path⟩, 1⟩), next2, [none]⟩,
        some (.error rep.code (some h), trace), ?_, ?_⟩
      · show (crossing junk ⟨heap1, next1, [none]⟩ path (some (e, inner)) >>= _) = _
        rw [c1]
        rfl
      · refine ⟨Nat.le_trans h2 c4, rfl, fun a ha => ?_, ?_⟩
        · show put heap1 h _ a = none
          rw [put, if_neg (show ¬ a = h by have : next2 ≤ a := ha; omega)]
          exact c2 a ha
        · simp only [outcome, ho]
          refine ⟨_, rfl, ⟨rfl, put_same _ _ _⟩, trivial, fun a ha => ?_, fun a ha => ?_⟩
          · have hne : a ≠ h := fun h' => ha (by rw [h']; rfl)
            show put heap1 h _ a = heap a
            rw [put, if_neg hne]
            exact hx a fun h' => hne (c6 a h')
          · cases ha
            rcases c5 with c5 | c5
            · by_cases hq : held e = some h
              · exact hy h hq
              · rw [← hx h hq]; exact c5
            · exact hy h c5
  | .attempt path callback next', heap, next, ht, hn => by
    obtain ⟨⟨heap1, next1, slots1⟩, r1, h1, h2, h3⟩ := exec_spec junk callback heap next ht.1 hn
    obtain ⟨hsl, hfr, htold⟩ := h3
    cases hsl
    simp only [exec, h1]
    cases ho : outcome callback with
    | none =>
      rw [ho] at htold
      obtain ⟨rfl, hh⟩ := htold
      cases hh
      obtain ⟨w2, r2, g1, g2, g3⟩ := exec_spec junk next' heap1 next1 ht.2 hfr
      exact ⟨w2, r2, g1, Nat.le_trans h2 g2, g3⟩
    | some p =>
      obtain ⟨rep, inner⟩ := p
      rw [ho] at htold
      obtain ⟨e, rfl, hs, hp, hx, hy⟩ := htold
      obtain ⟨h, next2, c1, c2, c3, c4, c5, c6⟩ := crossing_spec junk heap1 next1 hfr hs hp inner path
      have hheap : put (put heap1 h (some ⟨⟨rep.code, rep.text, rep.places ++ inner ++ path⟩, 1⟩)) h none = heap := by
        rw [put_put]
        funext a
        unfold put
        split
        · rename_i ha
          rw [ha]
          rcases c5 with c5 | c5
          · by_cases hq : held e = some h
            · exact (hy h hq).symm
            · rw [← hx h hq]; exact c5.symm
          · exact (hy h c5).symm
        · rename_i ha
          exact hx a fun h' => ha (c6 a h')
      obtain ⟨w2, r2, g1, g2, g3⟩ := exec_spec junk next' heap next2 ht.2 (fun a ha => by
        rw [← hheap, put_put, put]
        split
        · rfl
        · exact c2 a ha)
      refine ⟨w2, r2, ?_, Nat.le_trans h2 (Nat.le_trans c4 g2), g3⟩
      show (crossing junk ⟨heap1, next1, [none]⟩ path (some (e, inner)) >>= _) = _
      rw [c1]
      show (drop ⟨put heap1 h (some ⟨⟨rep.code, rep.text, rep.places ++ inner ++ path⟩, 1⟩), next2, [none]⟩
        (.error rep.code (some h)) >>= _) = _
      have hd : drop ⟨put heap1 h (some ⟨⟨rep.code, rep.text, rep.places ++ inner ++ path⟩, 1⟩), next2, [none]⟩
          (.error rep.code (some h)) = .ok ⟨heap, next2, [none]⟩ := by
        show (lib _ (.release (some h)) >>= _) = _
        have : lib ⟨put heap1 h (some ⟨⟨rep.code, rep.text, rep.places ++ inner ++ path⟩, 1⟩), next2, [none]⟩ (.release (some h)) =
            .ok (⟨heap, next2, [none]⟩, .done) := by
          rw [← hheap]
          simp only [lib, step, Stacks.release, put_same, put_put]
          rfl
        rw [this]
        rfl
      rw [hd]
      exact g1

end PyErr

open PyErr

/-- **C138** (partial) Whatever a program in Python does, with callbacks in callbacks to any depth, an exception raised in a callback
comes out of the call of the library that led to it with its code (external for exceptions of Python), its text, and the places it
went through in order; nothing is undefined, and in the end no error stack is in memory but that of the exception that comes out.
Missing: exceptions without a text, with a NUL in it, or that are not instances of `Exception`, see `C138_silent`, `C138_exit` and
`C138_text_cut`. -/
theorem C138_surfaces_partial (junk : Option Err) {b : Py.Body} (h : Told b) :
    ∃ w r, exec junk (World.start 1) b = .ok (w, r) ∧ w.slots = [none] ∧
      match outcome b with
      | none => r = none ∧ ∀ a, w.heap a = none
      | some (rep, trace) => ∃ e, r = some (e, trace) ∧ Shows w e rep ∧ ∀ a, held e ≠ some a → w.heap a = none := by
  obtain ⟨w, r, h1, -, h2, -, h3⟩ := exec_spec junk b (fun _ => none) 0 h fun _ _ => rfl
  refine ⟨w, r, h1, h2, ?_⟩
  cases ho : outcome b with
  | none =>
    rw [ho] at h3
    exact ⟨h3.1, fun a => by rw [h3.2]⟩
  | some p =>
    rw [ho] at h3
    obtain ⟨e, g1, g2, -, g3, -⟩ := h3
    exact ⟨e, g1, g2, g3⟩

/-- Two nested callbacks, an error that is dropped before. -/
example : Told (.attempt [1] (.raiseError [2] .invalidValue) (.call [3, 4] (.call [5] (.raise [6] [97#8]) [7] .done) [8] .done)) ∧
    outcome (.attempt [1] (.raiseError [2] .invalidValue) (.call [3, 4] (.call [5] (.raise [6] [97#8]) [7] .done) [8] .done)) =
      some (⟨.external, [97#8], [6, 5, 7, 3, 4]⟩, [8]) := by
  refine ⟨⟨trivial, ⟨⟨by decide, by decide⟩, trivial⟩, trivial⟩, by decide⟩

/-- **C138** fails for exceptions without a text (`assert`, `raise ValueError()`): reporting such an exception raises another, and the
library gets whatever is in the place of the result.  If that is a success, the call succeeds. -/
theorem C138_silent (w : World) (path trace trace' : List Frame) (next : Py.Body) :
    exec none w (.call path (.raise trace []) trace' next) = exec none w next := rfl

/-- **C138** In particular, a program that only makes such a call ends without an error. -/
theorem C138_silent_success (path trace trace' : List Frame) :
    exec none (World.start 1) (.call path (.raise trace []) trace' .done) = .ok (World.start 1, none) ∧
      outcome (.call path (.raise trace []) trace' .done) = some (⟨.external, [], trace ++ path⟩, trace') := ⟨rfl, rfl⟩

/-- **C138** fails in the same way for `KeyboardInterrupt` and `SystemExit`. -/
theorem C138_exit (w : World) (path trace : List Frame) (next : Py.Body) :
    exec none w (.call path .exit trace next) = exec none w next := rfl

/-- **C138** fails for a text with a NUL: what follows it is lost. -/
theorem C138_text_cut (junk : Option Err) {a : Bytes} (b : Bytes) (h : 0#8 ∉ a) (path trace trace' : List Frame) :
    ∃ w e, exec junk (World.start 1) (.call path (.raise trace (a ++ 0#8 :: b)) trace' .done) = .ok (w, some (e, trace')) ∧
      Shows w e ⟨.external, a, trace ++ path⟩ := by
  have hc : (a ++ 0#8 :: b).takeWhile (· ≠ 0#8) = a := by
    induction a with
    | nil => rfl
    | cons x s ih =>
      simp only [List.mem_cons, not_or] at h
      rw [List.cons_append, List.takeWhile_cons_of_pos (by simpa using Ne.symm h.1), ih h.2]
  have h1 : newStack (World.start 1) .external (some (a ++ 0#8 :: b)) =
      .ok (some (⟨put (fun _ => none) 0 (some ⟨⟨.external, a, []⟩, 1⟩), 1, [none]⟩, 0)) := by
    rw [newStack, if_neg (by intro h; cases a <;> cases h)]
    show Out.ok (some (World.mk (put (fun _ => none) 0 (some ⟨⟨.external, (a ++ 0#8 :: b).takeWhile (· ≠ 0#8), []⟩, 1⟩)) _ _, 0)) = _
    rw [hc]
    rfl
  have h2 : crossing junk (World.start 1) path (some (.other (a ++ 0#8 :: b), trace)) =
      .ok (⟨put (fun _ => none) 0 (some ⟨⟨.external, a, trace ++ path⟩, 1⟩), 1, [none]⟩, some (.error .external (some 0))) := by
    show ((newStack _ _ _ >>= _) >>= _) = _
    rw [h1]
    show ((report _ 0 trace >>= _) >>= _) = _
    rw [report_spec _ _ _ _ _ _ trace (put_same _ _ _), put_put]
    simp only [bind_val]
    rw [addFrames_spec 1 0 _ _ _ path _ _ (put_same _ _ _), put_put, newError_some]
    rfl
  refine ⟨⟨put (fun _ => none) 0 (some ⟨⟨.external, a, trace ++ path⟩, 1⟩), 1, [none]⟩, .error .external (some 0), ?_, ?_⟩
  · show (crossing junk (World.start 1) path (some (.other (a ++ 0#8 :: b), trace)) >>= _) = _
    rw [h2]
    rfl
  · exact ⟨rfl, rfl⟩

end CCS.Props
