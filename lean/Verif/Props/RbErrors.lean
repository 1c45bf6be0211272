/-
C161: exceptions raised in callbacks written in Ruby.
-/
import Verif.Spec.RbErrors
import Verif.Props.PyErrors

namespace CCS.Props.RbErr
open CCS CCS.Py CCS.Py.Spec CCS.Rb.Spec CCS.Stacks CCS.Props CCS.Props.PyErr

theorem setError_same {e : Exc} (hp : Plain e) (w : World) (trace : List Frame) : Rb.setError w e trace = Py.setError w e trace := by
  cases e with
  | exit => rfl
  | error code st => cases st <;> rfl
  | other text =>
    have h1 : Rb.newStack w .external (some text) = Py.newStack w .external (some text) := by
      unfold Rb.newStack Py.newStack
      rw [if_neg (show ¬ 0#8 ∈ (some text).getD [] from hp.2), if_neg (show ¬ some text = some [] from fun h => hp.1 (Option.some.inj h))]
      show _ = (lib w (.create .external (text.takeWhile (· ≠ 0#8))) >>= _)
      rw [cut_all hp.2]
      rfl
    unfold Rb.setError Py.setError
    dsimp only
    rw [h1]
    generalize Py.newStack w .external (some text) = y
    cases y with
    | ub => rfl
    | err _ => rfl
    | ok o => cases o <;> rfl

theorem crossing_same {heap : Nat → Option Cell} {next : Nat} (hn : ∀ a, next ≤ a → heap a = none) {e : Exc} {r : Report}
    (hs : Shows ⟨heap, next, [none]⟩ e r) (hp : Plain e) (trace path : List Frame) : ∃ w e',
    Py.crossing none ⟨heap, next, [none]⟩ path (some (e, trace)) = .ok (w, some e') ∧
    Rb.crossing ⟨heap, next, [none]⟩ path (some (e, trace)) = .ok (w, some r.code, some e') := by
  obtain ⟨h, next', h1, -⟩ := setError_spec heap next hn hs hp trace
  obtain ⟨h', next'', h2, -⟩ := crossing_spec none heap next hn hs hp trace path
  refine ⟨_, _, h2, ?_⟩
  have hne : ∀ t, some (e, trace) ≠ some (Exc.exit, t) := by
    rintro t ht
    cases ht
    exact hs
  have h3 : Rb.crossing ⟨heap, next, [none]⟩ path (some (e, trace)) = (Rb.setError ⟨heap, next, [none]⟩ e trace >>= fun
      | some (w, code) => newError (addFrames w path) code >>= fun x => .ok (x.1, some code, some x.2)
      | none => drop ⟨heap, next, [none]⟩ e >>= fun w => .ok (w, none, some (.other Rb.nulText))) := by
    cases e with
    | exit => exact absurd rfl (hne trace)
    | error _ _ => rfl
    | other _ => rfl
  rw [h3, setError_same hp, h1]
  have h4 : Py.crossing none ⟨heap, next, [none]⟩ path (some (e, trace)) = (Py.setError ⟨heap, next, [none]⟩ e trace >>= fun
      | some (w, code) => newError (addFrames w path) code >>= fun x => .ok (x.1, some x.2)
      | none => drop ⟨heap, next, [none]⟩ e >>= fun w => .ok (w, none)) := rfl
  rw [h4, h1] at h2
  simp only [bind_val] at h2 ⊢
  generalize newError (addFrames _ path) r.code = y at h2 ⊢
  cases y with
  | ub => cases h2
  | err _ => cases h2
  | ok x =>
    have h5 : Out.ok (x.1, some x.2) = _ := h2
    have h6 := Out.ok.inj h5
    show Out.ok (x.1, some r.code, some x.2) = _
    have h7 := congrArg Prod.fst h6
    have h8 := congrArg Prod.snd h6
    dsimp only at h7 h8
    rw [h7, h8]

/-- On programs whose exceptions can be told, Ruby does what Python does, and the library sees what happened. -/
theorem exec_same : ∀ (b : Py.Body) (heap : Nat → Option Cell) (next : Nat), Told b → (∀ a, next ≤ a → heap a = none) →
    Rb.exec ⟨heap, next, [none]⟩ b = (Py.exec none ⟨heap, next, [none]⟩ b >>= fun x => .ok (x.1, told b, x.2))
  | .done, _, _, _, _ => rfl
  | .raise _ _, _, _, _, _ => rfl
  | .raiseError _ _, _, _, _, _ => rfl
  | .exit, _, _, ht, _ => by cases ht
  | .call path callback trace next', heap, next, ht, hn => by
    obtain ⟨⟨heap1, next1, slots1⟩, r1, h1, h2, hsl, hfr, htold⟩ := exec_spec none callback heap next ht.1 hn
    cases hsl
    have ih := exec_same callback heap next ht.1 hn
    rw [h1] at ih
    simp only [Rb.exec, Py.exec, h1, ih, bind_val]
    cases ho : outcome callback with
    | none =>
      rw [ho] at htold
      obtain ⟨rfl, rfl⟩ := htold
      have ih2 := exec_same next' heap1 next1 ht.2 hfr
      obtain ⟨w2, r2, g1, -⟩ := exec_spec none next' heap1 next1 ht.2 hfr
      rw [g1] at ih2
      simp only [Rb.crossing, Py.crossing, bind_val, ih2, g1, told, ho]
    | some p =>
      obtain ⟨rep, inner⟩ := p
      rw [ho] at htold
      obtain ⟨e, rfl, hs, hp, -⟩ := htold
      obtain ⟨w, e', c1, c2⟩ := crossing_same hfr hs hp inner path
      simp only [c1, c2, bind_val, told, ho]
  | .attempt path callback next', heap, next, ht, hn => by
    obtain ⟨⟨heap1, next1, slots1⟩, r1, h1, h2, hsl, hfr, htold⟩ := exec_spec none callback heap next ht.1 hn
    cases hsl
    have ih := exec_same callback heap next ht.1 hn
    rw [h1] at ih
    simp only [Rb.exec, Py.exec, h1, ih, bind_val]
    cases ho : outcome callback with
    | none =>
      rw [ho] at htold
      obtain ⟨rfl, rfl⟩ := htold
      have ih2 := exec_same next' heap1 next1 ht.2 hfr
      obtain ⟨w2, r2, g1, -⟩ := exec_spec none next' heap1 next1 ht.2 hfr
      rw [g1] at ih2
      simp only [Rb.crossing, Py.crossing, bind_val, ih2, g1, told, ho, Option.map_none]
    | some p =>
      obtain ⟨rep, inner⟩ := p
      rw [ho] at htold
      obtain ⟨e, rfl, hs, hp, -⟩ := htold
      obtain ⟨w, e', c1, c2⟩ := crossing_same hfr hs hp inner path
      -- what is left once the error is dropped
      obtain ⟨⟨heap2, next2, slots2⟩, r2, a1, -, asl, afr, -⟩ := exec_spec none (.attempt path callback .done) heap next ⟨ht.1, trivial⟩ hn
      cases asl
      simp only [Py.exec, h1, bind_val, c1] at a1
      simp only [c1, c2, bind_val, told, ho]
      cases hd : drop w e' with
      | ub => rw [hd] at a1; cases a1
      | err _ => rw [hd] at a1; cases a1
      | ok w' =>
        rw [hd] at a1
        cases a1
        have ih2 := exec_same next' heap2 next2 ht.2 afr
        obtain ⟨w2, r2, g1, -⟩ := exec_spec none next' heap2 next2 ht.2 afr
        rw [g1] at ih2
        simp only [bind_val, ih2, g1, Option.map_some]

/-- **C161** (partial) Whatever a program in Ruby does, with callbacks in callbacks to any depth, an exception raised in a callback comes out of the
call of the library that led to it with its code (external for exceptions of Ruby), its text, and the places it went through in order; the library sees of
each callback that it succeeded, or the code of what it raised; nothing is undefined, and in the end no error stack is in memory but that of the
exception that comes out.  Missing: exceptions with a NUL in their text, and those that are no `StandardError`, see `C161_nul` and `C161_exit`. -/
theorem C161_surfaces_partial {b : Py.Body} (h : Told b) :
    ∃ w r, Rb.exec (World.start 1) b = .ok (w, told b, r) ∧ w.slots = [none] ∧
      match outcome b with
      | none => r = none ∧ ∀ a, w.heap a = none
      | some (rep, trace) => ∃ e, r = some (e, trace) ∧ Shows w e rep ∧ ∀ a, held e ≠ some a → w.heap a = none := by
  obtain ⟨w, r, h1, h2⟩ := C138_surfaces_partial none h
  refine ⟨w, r, ?_, h2⟩
  have := exec_same b (fun _ => none) 0 h fun _ _ => rfl
  rw [show World.mk (fun _ => none) 0 [none] = World.start 1 from rfl, h1] at this
  exact this

/-- Two nested callbacks, an error that is dropped before: the library sees the three of them fail. -/
example : Told (.attempt [1] (.raiseError [2] .invalidValue) (.call [3, 4] (.call [5] (.raise [6] [97#8]) [7] .done) [8] .done)) ∧
    told (.attempt [1] (.raiseError [2] .invalidValue) (.call [3, 4] (.call [5] (.raise [6] [97#8]) [7] .done) [8] .done)) =
      [some .invalidValue, some .external, some .external] := by
  refine ⟨⟨trivial, ⟨⟨by decide, by decide⟩, trivial⟩, trivial⟩, by decide⟩

/-- **C161** fails for exceptions that are no `StandardError`: in any state the exception comes out of the call, but the library was told that the
callback succeeded. -/
theorem C161_exit (w : World) (path trace : List Frame) (next : Py.Body) :
    Rb.exec w (.call path .exit trace next) = .ok (w, [none], some (.exit, trace)) := rfl

/-- **C161** fails for a text with a NUL: another exception comes out, and the library was told that the callback succeeded. -/
theorem C161_nul (w : World) {text : Bytes} (h : 0#8 ∈ text) (path trace trace' : List Frame) (next : Py.Body) :
    Rb.exec w (.call path (.raise trace text) trace' next) = .ok (w, [none], some (.other Rb.nulText, trace')) ∧
      outcome (.call path (.raise trace text) trace' next) = some (⟨.external, text, trace ++ path⟩, trace') := by
  have hs : Rb.newStack w .external (some text) = .ok none := by
    unfold Rb.newStack
    rw [if_pos (show 0#8 ∈ (some text).getD [] from h)]
  refine ⟨?_, rfl⟩
  simp only [Rb.exec, Rb.crossing, Rb.setError, bind_val, hs, drop]
  rfl

/-- **C161** Unlike in Python (`C138_silent`), an exception is reported even when its text is empty. -/
theorem C161_no_text (path trace trace' : List Frame) :
    ∃ w e, Rb.exec (World.start 1) (.call path (.raise trace []) trace' .done) = .ok (w, [some .external], some (e, trace')) ∧
      Shows w e ⟨.external, [], trace ++ path⟩ ∧ ∀ a, held e ≠ some a → w.heap a = none := by
  have hs : Rb.setError (World.start 1) (.other []) trace = Py.setError (World.start 1) (.error .external none) trace := rfl
  obtain ⟨h, next', h1, h2, h3⟩ := setError_spec (fun _ => none) 0 (fun _ _ => rfl) (e := .error .external none) (r := ⟨.external, [], []⟩)
    ⟨rfl, rfl, rfl⟩ trivial trace
  have h4 : Rb.setError (World.start 1) (.other []) trace = _ := hs.trans h1
  have h5 := addFrames_spec next' h .external [] 1 path ([] ++ trace) (put (fun _ => none) h (some ⟨⟨.external, [], [] ++ trace⟩, 1⟩))
    (put_same _ _ _)
  simp only [Rb.exec, Rb.crossing, bind_val, h4, h5, newError_some, put_put]
  refine ⟨_, _, rfl, ⟨rfl, by dsimp only; rw [put_same, List.nil_append]⟩, fun a ha => ?_⟩
  show put (fun _ => none) h _ a = none
  rw [put, if_neg]
  rintro rfl
  exact ha rfl

end CCS.Props.RbErr
