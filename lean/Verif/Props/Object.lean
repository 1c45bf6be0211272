import Verif.Lemmas.Object

/-! # C18–C20: object lifetime and error stack

`Spec.balance`, `Spec.attached`, `Spec.failureOf` are in `Verif/Spec/Object.lean`. -/

namespace CCS.Props

open CCS Spec

/-! ## C18, C19 -/

/-- **C18** While the program owns a reference (at most `INT32_MAX` at a time), every call succeeds, the
object is alive with that count, and nothing has been destroyed. -/
theorem C18_alive_while_referenced (delRes : Option Err) (ops : List LifeOp) (hh : Held ops) :
    ∃ cbs, Call.run (lifeStep delRes) lifeInit ops =
      some (List.replicate ops.length none, ⟨.alive (balance ops) cbs, []⟩) :=
  ⟨_, life_alive delRes ops hh⟩

/-- **C18, C19** The release that brings the count to 0 — the first such prefix of the history — runs
every attached callback once, last attached first, then the destructor once, then frees the
object. -/
theorem C19_destruction_events (ops : List LifeOp) (hh : Held ops)
    (hzero : balance (ops ++ [.release]) = 0) :
    Call.run (lifeStep none) lifeInit (ops ++ [.release]) =
      some (List.replicate (ops.length + 1) none,
        ⟨.freed, (attached ops).reverse.map .callback ++ [.del, .free]⟩) := by
  rw [run_append _ _ _ _ (life_alive none ops hh)]
  rw [balance_snoc] at hzero
  simp only at hzero
  simp only [Call.run, lifeStep]
  have e1 : ¬ balance ops ≤ 0 := by omega
  have e2 : balance ops - 1 = 0 := by omega
  rw [if_neg e1, if_pos e2]
  simp [runCallbacks]
  exact List.replicate_succ'.symm

/-- **C18** In particular the destructor and the callbacks run exactly once over the whole life, and
using the object afterwards is the caller's error (undefined). -/
theorem C18_destroyed_exactly_once (ops : List LifeOp) (hh : Held ops)
    (hzero : balance (ops ++ [.release]) = 0) (more : List LifeOp) :
    (∃ s, Call.run (lifeStep none) lifeInit (ops ++ [.release]) =
        some (List.replicate (ops.length + 1) none, s) ∧ s.obj = .freed ∧
      s.events.count .del = 1 ∧ s.events.count .free = 1) ∧
    (more ≠ [] → Call.run (lifeStep none) lifeInit (ops ++ [.release] ++ more) = none) := by
  have h := C19_destruction_events ops hh hzero
  refine ⟨⟨_, h, rfl, ?_, ?_⟩, fun hm => ?_⟩
  · simp only [List.count_append]
    have : ∀ l : List Nat, (l.map LifeEvent.callback).count .del = 0 := by
      intro l; induction l <;> simp [*]
    rw [this]; decide
  · simp only [List.count_append]
    have : ∀ l : List Nat, (l.map LifeEvent.callback).count .free = 0 := by
      intro l; induction l <;> simp [*]
    rw [this]; decide
  · rw [run_append _ _ _ _ h]
    cases more with
    | nil => exact absurd rfl hm
    | cons op more => cases op <;> rfl

/-- **C18** If the destructor fails the object is not freed: it stays with count 0 and refuses further
retains and releases. -/
theorem C18_failed_destructor_leaks (e : Err) (ops : List LifeOp) (hh : Held ops)
    (hzero : balance (ops ++ [.release]) = 0) :
    ∃ ev, Call.run (lifeStep (some e)) lifeInit (ops ++ [.release]) =
        some (List.replicate ops.length none ++ [some e], ⟨.zombie, ev⟩) ∧
      LifeEvent.free ∉ ev ∧
      lifeStep (some e) ⟨.zombie, ev⟩ .release = .ret (some .invalidObject) ⟨.zombie, ev⟩ ∧
      lifeStep (some e) ⟨.zombie, ev⟩ .retain = .ret (some .invalidObject) ⟨.zombie, ev⟩ := by
  refine ⟨(attached ops).reverse.map .callback ++ [.del], ?_, by simp, rfl, rfl⟩
  rw [run_append _ _ _ _ (life_alive (some e) ops hh)]
  rw [balance_snoc] at hzero
  simp only at hzero
  simp only [Call.run, lifeStep]
  have e1 : ¬ balance ops ≤ 0 := by omega
  have e2 : balance ops - 1 = 0 := by omega
  rw [if_neg e1, if_pos e2]
  simp [runCallbacks]

/-- The hypotheses are met by a history with two callbacks and an extra reference. -/
example : Held [.attach 1, .retain, .attach 2, .release] ∧
    balance ([.attach 1, .retain, .attach 2, .release] ++ [.release]) = 0 := by
  unfold Held; decide
example : Call.run (lifeStep none) lifeInit
    ([.attach 1, .retain, .attach 2, .release] ++ [.release]) =
    some (List.replicate 5 none, ⟨.freed, [.callback 2, .callback 1, .del, .free]⟩) := by decide

/-! ## C20 -/

/-- **C20** (partial) After a failing call, the thread's error stack holds the failure's code and
message and the frames from the place it was raised outwards, whatever the stack was before;
this holds for every function built from the library's error macros, if the cleanups on the error
path do not fail themselves and user callbacks record the errors they return.
Missing for the full claim: failing cleanups and callbacks that do not record, where it is false
(below). -/
theorem C20_failure_reported_partial (b : Body) (h : Disciplined b) (x : Failure)
    (hf : failureOf b = some x) (before : Slot) :
    b.exec before = (some x.code, some ⟨x.code, x.msg, x.path⟩) := by
  exact Prod.ext (by rw [exec_code, hf]; rfl) (exec_failure b h before x hf)

/-- **C20** A call that does not fail returns success. -/
theorem C20_no_failure_is_success (b : Body) (hf : failureOf b = none) (before : Slot) :
    (b.exec before).1 = none := by rw [exec_code, hf]; rfl

/-- **C20** After any history whose last operation other than a push is the creation (or the setting)
of an error, followed by pushes, the stack is that error followed by the pushed frames in order; after a
take or a clear it stays empty and pushes are refused. -/
theorem C20_every_history (before : Slot) (history : List SlotOp) (frames : List Frame) :
    (∀ c m, slotRun before (history ++ [.create c m] ++ frames.map .push) = some ⟨c, m, frames⟩) ∧
    (∀ e, slotRun before (history ++ [.set e] ++ frames.map .push) =
      some ⟨e.code, e.msg, e.elems ++ frames⟩) ∧
    slotRun before (history ++ [.take] ++ frames.map .push) = none ∧
    slotRun before (history ++ [.clear] ++ frames.map .push) = none ∧
    ∀ f, (pushError none f).1 = some .invalidObject := by
  have hpush : ∀ (frames : List Frame) (e : ErrorStack),
      slotRun (some e) (frames.map .push) = some ⟨e.code, e.msg, e.elems ++ frames⟩ := by
    intro frames
    induction frames with
    | nil => intro e; simp [slotRun]
    | cons f fs ih =>
      intro e
      have := ih { e with elems := e.elems ++ [f] }
      simp only [slotRun, List.map_cons, List.foldl_cons, slotStep, pushError] at this ⊢
      rw [this]; simp
  have hnone : ∀ (frames : List Frame), slotRun none (frames.map .push) = none := by
    intro frames
    induction frames with
    | nil => rfl
    | cons f fs ih => exact ih
  have split : ∀ a b : List SlotOp, ∀ s, slotRun s (a ++ b) = slotRun (slotRun s a) b := by
    intro a b s; simp [slotRun]
  refine ⟨?_, ?_, ?_, ?_, fun _ => rfl⟩
  · intro c m
    rw [split, split]; exact hpush frames _
  · intro e
    rw [split, split]; exact hpush frames _
  · rw [split, split]; exact hnone frames
  · rw [split, split]; exact hnone frames

/-- **C20** Taking the error returns it and leaves the thread with none. -/
theorem C20_take_clears (s : Slot) : takeError s = (s, none) ∧ (takeError (takeError s).2).1 = none :=
  ⟨rfl, rfl⟩

/-- **C20** A user callback that returns an error without recording it leaves the previous, unrelated
failure in place: the stack then shows another code. -/
theorem C20_unrecorded_error_shows_stale_stack :
    ∃ (b : Body) (before : Slot) (e : ErrorStack),
      b.exec before = (some .external, some e) ∧ e.code ≠ .external := by
  refine ⟨.validate (.foreign .external) 7 .done, some ⟨.invalidValue, [], [1]⟩,
    ⟨.invalidValue, [], [1, 7]⟩, by decide, by decide⟩

/-- **C20** A cleanup that fails replaces the failureOf being reported. -/
theorem C20_failing_cleanup_replaces_error :
    ∃ (b : Body) (e : ErrorStack), b.exec none = (some .outOfBounds, some e) ∧ e.code ≠ .outOfBounds := by
  refine ⟨.raiseGoto .outOfBounds [] 1 (.ignore (.raise .invalidObject [] 2) .done),
    ⟨.invalidObject, [], [2]⟩, by decide, by decide⟩

example : Disciplined (.validate (.validateGoto (.raise .invalidValue [65#8] 1) 2 .done .done) 3 .done) ∧
    failureOf (.validate (.validateGoto (.raise .invalidValue [65#8] 1) 2 .done .done) 3 .done) =
      some ⟨.invalidValue, [65#8], [1, 2, 3]⟩ := by
  refine ⟨?_, by decide⟩
  simp [Disciplined, Quiet]

end CCS.Props
