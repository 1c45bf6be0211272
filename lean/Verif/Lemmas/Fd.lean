import Verif.Spec.Fd
import Verif.Lemmas.WireObj

/-! Helper lemmas about the descriptor loops. -/

namespace CCS

open Spec

/-- What a stop of the write loop says of the bytes `r` not delivered. -/
def WStop.Says (nb : Bool) (sched : List WriteRes) (r : Bytes) : WStop → Prop
  | .pending => True
  | .again rest _ => rest = r ∧ nb = true ∧ .eagain ∈ sched
  | .failed _ => .fail ∈ sched
  | .finished _ => r = []

theorem WStop.Says.cons {nb : Bool} {sched : List WriteRes} {r : Bytes} {x : WriteRes} {w : WStop}
    (h : w.Says nb sched r) : w.Says nb (x :: sched) r := by
  cases w with
  | pending => trivial
  | again rest s => exact ⟨h.1, h.2.1, List.mem_cons_of_mem _ h.2.2⟩
  | failed s => exact List.mem_cons_of_mem _ h
  | finished s => exact h

theorem writeLoop_sound (nb : Bool) (buf : Bytes) (sched : List WriteRes) :
    ∃ r, buf = (writeLoop nb buf sched).1 ++ r ∧ (writeLoop nb buf sched).2.Says nb sched r := by
  induction sched generalizing buf with
  | nil => exact ⟨buf, rfl, trivial⟩
  | cons x s ih =>
    cases x with
    | eintr =>
      obtain ⟨r, h1, h2⟩ := ih buf
      exact ⟨r, h1, h2.cons⟩
    | eagain =>
      cases nb with
      | true => exact ⟨buf, rfl, rfl, rfl, List.mem_cons_self⟩
      | false =>
        obtain ⟨r, h1, h2⟩ := ih buf
        exact ⟨r, h1, h2.cons⟩
    | fail => exact ⟨buf, rfl, List.mem_cons_self⟩
    | took n =>
      unfold writeLoop
      simp only
      by_cases hz : buf.length - min n buf.length = 0
      · rw [if_pos hz]
        refine ⟨[], ?_, rfl⟩
        rw [List.append_nil, List.take_of_length_le (by omega)]
      · rw [if_neg hz]
        obtain ⟨r, h1, h2⟩ := ih (buf.drop (min n buf.length))
        refine ⟨r, ?_, h2.cons⟩
        simp only [List.append_assoc]
        rw [← h1, List.take_append_drop]

theorem writeLoop_complete (buf : Bytes) (hb : buf ≠ []) (sched : List WriteRes)
    (hf : WriteRes.fail ∉ sched) (ha : buf.length ≤ accepted sched) :
    ∃ s, writeLoop false buf sched = (buf, .finished s) := by
  have hpos : 0 < buf.length := List.length_pos_iff.mpr hb
  induction sched generalizing buf with
  | nil => simp only [accepted] at ha; omega
  | cons x s ih =>
    have hf' : WriteRes.fail ∉ s := fun h => hf (List.mem_cons_of_mem _ h)
    cases x with
    | eintr => exact ih buf hb hf' ha hpos
    | eagain => exact ih buf hb hf' ha hpos
    | fail => exact absurd List.mem_cons_self hf
    | took n =>
      unfold writeLoop
      simp only
      simp only [accepted] at ha
      by_cases hz : buf.length - min n buf.length = 0
      · rw [if_pos hz, List.take_of_length_le (by omega)]
        exact ⟨s, rfl⟩
      · rw [if_neg hz]
        have hl : (buf.drop (min n buf.length)).length = buf.length - min n buf.length := by simp
        obtain ⟨s', h⟩ := ih (buf.drop (min n buf.length))
          (by intro h; rw [h] at hl; simp at hl; omega) hf' (by rw [hl]; omega) (by rw [hl]; omega)
        rw [h]
        exact ⟨s', by simp⟩

/-- What a stop of the read loop says of the number `n` of bytes received. -/
def RStop.Says (nb : Bool) (want : Nat) (sched : List ReadRes) (n : Nat) : RStop → Prop
  | .pending => True
  | .again w _ => w = want - n ∧ nb = true
  | .failed _ => .fail ∈ sched
  | .finished _ => n = want

theorem RStop.Says.cons {nb : Bool} {want : Nat} {sched : List ReadRes} {n : Nat} {x : ReadRes}
    {w : RStop} (h : w.Says nb want sched n) : w.Says nb want (x :: sched) n := by
  cases w with
  | pending => trivial
  | again rest s => exact h
  | failed s => exact List.mem_cons_of_mem _ h
  | finished s => exact h

theorem RStop.Says.more {nb : Bool} {want : Nat} {sched : List ReadRes} {n k : Nat}
    {w : RStop} (h : w.Says nb (want - k) sched n) (hk : k ≤ want) :
    w.Says nb want sched (k + n) := by
  cases w with
  | pending => trivial
  | again rest s => exact ⟨by have := h.1; omega, h.2⟩
  | failed s => exact h
  | finished s => simp only [RStop.Says] at h ⊢; omega

theorem readLoop_sound (nb : Bool) (want : Nat) (input : Bytes) (sched : List ReadRes) :
    ∃ r, input = (readLoop nb want input sched).1 ++ r ∧
      (readLoop nb want input sched).1.length ≤ want ∧
      (readLoop nb want input sched).2.Says nb want sched
        (readLoop nb want input sched).1.length := by
  induction sched generalizing want input with
  | nil => exact ⟨input, rfl, Nat.zero_le _, trivial⟩
  | cons x s ih =>
    cases x with
    | eintr =>
      obtain ⟨r, h1, h2, h3⟩ := ih want input
      exact ⟨r, h1, h2, h3.cons⟩
    | eagain =>
      cases nb with
      | true => exact ⟨input, rfl, Nat.zero_le _, rfl, rfl⟩
      | false =>
        obtain ⟨r, h1, h2, h3⟩ := ih want input
        exact ⟨r, h1, h2, h3.cons⟩
    | fail => exact ⟨input, rfl, Nat.zero_le _, List.mem_cons_self⟩
    | got n =>
      unfold readLoop
      simp only
      have hle : (input.take (min n want)).length ≤ want := by
        rw [List.length_take]; omega
      by_cases hz : want - (input.take (min n want)).length = 0
      · rw [if_pos hz]
        refine ⟨input.drop (min n want), (List.take_append_drop ..).symm, hle, ?_⟩
        simp only [RStop.Says]; omega
      · rw [if_neg hz]
        obtain ⟨r, h1, h2, h3⟩ := ih (want - (input.take (min n want)).length)
          (input.drop (input.take (min n want)).length)
        refine ⟨r, ?_, ?_, ?_⟩
        · simp only [List.append_assoc]
          rw [← h1]
          have : input.drop (input.take (min n want)).length = input.drop (min n want) := by
            simp only [List.length_take]
            by_cases hc : min n want ≤ input.length
            · rw [Nat.min_eq_left hc]
            · rw [Nat.min_eq_right (by omega), List.drop_of_length_le (by omega),
                List.drop_of_length_le (by omega)]
          rw [this, List.take_append_drop]
        · simp only [List.length_append]; omega
        · simp only [List.length_append]
          exact (h3.more hle).cons

/-- With enough data in the stream and enough reads, the loop ends. -/
theorem readLoop_complete (want : Nat) (hw : 0 < want) (input : Bytes) (hi : want ≤ input.length)
    (sched : List ReadRes) (hf : ReadRes.fail ∉ sched) (hd : want ≤ deliveries sched) :
    ∃ s, readLoop false want input sched = (input.take want, .finished s) ∧ ReadRes.fail ∉ s ∧
      deliveries sched ≤ want + deliveries s := by
  induction sched generalizing want input with
  | nil => simp [deliveries] at hd; omega
  | cons x s ih =>
    have hf' : ReadRes.fail ∉ s := fun h => hf (List.mem_cons_of_mem _ h)
    cases x with
    | eintr => exact ih want hw input hi hf' hd
    | eagain => exact ih want hw input hi hf' hd
    | fail => exact absurd List.mem_cons_self hf
    | got n =>
      unfold readLoop
      simp only
      have hl : (input.take (min n want)).length = min n want := by simp; omega
      rw [hl]
      by_cases hz : want - min n want = 0
      · rw [if_pos hz]
        have : min n want = want := by omega
        rw [this]
        refine ⟨s, rfl, hf', ?_⟩
        cases n <;> simp only [deliveries] <;> omega
      · rw [if_neg hz]
        have hn : n < want := by omega
        have hmin : min n want = n := by omega
        rw [hmin]
        cases n with
        | zero =>
          simp only [deliveries] at hd
          obtain ⟨s', h1, h2, h3⟩ := ih want hw input hi hf' hd
          refine ⟨s', ?_, h2, ?_⟩
          · simp only [Nat.sub_zero, List.drop_zero, h1, List.take_zero, List.nil_append]
          · simp only [deliveries]; exact h3
        | succ n =>
          simp only [deliveries] at hd
          obtain ⟨s', h1, h2, h3⟩ := ih (want - (n + 1)) (by omega) (input.drop (n + 1))
            (by simp; omega) hf' (by omega)
          refine ⟨s', ?_, h2, ?_⟩
          · rw [h1]
            simp only
            congr 1
            have : want = (n + 1) + (want - (n + 1)) := by omega
            conv => rhs; rw [this, List.take_add]
          · simp only [deliveries]; omega

/-- At the end of the stream the loop never ends. -/
theorem readLoop_eof (want : Nat) (input : Bytes) (hi : input.length < want)
    (sched : List ReadRes) (hf : ReadRes.fail ∉ sched) :
    (readLoop false want input sched).2 = .pending := by
  induction sched generalizing want input with
  | nil => rfl
  | cons x s ih =>
    have hf' : ReadRes.fail ∉ s := fun h => hf (List.mem_cons_of_mem _ h)
    cases x with
    | eintr => exact ih want input hi hf'
    | eagain => exact ih want input hi hf'
    | fail => exact absurd List.mem_cons_self hf
    | got n =>
      unfold readLoop
      simp only
      have hle : (input.take (min n want)).length ≤ input.length := by
        rw [List.length_take]; omega
      rw [if_neg (by omega)]
      exact ih _ _ (by rw [List.length_drop]; omega) hf'

theorem readLoop_got (nb : Bool) (want : Nat) (input : Bytes) (n : Nat) (s : List ReadRes) :
    readLoop nb want input (.got n :: s) =
      if want - (input.take (min n want)).length = 0 then (input.take (min n want), .finished s)
      else
        (input.take (min n want) ++ (readLoop nb (want - (input.take (min n want)).length)
            (input.drop (input.take (min n want)).length) s).1,
          (readLoop nb (want - (input.take (min n want)).length)
            (input.drop (input.take (min n want)).length) s).2) := rfl

/-- The schedule left is a suffix of the schedule. -/
theorem readLoop_suffix : ∀ (want : Nat) (input : Bytes) (sc : List ReadRes) (d : Bytes) s',
    readLoop false want input sc = (d, .finished s') → s' <:+ sc := by
  intro want input sc
  induction sc generalizing want input with
  | nil => intro d s' h; simp [readLoop] at h
  | cons y t iht =>
    intro d s' h
    cases y with
    | eintr => exact (iht want input d s' h).trans (List.suffix_cons ..)
    | eagain => exact (iht want input d s' h).trans (List.suffix_cons ..)
    | fail => simp [readLoop] at h
    | got n =>
      rw [readLoop_got] at h
      by_cases hz : want - (input.take (min n want)).length = 0
      · rw [if_pos hz] at h
        simp only [Prod.mk.injEq, RStop.finished.injEq] at h
        rw [← h.2]; exact List.suffix_cons ..
      · rw [if_neg hz] at h
        simp only [Prod.mk.injEq] at h
        exact (iht _ _ _ s' (Prod.ext rfl h.2)).trans (List.suffix_cons ..)

/-- A loop that returned AGAIN is continued by the next call as if it had not stopped. -/
theorem readLoop_resume (want : Nat) (input : Bytes) (sched : List ReadRes) {d : Bytes} {w : Nat}
    {s : List ReadRes} (h : readLoop true want input sched = (d, .again w s)) :
    s.length < sched.length ∧
    readLoop false want input sched =
      (d ++ (readLoop false (want - d.length) (input.drop d.length) s).1,
        (readLoop false (want - d.length) (input.drop d.length) s).2) := by
  induction sched generalizing want input d with
  | nil => simp [readLoop] at h
  | cons x s' ih =>
    cases x with
    | eintr =>
      have := ih want input h
      exact ⟨by rw [List.length_cons]; omega, this.2⟩
    | eagain =>
      simp only [readLoop, if_true, Prod.mk.injEq, RStop.again.injEq] at h
      obtain ⟨rfl, rfl, rfl⟩ := h
      exact ⟨by simp, by simp [readLoop]⟩
    | fail => simp [readLoop] at h
    | got n =>
      rw [readLoop_got] at h ⊢
      by_cases hz : want - (input.take (min n want)).length = 0
      · rw [if_pos hz] at h; simp at h
      · rw [if_neg hz] at h ⊢
        generalize input.take (min n want) = chunk at *
        cases hR : readLoop true (want - chunk.length) (input.drop chunk.length) s' with
        | mk d1 stop =>
          rw [hR] at h
          simp only [Prod.mk.injEq] at h
          obtain ⟨rfl, rfl⟩ := h
          have := ih _ _ hR
          refine ⟨by rw [List.length_cons]; omega, ?_⟩
          rw [this.2]
          simp only [List.length_append, Nat.sub_sub, List.drop_drop, List.append_assoc]

/-- A loop that does not return AGAIN ends the same in both modes. -/
theorem readLoop_same (want : Nat) (input : Bytes) (sched : List ReadRes) {d : Bytes} {r : RStop}
    (h : readLoop true want input sched = (d, r)) (hr : ∀ w s, r ≠ .again w s) :
    readLoop false want input sched = (d, r) := by
  induction sched generalizing want input d with
  | nil => exact h
  | cons x s' ih =>
    cases x with
    | eintr => exact ih want input h
    | eagain =>
      simp only [readLoop, if_true, Prod.mk.injEq] at h
      exact absurd h.2.symm (hr _ _)
    | fail => exact h
    | got n =>
      unfold readLoop at h ⊢
      simp only at h ⊢
      by_cases hz : want - (input.take (min n want)).length = 0
      · rw [if_pos hz] at h ⊢; exact h
      · rw [if_neg hz] at h ⊢
        simp only [Prod.mk.injEq] at h
        obtain ⟨rfl, h2⟩ := h
        rw [ih (want - (input.take (min n want)).length)
          (input.drop (input.take (min n want)).length) (Prod.ext rfl h2)]

/-! ### Non-blocking reads as one blocking read -/

/-- Body phase, blocking, from the bytes already received. -/
def bodyFrom (obj : Rd α) (want : Nat) (got : Bytes) (input : Bytes) (sched : List ReadRes) :
    FdRead α :=
  match readLoop false want input sched with
  | (d, .finished s) => ⟨d, some ((obj (got ++ d)) >>= fun p => .ok p.1), s⟩
  | (d, .failed s) => ⟨d, some (.err .system), s⟩
  | (d, .again _ s) => ⟨d, none, s⟩
  | (d, .pending) => ⟨d, none, []⟩

/-- Header phase, blocking, from the bytes already received. -/
def headerFrom (little : Bool) (obj : Rd α) (hdr : Bytes) (input : Bytes) (sched : List ReadRes) :
    FdRead α :=
  match readLoop false (szHeader - hdr.length) input sched with
  | (d, .finished s) =>
    match deHeader little (hdr ++ d) with
    | .ok ((size, _), _) =>
      if size.toNat < szHeader then ⟨d, some .ub, s⟩
      else
        let r := bodyFrom obj (size.toNat - szHeader) [] (input.drop d.length) s
        { r with consumed := d ++ r.consumed }
    | .err e => ⟨d, some (.err e), s⟩
    | .ub => ⟨d, some .ub, s⟩
  | (d, .failed s) => ⟨d, some (.err .system), s⟩
  | (d, .again _ s) => ⟨d, none, s⟩
  | (d, .pending) => ⟨d, none, []⟩

theorem fdRead_eq (little : Bool) (obj : Rd α) (input : Bytes) (sched : List ReadRes) :
    fdRead little obj input sched = headerFrom little obj [] input sched := by
  unfold fdRead headerFrom
  obtain ⟨r, h1, h2, h3⟩ := readLoop_sound false szHeader input sched
  simp only [List.length_nil, Nat.sub_zero, List.nil_append]
  generalize readLoop false szHeader input sched = R at *
  obtain ⟨d, stop⟩ := R
  cases stop with
  | finished s =>
    simp only at h3 ⊢
    cases hd : deHeader little d with
    | ok p =>
      simp only
      by_cases hs : p.1.1.toNat < szHeader
      · rw [if_pos hs, if_pos hs]
      · rw [if_neg hs, if_neg hs]
        unfold fdReadBody bodyFrom
        rw [h3]
        generalize readLoop false (p.1.1.toNat - szHeader) (input.drop szHeader) s = R
        obtain ⟨d', stop⟩ := R
        cases stop <;> rfl
    | err e => rfl
    | ub => rfl
  | _ => rfl

theorem nbDrive_body (little : Bool) (obj : Rd α) (moved : Bool) (fuel : Nat) (hdr : Bytes) (n : Nat)
    (got : Bytes) (input : Bytes) (sched : List ReadRes) (hfuel : sched.length ≤ fuel) :
    nbDrive little obj moved fuel (some (.body hdr n got)) input sched =
      bodyFrom obj (n - got.length) got input sched := by
  induction fuel generalizing got input sched with
  | zero =>
    have : sched = [] := List.length_eq_zero_iff.mp (by omega)
    subst this
    rfl
  | succ fuel ih =>
    unfold nbDrive
    simp only [nbRead, nbReadBody]
    cases hR : readLoop true (n - got.length) input sched with
    | mk d stop =>
      cases stop with
      | again w s =>
        obtain ⟨hs, hres⟩ := readLoop_resume _ _ _ hR
        simp only
        rw [ih (got ++ d) (input.drop d.length) s (by omega)]
        unfold bodyFrom
        rw [hres, List.length_append, ← Nat.sub_sub]
        generalize readLoop false (n - got.length - d.length) (input.drop d.length) s = R
        obtain ⟨d', stop⟩ := R
        cases stop <;> simp
      | pending => rw [bodyFrom, readLoop_same _ _ _ hR (by simp)]
      | failed s => rw [bodyFrom, readLoop_same _ _ _ hR (by simp)]
      | finished s => rw [bodyFrom, readLoop_same _ _ _ hR (by simp)]

theorem nbDrive_header (little : Bool) (obj : Rd α) (fuel : Nat) (hdr : Bytes) (input : Bytes)
    (sched : List ReadRes) (hfuel : sched.length ≤ fuel) :
    nbDrive little obj false fuel (some (.header hdr)) input sched =
      headerFrom little obj hdr input sched := by
  induction fuel generalizing hdr input sched with
  | zero =>
    have : sched = [] := List.length_eq_zero_iff.mp (by omega)
    subst this
    rfl
  | succ fuel ih =>
    unfold nbDrive
    simp only [nbRead, nbReadHeader]
    cases hR : readLoop true (szHeader - hdr.length) input sched with
    | mk d stop =>
      cases stop with
      | again w s =>
        obtain ⟨hs, hres⟩ := readLoop_resume _ _ _ hR
        simp only
        rw [ih (hdr ++ d) (input.drop d.length) s (by omega)]
        unfold headerFrom
        rw [hres, List.length_append, ← Nat.sub_sub]
        generalize hR2 : readLoop false (szHeader - hdr.length - d.length) (input.drop d.length) s = R
        obtain ⟨d', stop⟩ := R
        cases stop with
        | finished s' =>
          simp only [List.append_assoc]
          cases hd : deHeader little (hdr ++ (d ++ d')) with
          | ok p =>
            simp only
            by_cases hz : p.1.1.toNat < szHeader
            · rw [if_pos hz, if_pos hz]
            · rw [if_neg hz, if_neg hz, List.length_append, List.drop_drop]
          | err e => rfl
          | ub => rfl
        | _ => simp
      | pending => rw [headerFrom, readLoop_same _ _ _ hR (by simp)]
      | failed s => rw [headerFrom, readLoop_same _ _ _ hR (by simp)]
      | finished s =>
        have hlen : s.length ≤ sched.length := by
          have : ∀ (want : Nat) (input : Bytes) (sched : List ReadRes) (d : Bytes) s,
              readLoop true want input sched = (d, .finished s) → s.length ≤ sched.length := by
            intro want input sched
            induction sched generalizing want input with
            | nil => intro d s h; simp [readLoop] at h
            | cons x t iht =>
              intro d s h
              cases x with
              | eintr => have := iht want input d s h; rw [List.length_cons]; omega
              | eagain => simp [readLoop] at h
              | fail => simp [readLoop] at h
              | got n =>
                unfold readLoop at h
                simp only at h
                by_cases hz : want - (input.take (min n want)).length = 0
                · rw [if_pos hz] at h
                  simp only [Prod.mk.injEq, RStop.finished.injEq] at h
                  rw [h.2, List.length_cons]; omega
                · rw [if_neg hz] at h
                  simp only [Prod.mk.injEq] at h
                  have := iht _ _ _ s (Prod.ext rfl h.2)
                  rw [List.length_cons]; omega
          exact this _ _ _ _ _ hR
        rw [headerFrom, readLoop_same _ _ _ hR (by simp)]
        simp only
        cases hd : deHeader little (hdr ++ d) with
        | ok p =>
          simp only [Bool.false_eq_true, if_false]
          by_cases hz : p.1.1.toNat < szHeader
          · rw [if_pos hz, if_pos hz]
          · rw [if_neg hz, if_neg hz]
            unfold nbReadBody
            simp only [List.length_nil, Nat.sub_zero, List.nil_append]
            cases hB : readLoop true (p.1.1.toNat - szHeader) (input.drop d.length) s with
            | mk d' stop =>
              cases stop with
              | again w s' =>
                obtain ⟨hs, hres⟩ := readLoop_resume _ _ _ hB
                simp only [NbRead.pre]
                rw [nbDrive_body _ _ _ _ _ _ _ _ _ (by omega)]
                unfold bodyFrom
                rw [hres, List.length_append, List.drop_drop]
                generalize readLoop false (p.1.1.toNat - szHeader - d'.length)
                  (input.drop (d.length + d'.length)) s' = R
                obtain ⟨d'', stop⟩ := R
                cases stop <;> simp
              | pending => rw [bodyFrom, readLoop_same _ _ _ hB (by simp)]; rfl
              | failed s' => rw [bodyFrom, readLoop_same _ _ _ hB (by simp)]; rfl
              | finished s' => rw [bodyFrom, readLoop_same _ _ _ hB (by simp)]; rfl
        | err e => rfl
        | ub => rfl

end CCS
