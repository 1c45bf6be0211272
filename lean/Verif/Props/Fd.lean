import Verif.Lemmas.Fd
import Verif.Props.Wire

/-! # C15–C17: serialization through file descriptors

`fdWrite` returns the bytes handed to the descriptor and where the call stands; `Spec.accepted` and
`Spec.deliveries` (`Verif/Spec/Fd.lean`) count what a schedule offers. -/

namespace CCS.Props

open CCS Spec

theorem szHeader_eq : szHeader = 13 := (C10_header_round_trip 0#64 true true).2

/-! ## C15 -/

/-- **C15** Whatever the descriptor answers, at every moment the bytes delivered are a prefix of the
serialized object (as written in memory); the call returns success only when all of it has been
delivered, and fails only on a real error. -/
theorem C15_blocking_write_delivers_exactly (obj : Wr) (bs : Bytes) (hw : WritesBytes obj bs)
    (little : Bool) (sched : List WriteRes) :
    ∃ enc d stop, serMemory little obj (szHeader + bs.length) = .ok enc ∧
      fdWrite little obj bs.length sched = .ok (d, stop) ∧ d <+: enc ∧
      (∀ s, stop = .finished s → d = enc) ∧ (∀ s, stop = .failed s → .fail ∈ sched) ∧
      (∀ r s, stop ≠ .again r s) := by
  have henc := C04_object_size_exact obj bs hw little (szHeader + bs.length)
  rw [if_pos (Nat.le_refl _)] at henc
  refine ⟨_, _, _, henc, by unfold fdWrite; rw [henc]; rfl, ?_⟩
  generalize headerBytes (BitVec.ofNat 64 (szHeader + bs.length)) ++ bs = enc
  obtain ⟨r, h1, h2⟩ := writeLoop_sound false enc sched
  refine ⟨⟨r, h1.symm⟩, ?_, ?_, ?_⟩
  · intro s hs; rw [hs] at h2
    have h2 : r = [] := h2
    rw [h2, List.append_nil] at h1; exact h1.symm
  · intro s hs; rw [hs] at h2; exact h2
  · intro r' s hs; rw [hs] at h2; exact absurd h2.2.1 (by simp)

/-- **C15** The call does return success as soon as the descriptor has accepted as many bytes as there
are, however they were split, if it never fails. -/
theorem C15_blocking_write_completes (obj : Wr) (bs : Bytes) (hw : WritesBytes obj bs)
    (little : Bool) (sched : List WriteRes) (hf : .fail ∉ sched)
    (ha : szHeader + bs.length ≤ accepted sched) :
    ∃ enc s, serMemory little obj (szHeader + bs.length) = .ok enc ∧
      fdWrite little obj bs.length sched = .ok (enc, .finished s) := by
  have henc := C04_object_size_exact obj bs hw little (szHeader + bs.length)
  rw [if_pos (Nat.le_refl _)] at henc
  have hlen : (headerBytes (BitVec.ofNat 64 (szHeader + bs.length)) ++ bs).length =
      szHeader + bs.length := by rw [List.length_append, length_header]
  obtain ⟨s, hs⟩ := writeLoop_complete
      (headerBytes (BitVec.ofNat 64 (szHeader + bs.length)) ++ bs) (by
    intro h; have := congrArg List.length h; rw [hlen, szHeader_eq] at this
    simp at this) sched hf (by rw [hlen]; exact ha)
  exact ⟨_, s, henc, by unfold fdWrite; rw [henc]; exact congrArg Out.ok hs⟩

example : (fdWrite true (serRaw [1#8, 2#8, 3#8]) 3
    [.took 5, .eintr, .took 0, .eagain, .took 10, .took 100]) =
    .ok (magicTag ++ leBytes 8 16 ++ [1#8] ++ [1#8, 2#8, 3#8], .finished []) := by decide +kernel

/-! ## C16 -/

/-- **C16** fails.  If a non-blocking serialization returns AGAIN after delivering some bytes, the next
call with the returned state never delivers the remaining bytes and returns success: either it
starts again from the first byte, or it frees an uninitialised pointer.  `fresh` is the
uninitialised word. -/
theorem C16_resumed_write_never_right (fresh : BasePtr) (hfresh : fresh ≠ .owned) (enc : Bytes)
    (sched1 sched2 : List WriteRes) (r1 r2 : NbWrite)
    (h1 : nbWrite fresh enc none sched1 = .ok r1) (hagain : r1.code = some .again)
    (hd : r1.delivered ≠ [])
    (h2 : nbWrite fresh enc r1.state sched2 = .ok r2) (hend : r2.code = some .success) :
    r1.delivered ++ r2.delivered = r1.delivered ++ enc ∧ r1.delivered ++ r2.delivered ≠ enc := by
  have hst : ∃ rest, r1.state = some ⟨fresh, rest⟩ := by
    unfold nbWrite nbWriteEnd at h1
    simp only at h1
    cases hW : writeLoop true enc sched1 with
    | mk d stop =>
      rw [hW] at h1
      cases stop with
      | pending => simp only [Out.ok.injEq] at h1; subst h1; cases hagain
      | again rest s => simp only [Out.ok.injEq] at h1; subst h1; exact ⟨rest, rfl⟩
      | failed s => cases fresh <;> simp [freeBase] at h1 <;> subst h1 <;> cases hagain
      | finished s => cases fresh <;> simp [freeBase] at h1 <;> subst h1 <;> cases hagain
  obtain ⟨rest, hst⟩ := hst
  rw [hst] at h2
  have key : r2.delivered = enc := by
    cases fresh with
    | owned => exact absurd rfl hfresh
    | null =>
      unfold nbWrite nbWriteEnd at h2
      simp only at h2
      obtain ⟨r, e1, e2⟩ := writeLoop_sound true enc sched2
      cases hW : writeLoop true enc sched2 with
      | mk d stop =>
        rw [hW] at h2 e1 e2
        cases stop with
        | pending => simp only [Out.ok.injEq] at h2; subst h2; cases hend
        | again rest s => simp only [Out.ok.injEq] at h2; subst h2; cases hend
        | failed s => simp [freeBase] at h2; subst h2; cases hend
        | finished s =>
          simp [freeBase] at h2; subst h2
          have e2 : r = [] := e2
          rw [e2, List.append_nil] at e1; exact e1.symm
    | junk =>
      unfold nbWrite nbWriteEnd at h2
      simp only at h2
      cases hW : writeLoop true rest sched2 with
      | mk d stop =>
        rw [hW] at h2
        cases stop <;> simp [freeBase] at h2 <;> subst h2 <;> cases hend
  refine ⟨by rw [key], fun h => hd ?_⟩
  rw [key] at h
  have := congrArg List.length h
  rw [List.length_append] at this
  exact List.length_eq_zero_iff.mp (by omega)

/-- **C16** With a non-NULL uninitialised word, even a serialization that completes is undefined. -/
theorem C16_uninitialised_pointer_freed (enc : Bytes) (sched : List WriteRes) (s : List WriteRes) (d : Bytes)
    (h : writeLoop true enc sched = (d, .finished s)) :
    nbWrite .junk enc none sched = .ub := by
  unfold nbWrite nbWriteEnd
  simp only
  rw [h]; rfl

/-- **C16** (partial) A non-blocking serialization that is not interrupted by AGAIN delivers exactly
the object and returns success, when the uninitialised word happens to be NULL.  Missing: resuming,
where the claim is false (above). -/
theorem C16_uninterrupted_partial (enc : Bytes) (sched : List WriteRes) (r : NbWrite)
    (h : nbWrite .null enc none sched = .ok r) :
    r.delivered <+: enc ∧ (r.code = some .success → r.delivered = enc ∧ r.state = none) := by
  unfold nbWrite nbWriteEnd at h
  simp only at h
  obtain ⟨t, e1, e2⟩ := writeLoop_sound true enc sched
  cases hW : writeLoop true enc sched with
  | mk d stop =>
    rw [hW] at h e1 e2
    cases stop with
    | pending => simp only [Out.ok.injEq] at h; subst h; exact ⟨⟨t, e1.symm⟩, by simp⟩
    | again rest s => simp only [Out.ok.injEq] at h; subst h; exact ⟨⟨t, e1.symm⟩, by simp⟩
    | failed s => simp [freeBase] at h; subst h; exact ⟨⟨t, e1.symm⟩, by simp⟩
    | finished s =>
      simp [freeBase] at h; subst h
      have e2 : t = [] := e2
      rw [e2, List.append_nil] at e1
      exact ⟨⟨[], by rw [List.append_nil]; exact e1.symm⟩, fun _ => ⟨e1.symm, rfl⟩⟩

/-- The duplicated byte, on a concrete run: `1 1 2 3` is received instead of `1 2 3`. -/
example : ∃ r1 r2, nbWrite .null [1#8, 2#8, 3#8] none [.took 1, .eagain] = .ok r1 ∧
    r1.code = some .again ∧ nbWrite .null [1#8, 2#8, 3#8] r1.state [.took 9] = .ok r2 ∧
    r2.code = some .success ∧ r1.delivered ++ r2.delivered = [1#8, 1#8, 2#8, 3#8] := by
  refine ⟨⟨[1#8], some .again, some ⟨.null, [2#8, 3#8]⟩, []⟩,
    ⟨[1#8, 2#8, 3#8], some .success, none, []⟩, ?_⟩
  decide
/-- A second AGAIN, then a third call: the result code is not initialised. -/
example : ∃ st, nbWrite .null [1#8, 2#8, 3#8] (some ⟨.null, [3#8]⟩) [.took 1, .eagain] =
      .ok ⟨[1#8], some .again, some st, []⟩ ∧
    nbWrite .null [1#8, 2#8, 3#8] (some st) [.took 9] =
      .ok ⟨[2#8, 3#8], some .indeterminate, none, []⟩ := by
  refine ⟨⟨.owned, [2#8, 3#8]⟩, ?_⟩
  decide

/-! ## C17 -/

theorem readsHeader (little : Bool) (size : BitVec 64) :
    deHeader little (headerBytes size) = .ok ((size, apiVersion), []) := by
  have := (decodes_header little size).1 []
  rwa [List.append_nil] at this

/-- **C17** From a stream holding a serialized object followed by anything: at every moment the bytes
consumed are a prefix of the object (never a byte of what follows), and if the call returns, it
returns the object having consumed exactly it, unless the descriptor failed. -/
theorem C17_reads_exactly_the_object {α : Type} (rd : Rd α) (bs : Bytes) (x : α)
    (hr : ReadsBack rd bs x) (little : Bool) (hsize : szHeader + bs.length < 2 ^ 64) (after : Bytes)
    (sched : List ReadRes) :
    let enc := headerBytes (BitVec.ofNat 64 (szHeader + bs.length)) ++ bs
    let r := fdRead little rd (enc ++ after) sched
    r.consumed <+: enc ∧
      (∀ o, r.res = some o → (o = .ok x ∧ r.consumed = enc) ∨ (o = .err .system ∧ .fail ∈ sched)) := by
  intro enc r
  have hnat : (BitVec.ofNat 64 (szHeader + bs.length)).toNat = szHeader + bs.length := by
    rw [BitVec.toNat_ofNat, Nat.mod_eq_of_lt hsize]
  have hlh := length_header (BitVec.ofNat 64 (szHeader + bs.length))
  have hrr : r = headerFrom little rd [] (enc ++ after) sched := fdRead_eq ..
  rw [hrr]
  unfold headerFrom
  simp only [List.length_nil, Nat.sub_zero, List.nil_append]
  obtain ⟨t, h1, h2, h3⟩ := readLoop_sound false szHeader (enc ++ after) sched
  generalize hR : readLoop false szHeader (enc ++ after) sched = R at *
  obtain ⟨d, stop⟩ := R
  have hpre : d <+: headerBytes (BitVec.ofNat 64 (szHeader + bs.length)) := by
    have ha : d <+: enc ++ after := ⟨t, h1.symm⟩
    have hb : headerBytes (BitVec.ofNat 64 (szHeader + bs.length)) <+: enc ++ after :=
      ⟨bs ++ after, by rw [← List.append_assoc]⟩
    exact List.prefix_of_prefix_length_le ha hb (by rw [hlh]; exact h2)
  have hpre' : d <+: enc := hpre.trans (List.prefix_append ..)
  cases stop with
  | pending => exact ⟨hpre', by simp⟩
  | again w s => exact ⟨hpre', by simp⟩
  | failed s =>
    refine ⟨hpre', fun o ho => .inr ?_⟩
    simp only [Option.some.injEq] at ho
    exact ⟨ho.symm, h3⟩
  | finished s =>
    have h3 : d.length = szHeader := h3
    have hd : d = headerBytes (BitVec.ofNat 64 (szHeader + bs.length)) :=
      hpre.eq_of_length (by rw [h3, hlh])
    simp only
    rw [hd, readsHeader]
    simp only
    rw [if_neg (by rw [hnat]; omega)]
    have hdrop : (enc ++ after).drop
        (headerBytes (BitVec.ofNat 64 (szHeader + bs.length))).length = bs ++ after := by
      simp only [enc, List.append_assoc]
      rw [List.drop_left]
    rw [hdrop, hnat]
    have hw : szHeader + bs.length - szHeader = bs.length := by omega
    rw [hw]
    unfold bodyFrom
    obtain ⟨t', e1, e2, e3⟩ := readLoop_sound false bs.length (bs ++ after) s
    have hmem : ∀ {y}, y ∈ s → y ∈ sched := by
      intro y hy
      exact (readLoop_suffix _ _ _ _ _ hR).subset hy
    generalize readLoop false bs.length (bs ++ after) s = R at *
    obtain ⟨d', stop⟩ := R
    have hpb : d' <+: bs :=
      List.prefix_of_prefix_length_le ⟨t', e1.symm⟩ (List.prefix_append bs after) e2
    have hall : headerBytes (BitVec.ofNat 64 (szHeader + bs.length)) ++ d' <+: enc :=
      (List.prefix_append_right_inj _).mpr hpb
    cases stop with
    | pending => exact ⟨hall, by simp⟩
    | again w s' => exact ⟨hall, by simp⟩
    | failed s' =>
      refine ⟨hall, fun o ho => .inr ?_⟩
      simp only [Option.some.injEq] at ho
      exact ⟨ho.symm, hmem e3⟩
    | finished s' =>
      have e3 : d'.length = bs.length := e3
      have hd' : d' = bs := hpb.eq_of_length e3
      refine ⟨hall, fun o ho => .inl ?_⟩
      simp only [Option.some.injEq] at ho
      have hx := hr []
      rw [List.append_nil] at hx
      rw [hd', List.nil_append, hx] at ho
      exact ⟨ho.symm, by rw [hd']⟩

/-- **C17** The call returns the object once enough reads have returned data, however little each. -/
theorem C17_read_completes {α : Type} (rd : Rd α) (bs : Bytes) (x : α) (hr : ReadsBack rd bs x)
    (little : Bool) (hsize : szHeader + bs.length < 2 ^ 64) (hb : bs ≠ []) (after : Bytes)
    (sched : List ReadRes) (hf : .fail ∉ sched) (hd : szHeader + bs.length ≤ deliveries sched) :
    (fdRead little rd (headerBytes (BitVec.ofNat 64 (szHeader + bs.length)) ++ bs ++ after) sched).res =
      some (.ok x) := by
  have hnat : (BitVec.ofNat 64 (szHeader + bs.length)).toNat = szHeader + bs.length := by
    rw [BitVec.toNat_ofNat, Nat.mod_eq_of_lt hsize]
  have hlh := length_header (BitVec.ofNat 64 (szHeader + bs.length))
  have hpos : 0 < bs.length := List.length_pos_iff.mpr hb
  generalize hh : headerBytes (BitVec.ofNat 64 (szHeader + bs.length)) = h at *
  obtain ⟨s, h1, h2, h3⟩ := readLoop_complete szHeader (by rw [szHeader_eq]; decide) (h ++ bs ++ after)
    (by simp only [List.length_append, hlh]; omega) sched hf (by omega)
  rw [fdRead_eq]
  unfold headerFrom
  simp only [List.length_nil, Nat.sub_zero, List.nil_append]
  rw [h1]
  have ht : (h ++ bs ++ after).take szHeader = h := by
    rw [List.append_assoc, List.take_left' hlh]
  simp only
  rw [ht, ← hh, readsHeader]
  simp only
  rw [if_neg (by rw [hnat]; omega), hh, hnat]
  have hdrop : (h ++ bs ++ after).drop h.length = bs ++ after := by
    rw [List.append_assoc, List.drop_left]
  rw [hdrop]
  have hw : szHeader + bs.length - szHeader = bs.length := by omega
  rw [hw]
  obtain ⟨s', g1, -, -⟩ := readLoop_complete bs.length hpos (bs ++ after)
    (by simp) s h2 (by omega)
  unfold bodyFrom
  rw [g1]
  have hx := hr []
  rw [List.append_nil] at hx
  simp only [List.take_left, List.nil_append, hx]
  rfl

/-- **C17** fails at the end of the stream: if the peer closes before the whole object has been sent,
the call never returns (unless a read fails), however long one waits. -/
theorem C17_truncated_stream_never_returns {α : Type} (rd : Rd α) (bs : Bytes) (little : Bool)
    (hsize : szHeader + bs.length < 2 ^ 64) (sent missing : Bytes) (hm : missing ≠ [])
    (hs : sent ++ missing = headerBytes (BitVec.ofNat 64 (szHeader + bs.length)) ++ bs)
    (sched : List ReadRes) (hf : .fail ∉ sched) :
    (fdRead little rd sent sched).res = none := by
  have hnat : (BitVec.ofNat 64 (szHeader + bs.length)).toNat = szHeader + bs.length := by
    rw [BitVec.toNat_ofNat, Nat.mod_eq_of_lt hsize]
  have hlh := length_header (BitVec.ofNat 64 (szHeader + bs.length))
  have hmpos : 0 < missing.length := List.length_pos_iff.mpr hm
  have hlen := congrArg List.length hs
  simp only [List.length_append, hlh] at hlen
  rw [fdRead_eq]
  unfold headerFrom
  simp only [List.length_nil, Nat.sub_zero, List.nil_append]
  obtain ⟨t, h1, h2, h3⟩ := readLoop_sound false szHeader sent sched
  by_cases hshort : sent.length < szHeader
  · have := readLoop_eof szHeader sent hshort sched hf
    generalize readLoop false szHeader sent sched = R at *
    obtain ⟨d, stop⟩ := R
    simp only at this
    subst this; rfl
  · cases hR : readLoop false szHeader sent sched with
    | mk d stop =>
      rw [hR] at h1 h2 h3
      cases stop with
      | pending => rfl
      | again w s => rfl
      | failed s => exact absurd h3 hf
      | finished s =>
        have h3 : d.length = szHeader := h3
        have hd : d = headerBytes (BitVec.ofNat 64 (szHeader + bs.length)) := by
          have ha : d <+: sent ++ missing := ⟨t ++ missing, by rw [← List.append_assoc, ← h1]⟩
          have hb : headerBytes (BitVec.ofNat 64 (szHeader + bs.length)) <+: sent ++ missing :=
            ⟨bs, hs.symm⟩
          exact (List.prefix_of_prefix_length_le ha hb (by rw [hlh]; exact h2)).eq_of_length
            (by rw [h3, hlh])
        simp only
        rw [hd, readsHeader]
        simp only
        rw [if_neg (by rw [hnat]; omega), hnat, hlh]
        have hfs : ReadRes.fail ∉ s := by
          exact fun h => hf ((readLoop_suffix _ _ _ _ _ hR).subset h)
        have := readLoop_eof (szHeader + bs.length - szHeader) (sent.drop szHeader)
          (by rw [List.length_drop]; omega) s hfs
        unfold bodyFrom
        generalize readLoop false (szHeader + bs.length - szHeader) (sent.drop szHeader) s = R at *
        obtain ⟨d', stop⟩ := R
        simp only at this
        subst this; rfl

/-- **C17** A header announcing less than its own size is not refused: undefined behaviour. -/
theorem C17_small_announced_size_undefined {α : Type} (rd : Rd α) (little : Bool) :
    (fdRead little rd (headerBytes 5#64) [.got 13]).res = some .ub := by
  have hl := length_header 5#64
  have e : readLoop false szHeader (headerBytes 5#64) [.got 13] =
      (headerBytes 5#64, .finished []) := by
    have hs := szHeader_eq
    rw [readLoop_got, Nat.min_eq_left (by omega), ← hs, List.take_of_length_le (by omega), hl,
      Nat.sub_self, if_pos rfl]
  unfold fdRead
  rw [e]
  simp only
  rw [readsHeader]
  simp only
  rw [if_pos (by rw [szHeader_eq]; decide)]

/-- **C17** (partial) Non-blocking reads: a caller that calls again each time it is told AGAIN obtains
exactly what one blocking call would, whatever the schedule — provided `realloc` does not move the
buffer.  Missing: a moved buffer (below). -/
theorem C17_nonblocking_read_partial {α : Type} (rd : Rd α) (little : Bool) (input : Bytes)
    (sched : List ReadRes) :
    nbDrive little rd false sched.length none input sched = fdRead little rd input sched := by
  have h := nbDrive_header little rd sched.length [] input sched (Nat.le_refl _)
  rw [fdRead_eq, ← h]
  unfold nbDrive
  rfl

/-- **C17** If `realloc` moves the buffer after the header, a non-blocking read is undefined. -/
theorem C17_nonblocking_read_moved_undefined {α : Type} (rd : Rd α) (little : Bool) (bs : Bytes) :
    (nbDrive little rd true 1 none (headerBytes 100#64 ++ bs) [.got 13]).res = some .ub := by
  have e : readLoop true szHeader (headerBytes 100#64 ++ bs) [.got 13] =
      (headerBytes 100#64, .finished []) := by
    have hs : szHeader = 13 := (C10_header_round_trip 0#64 true true).2
    have hl := length_header 100#64
    rw [readLoop_got, Nat.min_eq_left (by omega), ← hs, List.take_left' hl, hl, Nat.sub_self, if_pos rfl]
  unfold nbDrive nbRead nbReadHeader
  simp only [List.length_nil, Nat.sub_zero, List.nil_append]
  rw [e]
  simp only
  rw [readsHeader]
  rfl

example : (fdRead true (deRaw 2) (headerBytes 15#64 ++ [7#8, 8#8] ++ [9#8])
    [.got 4, .eintr, .got 30, .eagain, .got 1, .got 50]).res = some (.ok [7#8, 8#8]) := by decide +kernel
example : (nbDrive true (deRaw 2) false 9 none (headerBytes 15#64 ++ [7#8, 8#8] ++ [9#8])
    [.got 4, .eagain, .got 30, .eagain, .got 1, .got 50]).res = some (.ok [7#8, 8#8]) := by
  decide +kernel

end CCS.Props
