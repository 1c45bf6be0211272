import Verif.Spec.BoundSerial
import Verif.Props.Channel

/-!
# C151: serialization from Python and Ruby
-/

namespace CCS.Props.BoundSerial

open CCS CCS.Spec CCS.BoundInterval CCS.BoundSerial CCS.BoundSerial.Spec

theorem pathGiven_noticed {lang : Lang} {path : Option Bytes} (h : lang = .python → path ≠ some []) : pathGiven lang path = path := by
  cases lang
  · cases path with
    | none => rfl
    | some p =>
      have hp : p ≠ [] := fun e => h rfl (by rw [e])
      simp [pathGiven, Option.filter, hp]
  · rfl

theorem descriptorGiven_noticed {lang : Lang} {fd : Option Nat} (h : lang = .python → fd ≠ some 0) : descriptorGiven lang fd = fd := by
  cases lang
  · cases fd with
    | none => rfl
    | some n =>
      have hn : n ≠ 0 := fun e => h rfl (by rw [e])
      simp [descriptorGiven, Option.filter, hn]
  · rfl

theorem takeWhile_all {p : Bytes} (h : 0#8 ∉ p) : p.takeWhile (· ≠ 0#8) = p := by
  induction p with
  | nil => rfl
  | cons b p ih =>
    simp only [List.mem_cons, not_or] at h
    rw [List.takeWhile_cons_of_pos (by simpa using Ne.symm h.1), ih h.2]

theorem cPath_clean {lang : Lang} {p : Bytes} (h : 0#8 ∉ p) : cPath lang p = .ok p := by
  cases lang
  · show Out.ok _ = _
    rw [takeWhile_all h]
  · show (if _ then _ else _) = _
    rw [if_neg h]

theorem sizeArgument_small {lang : Lang} {n : Nat} (h : lang = .python → n < 2 ^ 31) : sizeArgument lang n = n := by
  cases lang
  · have hn := h rfl
    show ((BitVec.ofNat 32 n).signExtend 64).toNat = n
    have hm : (BitVec.ofNat 32 n).msb = false := by
      rw [BitVec.msb_eq_decide, BitVec.toNat_ofNat, Nat.mod_eq_of_lt (by omega)]
      simp; omega
    rw [BitVec.signExtend_eq_setWidth_of_msb_false hm, BitVec.toNat_setWidth, BitVec.toNat_ofNat]
    rw [Nat.mod_eq_of_lt (a := n) (by omega), Nat.mod_eq_of_lt (by omega)]
  · rfl

theorem callback_plain (cb : SaveCallback) : PlainOptions [SerOption.callback (some cb)] := fun _ h =>
  ⟨cb, List.mem_singleton.1 h⟩

/-- **C151** Writing an object from Python or Ruby gives one message, the same in both languages, whether it is returned, written in a
file or to a descriptor, which no other file and no other descriptor sees; asking for both a file and a descriptor is refused.  The message
returned in Python has less than 2^31 bytes. -/
theorem C151_serialize_partial (o : Sendable) (cb : SaveCallback) (bs : Bytes) (ha : Announces o ⟨none, some cb⟩ bs) (little : Bool) :
    ∃ msg : Bytes, msg.length = szHeader + bs.length ∧ ∀ lang (w : Outside), w.little = little → w.system = obliging →
      ∀ path fd, Clean path → Noticed lang path fd →
        match path, fd with
        | none, none => (lang = .python → msg.length < 2 ^ 31) → serialize lang w o cb path fd = .memory (.ok msg)
        | some p, none => serialize lang w o cb path fd = .file (w.names p) ⟨.ok (), fileSet w.files (w.names p) msg⟩
        | none, some n => ∃ d stop, serialize lang w o cb path fd = .descriptor n (.ok (d, stop)) ∧ d <+: msg ∧
            ∀ s, stop = .finished s → d = msg
        | some _, some _ => serialize lang w o cb path fd = .refused .invalidValue := by
  obtain ⟨opts, hopts, hmsg⟩ := C107_one_message o _ (callback_plain cb)
  have e : opts = ⟨none, some cb⟩ := by
    have := hopts .memory
    rw [show serOptions .memory [SerOption.callback (some cb)] {} = .ok ⟨none, some cb⟩ from rfl] at this
    exact (Out.ok.inj this).symm
  subst e
  obtain ⟨msg, hsize, hmem, hfile, hfd⟩ := hmsg bs ha little
  have hlen : msg.length = szHeader + bs.length := by
    have h1 : sendSize (some o) true [SerOption.callback (some cb)] = .ok (szHeader + bs.length) := by
      simp [sendSize, sendable, ha.1, hopts, refute, Sendable.total, ha.2.1]
    rw [hsize] at h1; exact Out.ok.inj h1
  refine ⟨msg, hlen, fun lang w hw hs path fd hc hn => ?_⟩
  have hp := pathGiven_noticed (lang := lang) (path := path) (fun h => (hn h).1)
  have hd := descriptorGiven_noticed (lang := lang) (fd := fd) (fun h => (hn h).2)
  match path, fd with
  | none, none =>
    intro hl
    simp only [serialize, hp, hd, hsize, Out.bind_ok, hw, hmem]
    rw [sizeArgument_small hl, if_pos (Nat.le_refl _)]
  | some p, none =>
    simp only [serialize, hp, hd, cPath_clean (hc p rfl), hw, hs, hfile]
  | none, some n =>
    obtain ⟨d, stop, h1, h2, h3⟩ := hfd (w.accepts n)
    refine ⟨d, stop, ?_, h2, h3⟩
    simp only [serialize, hp, hd, hw, h1]
  | some p, some n => simp only [serialize, hp, hd]

/-- **C151** What a program gives besides the source is what the library uses. -/
theorem C151_options_partial {V : Type} (lang : Lang) (r : Reading V) (h : Heeded lang r) (op : Operation) :
    deOptions op (readingOptions lang r) {} = .ok (wanted r) := by
  have hm : mapGiven lang r.map = r.map := by
    cases lang
    · cases hm : r.map with
      | none => rfl
      | some m =>
        have : m ≠ [] := fun e => h.1 rfl (by rw [hm, e])
        cases m with
        | nil => exact absurd rfl this
        | cons a as => rfl
    · rfl
  have hd : dataGiven lang r.data = r.data := by
    cases hd : r.data with
    | none => rfl
    | some d => simp [dataGiven, Option.filter, h.2 d hd]
  unfold readingOptions
  rw [hm, hd]
  cases lang <;> (rcases r with ⟨m, v, d, c⟩; cases m <;> cases v <;> cases d <;> rfl)

/-- **C151** The options of a program in the documented form. -/
theorem reading_plain {V : Type} (lang : Lang) (r : Reading V) : PlainReading (readingOptions lang r) := by
  intro o ho
  have : o ∈ ((mapGiven lang r.map).toList.map fun m => DeOption.handleMap (some (true, m))) ∨
      o ∈ (r.vector.toList.map fun v => DeOption.vector (some v)) ∨
      o ∈ ((dataGiven lang r.data).toList.map fun d => DeOption.data d.address) ∨ o = DeOption.callback (some r.callback) := by
    cases lang <;> simp only [readingOptions, List.mem_append, List.mem_singleton] at ho
    · rcases ho with ((h | h) | h) | h
      · exact .inr (.inr (.inr h))
      · exact .inr (.inr (.inl h))
      · exact .inr (.inl h)
      · exact .inl h
    · rcases ho with ((h | h) | h) | h
      · exact .inl h
      · exact .inr (.inl h)
      · exact .inr (.inr (.inl h))
      · exact .inr (.inr (.inr h))
  rcases this with h | h | h | h
  · obtain ⟨m, -, rfl⟩ := List.mem_map.1 h
    exact .inl ⟨_, rfl⟩
  · obtain ⟨m, -, rfl⟩ := List.mem_map.1 h
    exact .inr (.inl ⟨_, rfl⟩)
  · obtain ⟨m, -, rfl⟩ := List.mem_map.1 h
    exact .inr (.inr (.inl ⟨_, rfl⟩))
  · exact .inr (.inr (.inr ⟨_, h⟩))

/-- **C151** A message written from one of the languages and read from one of them, from a buffer, a file or a descriptor, whatever follows it
there, gives the object that the reader of the library makes of the bytes of the object. -/
theorem C151_round_trip_partial {V α : Type} (o : Sendable) (cb : SaveCallback) (bs : Bytes) (x : α) (rd : DeOpts V → Rd α)
    (r : Reading V) (ha : Announces o ⟨none, some cb⟩ bs) (hr : ReadsBack (rd (wanted r)) bs x) (hsize : szHeader + bs.length < 2 ^ 31)
    (langW langR : Lang) (hh : Heeded langR r) (w : Outside) :
    ∃ msg, serialize langW w o cb none none = .memory (.ok msg) ∧ ∀ (v : Inside) after, v.system = obliging →
      deserialize langR v rd r none (some (msg ++ after)) none = .memory (.ok x) ∧
      (∀ p, 0#8 ∉ p → (langR = .python → p ≠ []) → v.files (v.names p) = some (msg ++ after) →
        deserialize langR v rd r (some p) none none = .file (.ok x)) ∧
      (∀ n, (langR = .python → n ≠ 0) → v.input n = msg ++ after → ∃ q : FdRead α,
        deserialize langR v rd r none none (some n) = .descriptor n q ∧ q.consumed <+: msg ∧
        ∀ a, q.res = some a → (a = .ok x ∧ q.consumed = msg) ∨ (a = .err .system ∧ .fail ∈ v.brings n)) := by
  obtain ⟨msg, hlen, hser⟩ := C151_serialize_partial o cb bs ha w.little
  obtain ⟨opts, dopts, h1, h2, h3⟩ := C107_one_object o _ (callback_plain cb) rd _ (reading_plain langR r)
  have e1 : opts = ⟨none, some cb⟩ := by
    have := h1 .memory
    rw [show serOptions .memory [SerOption.callback (some cb)] {} = .ok ⟨none, some cb⟩ from rfl] at this
    exact (Out.ok.inj this).symm
  have e2 : dopts = wanted r := by
    have := h2 .memory
    rw [C151_options_partial langR r hh] at this
    exact (Out.ok.inj this).symm
  subst e1 e2
  have hmem : sendMemory w.little (some o) true msg.length [SerOption.callback (some cb)] = .ok msg := by
    have := hser .ruby ⟨w.little, w.names, obliging, [], w.files, w.accepts⟩ rfl rfl none none (fun p h => nomatch h)
      (fun h => nomatch h) (fun h => nomatch h)
    simp only [serialize, pathGiven, descriptorGiven] at this
    have h4 : sendSize (some o) true [SerOption.callback (some cb)] = .ok msg.length := by
      simp [sendSize, sendable, ha.1, h1, refute, Sendable.total, ha.2.1, hlen]
    rw [h4, Out.bind_ok] at this
    exact Sent.memory.inj this
  have hw : serialize langW w o cb none none = .memory (.ok msg) := by
    have h4 : sendSize (some o) true [SerOption.callback (some cb)] = .ok msg.length := by
      simp [sendSize, sendable, ha.1, h1, refute, Sendable.total, ha.2.1, hlen]
    simp only [serialize, pathGiven_noticed (lang := langW) (path := none) (fun _ h => nomatch h),
      descriptorGiven_noticed (lang := langW) (fd := none) (fun _ h => nomatch h), h4, Out.bind_ok]
    rw [sizeArgument_small (fun _ => by rw [hlen]; exact hsize), hmem]
  refine ⟨msg, hw, fun v after hv => ?_⟩
  have hnil : ∀ l, pathGiven l none = none := fun l => by cases l <;> rfl
  have hnil' : ∀ l, descriptorGiven l none = none := fun l => by cases l <;> rfl
  obtain ⟨k1, k2, k3⟩ := h3 bs x ha hr (by omega) w.little v.little _ msg hmem after
  refine ⟨?_, fun p hp hn hf => ?_, fun n hn hf => ?_⟩
  · have hne : msg ++ after ≠ [] := fun e => by
      have : msg.length = 0 := by rw [(List.append_eq_nil_iff.1 e).1]; rfl
      rw [hlen] at this
      have : 0 < szHeader := by decide +kernel
      omega
    simp only [deserialize, hnil, hnil', pathGiven_noticed (lang := langR) (path := some (msg ++ after))
      (fun _ h => hne (Option.some.inj h)), k1]
  · simp only [deserialize, hnil, hnil', pathGiven_noticed (lang := langR) (path := some p)
      (fun hl h => hn hl (Option.some.inj h)), cPath_clean hp, hv, k2 _ _ hf]
  · obtain ⟨k4, k5⟩ := k3 (v.brings n)
    refine ⟨takeDescriptor v.little rd true (readingOptions langR r) (msg ++ after) (v.brings n), ?_, k4, k5⟩
    simp only [deserialize, hnil, descriptorGiven_noticed (lang := langR) (fd := some n) (fun hl h => hn hl (Option.some.inj h)), hf]

/-- **C151** Exactly one source has to be named. -/
theorem C151_one_source {V α : Type} (lang : Lang) (v : Inside) (rd : DeOpts V → Rd α) (r : Reading V) (path buffer : Option Bytes)
    (fd : Option Nat) (hn : path ≠ some [] ∧ buffer ≠ some [] ∧ fd ≠ some 0)
    (h : path.toList.length + buffer.toList.length + fd.toList.length ≠ 1) :
    deserialize lang v rd r path buffer fd = .refused .invalidValue := by
  simp only [deserialize, pathGiven_noticed (lang := lang) (path := path) (fun _ => hn.1),
    pathGiven_noticed (lang := lang) (path := buffer) (fun _ => hn.2.1),
    descriptorGiven_noticed (lang := lang) (fd := fd) (fun _ => hn.2.2)]
  cases path <;> cases buffer <;> cases fd <;> first | rfl | exact absurd rfl h

/-! ## User data -/

/-- **C151** Whatever a callback written in Python or Ruby answers, and even when its answers change between the calls, nothing is written
outside of the place announced for the user data, and a longer answer is refused. -/
theorem C151_callbacks_in_bounds (a : Attached) (answer : Bool → Out Bytes) (hd : ∀ q, answer q ≠ .ub) (hc : a.callback = none) (b : WBuf) :
    serAttached a (some (saver answer)) b ≠ .ub ∧
    (a.present = true → ∀ n bs, answer true = .ok n → answer (n.length == 0) = .ok bs → n.length < bs.length → ∀ b',
      serAttached a (some (saver answer)) b ≠ .ok b') := by
  cases hp : a.present with
  | false =>
    refine ⟨?_, fun h => nomatch h⟩
    simp only [serAttached, Attached.chosen, hp, dataSize, Out.bind_ok, Bool.false_eq_true, if_false]
    rw [writes_size]
    split <;> (intro h; cases h)
  | true =>
    have hch : a.chosen (some (saver answer)) = some (saver answer) := by simp [Attached.chosen, hp, hc]
    have hsz : dataSize (some (saver answer)) = (answer true >>= fun bs => .ok bs.length) := rfl
    have hfi : ∀ n, filled n (some (saver answer)) = ((answer (n == 0) >>= fun bs => refute (n < bs.length) .invalidValue >>= fun _ => .ok bs) >>=
      fun bs => if n < bs.length then .ub else .ok (bs ++ List.replicate (n - bs.length) 0#8)) := fun _ => rfl
    simp only [serAttached, hch, hsz, hfi, hp, if_true]
    cases ht : answer true with
    | ub => exact absurd ht (hd _)
    | err e => exact ⟨(by intro h; cases h), fun _ n bs h => by cases h⟩
    | ok n =>
      simp only [Out.bind_ok]
      rw [writes_size]
      by_cases hr : (lebBytes (BitVec.ofNat 64 n.length)).length ≤ b.left
      case neg => rw [if_neg hr]; exact ⟨(by intro h; cases h), fun _ n bs _ _ _ b' h => by cases h⟩
      rw [if_pos hr]
      simp only [Out.bind_ok]
      by_cases hl : b.left - (lebBytes (BitVec.ofNat 64 n.length)).length < n.length
      · simp only [refute, hl, if_true]
        exact ⟨(by intro h; cases h), fun _ n bs _ _ _ b' h => by cases h⟩
      cases hf : answer (n.length == 0) with
      | ub => exact absurd hf (hd _)
      | err e =>
        simp only [refute, hl, if_false, Out.bind_ok]
        refine ⟨(by intro h; cases h), fun _ n' bs h h' => ?_⟩
        rw [← Out.ok.inj h, hf] at h'
        cases h'
      | ok bs =>
        simp only [refute, hl, if_false, Out.bind_ok]
        by_cases hlt : n.length < bs.length
        · simp only [hlt, if_true]
          exact ⟨(by intro h; cases h), fun _ n bs _ _ _ b' h => by cases h⟩
        · simp only [hlt, if_false, Out.bind_ok]
          refine ⟨(by intro h; cases h), fun _ n' bs' h h' hlt' => ?_⟩
          rw [← Out.ok.inj h] at h' hlt'
          rw [hf] at h'
          rw [← Out.ok.inj h'] at hlt'
          exact absurd hlt' hlt

theorem textOf_text (lang : Lang) {t : Bytes} (h : 0#8 ∉ t) (after : Bytes) : textOf lang (t ++ 0#8 :: after) = .ok t := by
  have hw : (t ++ 0#8 :: after).takeWhile (· ≠ 0#8) = t := by
    induction t with
    | nil => rfl
    | cons b t ih =>
      simp only [List.mem_cons, not_or] at h
      rw [List.cons_append, List.takeWhile_cons_of_pos (by simpa using Ne.symm h.1), ih h.2]
  cases lang
  · show (if _ then _ else _) = _
    rw [if_pos (by simp), hw]
  · show Out.ok _ = _
    rw [hw]

/-- **C151** User data that the language turns into a text without a NUL arrives, through the default callbacks, as what the reading language
makes of that text, and the callback is called once; user data without a text makes the call fail. -/
theorem C151_user_data {υ : Type} (langR : Lang) (decode : Bytes → Out υ) (text : Out Bytes) (a : Attached) (hp : a.present = true)
    (hc : a.callback = none) :
    (∀ t u, text = .ok t → 0#8 ∉ t → t.length + 1 < 2 ^ 64 → decode t = .ok u →
      ∃ bs, WritesBytes (serAttached a (some (textSaver text))) bs ∧ szAttached a (some (textSaver text)) = .ok bs.length ∧
        ∃ data, loaded langR decode data = .ok u ∧ ∀ after, deAttached (some (loader langR decode)) (bs ++ after) = .ok ([data], after)) ∧
    (∀ e, text = .err e → ∀ b, serAttached a (some (textSaver text)) b = .err e) ∧
    (∀ t e, text = .ok t → 0#8 ∉ t → t.length + 1 < 2 ^ 64 → decode t = .err e →
      ∃ bs, WritesBytes (serAttached a (some (textSaver text))) bs ∧
        ∀ after, deAttached (some (loader langR decode)) (bs ++ after) = .err e) := by
  have saves : ∀ t, text = .ok t → Saves (textSaver text) (t ++ [0#8]) := fun t ht => by
    subst ht
    refine ⟨rfl, ?_⟩
    simp [textSaver, saver, refute]
  have travels : ∀ t, text = .ok t → Travels a (some (textSaver text)) (t ++ [0#8]) := fun t ht =>
    .inr (.inr (.inl ⟨hp, hc, _, rfl, saves t ht⟩))
  have len : ∀ t : Bytes, (t ++ [0#8]).length = t.length + 1 := fun t => by simp
  refine ⟨fun t u ht h0 hl hu => ?_, fun e he b => ?_, fun t e ht h0 hl he => ?_⟩
  · obtain ⟨bs, h1, h2, h3⟩ := C111_data_written a _ _ (travels t ht)
    have hload : loaded langR decode (t ++ [0#8]) = .ok u := by
      unfold loaded; rw [textOf_text langR h0 []]; exact hu
    refine ⟨bs, h2, h1, t ++ [0#8], hload, fun after => ?_⟩
    exact (C111_data_read _ (by rw [len]; exact hl) _ bs h3 after).2.1 _ rfl (by simp) (by unfold loader; rw [hload]; rfl)
  · subst he
    simp [serAttached, Attached.chosen, hp, hc, dataSize, textSaver, saver]
  · obtain ⟨bs, h1, h2, h3⟩ := C111_data_written a _ _ (travels t ht)
    refine ⟨bs, h2, fun after => ?_⟩
    refine (C111_data_read _ (by rw [len]; exact hl) _ bs h3 after).2.2 _ e rfl (by simp) ?_
    unfold loader loaded
    rw [textOf_text langR h0 []]
    show (decode t >>= _) = _
    rw [he]; rfl

/-! ## What is not so -/

/-- **C151, violated** From Python the descriptor 0 and an empty path count as none: an object to be written there is returned instead, and reading
from the standard input is refused. -/
theorem C151_python_zero {V α : Type} (w : Outside) (o : Sendable) (cb : SaveCallback) (v : Inside) (rd : DeOpts V → Rd α)
    (r : Reading V) :
    serialize .python w o cb none (some 0) = serialize .python w o cb none none ∧
    serialize .python w o cb (some []) none = serialize .python w o cb none none ∧
    deserialize .python v rd r none none (some 0) = .refused .invalidValue ∧
    (∃ q, deserialize .ruby v rd r none none (some 0) = .descriptor 0 q) :=
  ⟨rfl, rfl, rfl, _, rfl⟩

/-- **C151, violated** From Python a path is cut at a NUL: another file is written. -/
theorem C151_python_cut_path (w : Outside) (o : Sendable) (cb : SaveCallback) (p q : Bytes) (hp : 0#8 ∉ p) (hne : p ≠ []) :
    serialize .python w o cb (some (p ++ 0#8 :: q)) none = serialize .python w o cb (some p) none ∧
    serialize .ruby w o cb (some (p ++ 0#8 :: q)) none = .refused .external := by
  constructor
  · have h1 := pathGiven_noticed (lang := .python) (path := some (p ++ 0#8 :: q)) (fun _ h => by simp at h)
    have h2 := pathGiven_noticed (lang := .python) (path := some p) (fun _ h => hne (Option.some.inj h))
    have hcut : (p ++ 0#8 :: q).takeWhile (· ≠ 0#8) = p := by
      have := textOf_text .ruby hp q
      exact Out.ok.inj this
    have c1 : cPath .python (p ++ 0#8 :: q) = .ok p := by
      show Out.ok _ = _
      rw [hcut]
    have c2 : cPath .python p = .ok p := cPath_clean hp
    simp only [serialize, h1, h2, show descriptorGiven .python none = none from rfl, c1, c2]
  · have c1 : cPath .ruby (p ++ 0#8 :: q) = .err .external := by
      show (if _ then _ else _) = _
      rw [if_pos (by simp)]
    show (match cPath .ruby (p ++ 0#8 :: q) with
      | .ok p => Sent.file (w.names p) _
      | .err e => .refused e
      | .ub => .memory .ub) = _
    rw [c1]

/-- **C151, violated** From Python an empty handle map, given to learn the handles of what is read, and data that count as false (an empty
dictionary, 0) are not passed on; from Ruby they are. -/
theorem C151_python_not_passed {V : Type} (r : Reading V) (hm : r.map = some []) (d : Thing) (hd : r.data = some d)
    (hf : d.truth .python = false) (ht : d.truth .ruby = true) (op : Operation) :
    deOptions op (readingOptions .python r) {} = .ok ⟨none, r.vector, 0#64, none, some r.callback⟩ ∧
    deOptions op (readingOptions .ruby r) {} = .ok ⟨some [], r.vector, d.address, none, some r.callback⟩ := by
  constructor
  · have h1 : dataGiven .python (some d) = none := by simp [dataGiven, Option.filter, hf]
    unfold readingOptions
    rw [hm, hd, h1]
    rcases r with ⟨m, v, d, c⟩
    cases v <;> rfl
  · have := C151_options_partial .ruby r ⟨(fun h => nomatch h), fun e he => by rw [hd] at he; cases he; exact ht⟩ op
    rw [this, wanted, hm, hd]; rfl

/-- **C151, violated** From Python, the text of user data is looked for beyond the data when these contain no NUL: reading such a message is
undefined. -/
theorem C151_python_unterminated {υ : Type} (decode : Bytes → Out υ) (ud : Bytes) (hne : ud ≠ []) (h0 : 0#8 ∉ ud)
    (hl : ud.length < 2 ^ 64) (bs : Bytes) (hw : WritesBytes (serUserData ud) bs) (after : Bytes) :
    deAttached (some (loader .python decode)) (bs ++ after) = .ub ∧
    (∀ u, decode ud = .ok u → deAttached (some (loader .ruby decode)) (bs ++ after) = .ok ([ud], after)) := by
  constructor
  · have hb : bs = blobBytes ud := by
      have h1 := hw ⟨[], bs.length + (blobBytes ud).length⟩
      rw [writes_userData, if_pos (by simp only; omega), if_pos (by simp only; omega)] at h1
      simpa using (congrArg WBuf.data (Out.ok.inj h1)).symm
    subst hb
    have hsz : deSize (blobBytes ud ++ after) = .ok (ud.length, ud ++ after) := by
      rw [blobBytes, List.append_assoc]; exact (decodes_size hl).1 (ud ++ after)
    have hun : deUnchecked ud.length (ud ++ after) = .ok (ud, after) := by simp [deUnchecked]
    have hub : loader .python decode ud = .ub := by
      unfold loader loaded
      rw [show textOf .python ud = .ub from if_neg h0]; rfl
    unfold deAttached
    rw [Rd.bind_eq, hsz, Out.bind_ok]
    simp only [List.length_eq_zero_iff, hne, if_false]
    rw [Rd.bind_eq, hun, Out.bind_ok]
    show (Rd.lift (loader .python decode ud) >>= _) after = _
    rw [Rd.bind_eq, hub]; rfl
  · intro u hu
    refine (C111_data_read ud hl _ bs hw after).2.1 _ rfl hne ?_
    unfold loader loaded
    rw [show textOf .ruby ud = .ok ud from by show Out.ok _ = _; rw [takeWhile_all h0]]
    show (decode ud >>= _) = _
    rw [hu]; rfl

/-- **C151, violated** From Python a message whose size is 2^32 or more, and whose lower 32 bits make an `int` that is not negative, cannot be
returned. -/
theorem C151_python_large (w : Outside) (o : Sendable) (cb : SaveCallback) (bs : Bytes) (ha : Announces o ⟨none, some cb⟩ bs)
    (hl : 2 ^ 32 ≤ szHeader + bs.length) (hb : (szHeader + bs.length) % 2 ^ 32 < 2 ^ 31) :
    serialize .python w o cb none none = .memory (.err .notEnoughData) ∧
    ∃ msg, serialize .ruby w o cb none none = .memory (.ok msg) := by
  obtain ⟨opts, hopts, hmsg⟩ := C107_one_message o _ (callback_plain cb)
  have e : opts = ⟨none, some cb⟩ := by
    have := hopts .memory
    rw [show serOptions .memory [SerOption.callback (some cb)] {} = .ok ⟨none, some cb⟩ from rfl] at this
    exact (Out.ok.inj this).symm
  subst e
  obtain ⟨msg, hsize, hmem, -, -⟩ := hmsg bs ha w.little
  have hlen : msg.length = szHeader + bs.length := by
    have h1 : sendSize (some o) true [SerOption.callback (some cb)] = .ok (szHeader + bs.length) := by
      simp [sendSize, sendable, ha.1, hopts, refute, Sendable.total, ha.2.1]
    rw [hsize] at h1; exact Out.ok.inj h1
  have harg : sizeArgument .python msg.length < msg.length := by
    rw [hlen]
    generalize szHeader + bs.length = n at hl hb
    show ((BitVec.ofNat 32 n).signExtend 64).toNat < n
    have hm : (BitVec.ofNat 32 n).msb = false := by
      rw [BitVec.msb_eq_decide, BitVec.toNat_ofNat]
      simp; omega
    rw [BitVec.signExtend_eq_setWidth_of_msb_false hm, BitVec.toNat_setWidth, BitVec.toNat_ofNat, Nat.mod_eq_of_lt (by omega)]
    omega
  constructor
  · show Sent.memory (sendSize (some o) true _ >>= fun n => sendMemory w.little (some o) true (sizeArgument .python n) _) = _
    rw [hsize, Out.bind_ok, hmem, if_neg (by omega)]
  · refine ⟨msg, ?_⟩
    show Sent.memory (sendSize (some o) true _ >>= fun n => sendMemory w.little (some o) true n _) = _
    rw [hsize, Out.bind_ok, hmem, if_pos (Nat.le_refl _)]

/-- What a program gives: a handle map, and data that both languages take for true. -/
def exReading : Reading Unit := ⟨some [], none, some ⟨5#64, fun _ => true⟩, fun _ => .ok ()⟩

example : Announces exSendable ⟨none, some (saver fun _ => .ok [7#8])⟩ [1#8, 2#8, 3#8] ∧
    szHeader + [1#8, 2#8, 3#8].length < 2 ^ 31 ∧ Heeded .ruby exReading ∧ Heeded .python { exReading with map := none } :=
  ⟨exSendable_announces _, by decide +kernel, ⟨(nomatch ·), fun d h => by cases h; rfl⟩, ⟨(fun _ h => nomatch h), fun d h => by cases h; rfl⟩⟩

/-- The text of a number, and back. -/
example : ∃ bs, WritesBytes (serAttached ⟨true, none⟩ (some (textSaver (.ok [49#8, 50#8])))) bs ∧
    ∃ data, loaded .python (fun t => if t = [49#8, 50#8] then .ok 12 else .err .external) data = .ok 12 := by
  obtain ⟨bs, h1, -, data, h2, -⟩ := (C151_user_data .python (fun t => if t = [49#8, 50#8] then .ok 12 else .err .external)
    (.ok [49#8, 50#8]) ⟨true, none⟩ rfl rfl).1 _ 12 rfl (by decide) (by decide) rfl
  exact ⟨bs, h1, data, h2⟩

end CCS.Props.BoundSerial
