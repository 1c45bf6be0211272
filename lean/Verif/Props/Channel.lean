import Verif.Lemmas.Channel
import Verif.Props.Fd
import Verif.Props.SpaceWire

/-!
# C107–C112: the serialization entry points
-/

namespace CCS.Props

open CCS CCS.Spec

/-! ## C110: options -/

/-- **C110** The options of a serialization are refused with the code of the first one that is not acceptable; otherwise each setting is the
one of its last occurrence. -/
theorem C110_serialization_options (op : Operation) (options : List SerOption) :
    (∀ e, options.findSome? (SerRefused op) = some e → serOptions op options {} = .err e) ∧
    (options.findSome? (SerRefused op) = none →
      serOptions op options {} = .ok ⟨lastOf givenState options, lastOf givenCallback options⟩) := by
  have h := serOptions_eq op options {}
  constructor
  · intro e he; rw [h, he]
  · intro he; rw [h, he]; simp

/-- **C110** The same for deserializations. -/
theorem C110_deserialization_options {V : Type} (op : Operation) (options : List (DeOption V)) :
    (∀ e, options.findSome? (DeRefused op) = some e → deOptions op options {} = .err e) ∧
    (options.findSome? (DeRefused op) = none →
      deOptions op options {} = .ok ⟨lastOf deHandles options, lastOf deVector options, (lastOf deData options).getD 0#64,
        lastOf deState options, lastOf deCallback options⟩) := by
  have h := deOptions_eq op options {}
  constructor
  · intro e he; rw [h, he]
  · intro he; rw [h, he]; simp

/-- **C110** A refused option makes every operation fail with that code before anything is done: no size, no byte in memory or on the
descriptor, no file opened. -/
theorem C110_refused_options_do_nothing (little : Bool) (o : Sendable) (hs : o.supported = true) (options : List SerOption) (e : Err) :
    (options.findSome? (SerRefused .size) = some e → ∀ place, sendSize (some o) place options = .err e) ∧
    (options.findSome? (SerRefused .memory) = some e → ∀ cap, sendMemory little (some o) true cap options = .err e) ∧
    (options.findSome? (SerRefused .file) = some e → ∀ sys scrap path files,
      sendFile little sys scrap (some o) (some path) options files = ⟨.err e, files⟩) ∧
    (options.findSome? (SerRefused .descriptor) = some e → ∀ sched, sendDescriptor little (some o) options sched = .err e) := by
  refine ⟨fun h place => ?_, fun h cap => ?_, fun h sys scrap path files => ?_, fun h sched => ?_⟩
  all_goals have h' := (C110_serialization_options _ options).1 e h
  · simp [sendSize, sendable, hs, h']
  · simp [sendMemory, sendable, hs, h', refute]
  · simp [sendFile, sendable, hs, h']
  · simp [sendDescriptor, sendable, hs, h']

/-- A callback that saves one byte. -/
def exSave (b : BitVec 8) : SaveCallback := ⟨.ok 1, fun _ => .ok [b]⟩

example : ((·.state) <$> serOptions .descriptor [.callback (some (exSave 1#8)), .nonBlocking (some 4), .callback (some (exSave 2#8))] {}) =
    .ok (some 4) := rfl
example : ((lastOf givenCallback [.callback (some (exSave 1#8)), .nonBlocking (some 4), .callback (some (exSave 2#8))]).map
    (fun cb => cb.fill 1)) = some (.ok [2#8]) := rfl
example : List.findSome? (SerRefused .file) [.callback (some (exSave 1#8)), .nonBlocking (some 4), .other] = some .invalidValue := rfl

/-! ## C107: the channels carry the same message -/

/-- Plain options are accepted by all operations, with the same meaning. -/
theorem plain_options {options : List SerOption} (h : PlainOptions options) :
    ∃ opts, ∀ op, serOptions op options {} = .ok opts := by
  refine ⟨⟨lastOf givenState options, lastOf givenCallback options⟩, fun op => (C110_serialization_options op options).2 ?_⟩
  rw [List.findSome?_eq_none_iff]
  intro o ho
  obtain ⟨cb, rfl⟩ := h o ho
  rfl

theorem plain_reading {V : Type} {options : List (DeOption V)} (h : PlainReading options) :
    ∃ opts, ∀ op, deOptions op options {} = .ok opts := by
  refine ⟨_, fun op => (C110_deserialization_options op options).2 ?_⟩
  rw [List.findSome?_eq_none_iff]
  intro o ho
  rcases h o ho with ⟨_, rfl⟩ | ⟨_, rfl⟩ | ⟨_, rfl⟩ | ⟨_, rfl⟩ <;> rfl

/-- **C107** For an object that writes what it announces, there is one message: SIZE gives its length, MEMORY stores it when the buffer is large
enough and answers NOT_ENOUGH_DATA otherwise, FILE makes it the whole content of the file, and DESCRIPTOR delivers prefixes of it, all of it
when it succeeds. -/
theorem C107_one_message (o : Sendable) (options : List SerOption) (hp : PlainOptions options) :
    ∃ opts, (∀ op, serOptions op options {} = .ok opts) ∧ ∀ bs, Announces o opts bs → ∀ little, ∃ msg : Bytes,
      sendSize (some o) true options = .ok msg.length ∧
      (∀ cap, sendMemory little (some o) true cap options = if msg.length ≤ cap then .ok msg else .err .notEnoughData) ∧
      (∀ scrap path files, sendFile little obliging scrap (some o) (some path) options files = ⟨.ok (), fileSet files path msg⟩) ∧
      (∀ sched, ∃ d stop, sendDescriptor little (some o) options sched = .ok (d, stop) ∧ d <+: msg ∧
        (∀ s, stop = .finished s → d = msg)) := by
  obtain ⟨opts, hopts⟩ := plain_options hp
  refine ⟨opts, hopts, fun bs ⟨hs, hn, hw⟩ little => ⟨message bs, ?_, fun cap => ?_, fun scrap path files => ?_, fun sched => ?_⟩⟩
  · simp [sendSize, sendable, hs, hopts, refute, Sendable.total, hn, length_message]
  · have h := C04_object_size_exact (o.write opts) bs hw little cap
    rw [length_message]
    simp only [sendMemory, sendable, hs, hopts, refute, Out.bind_ok, if_true, Bool.not_true, Bool.false_eq_true, if_false]
    exact h
  · have h := C04_object_size_exact (o.write opts) bs hw little (szHeader + bs.length)
    rw [if_pos (Nat.le_refl _)] at h
    have hlen : (headerBytes (BitVec.ofNat 64 (szHeader + bs.length)) ++ bs).length = szHeader + bs.length := length_message bs
    simp [sendFile, sendable, hs, hopts, storeFile, obliging, Sendable.total, hn, h, message, length_header]
  · obtain ⟨enc, d, stop, he, hd, hpre, hfin, -, -⟩ := C15_blocking_write_delivers_exactly (o.write opts) bs hw little sched
    have h := C04_object_size_exact (o.write opts) bs hw little (szHeader + bs.length)
    rw [if_pos (Nat.le_refl _), he] at h
    cases h
    refine ⟨d, stop, ?_, hpre, hfin⟩
    simp [sendDescriptor, sendable, hs, hopts, hn, hd]

/-- **C107** Reading that message gives the same object through the three channels, whatever the options (the non-blocking one aside), on any host,
whatever follows it: memory and files ignore what follows, a descriptor leaves it unread. -/
theorem C107_one_object {V α : Type} (o : Sendable) (options : List SerOption) (hp : PlainOptions options) (rd : DeOpts V → Rd α)
    (reading : List (DeOption V)) (hr : PlainReading reading) :
    ∃ opts dopts, (∀ op, serOptions op options {} = .ok opts) ∧ (∀ op, deOptions op reading {} = .ok dopts) ∧
      ∀ bs x, Announces o opts bs → ReadsBack (rd dopts) bs x → szHeader + bs.length < 2 ^ 64 → ∀ hostW hostR cap msg,
        sendMemory hostW (some o) true cap options = .ok msg → ∀ after,
          takeMemory hostR rd true (some (msg ++ after)) reading = .ok x ∧
          (∀ path files, files path = some (msg ++ after) → takeFile hostR obliging rd true (some path) reading files = .ok x) ∧
          (∀ sched, (takeDescriptor hostR rd true reading (msg ++ after) sched).consumed <+: msg ∧
            ∀ r, (takeDescriptor hostR rd true reading (msg ++ after) sched).res = some r →
              (r = .ok x ∧ (takeDescriptor hostR rd true reading (msg ++ after) sched).consumed = msg) ∨
              (r = .err .system ∧ .fail ∈ sched)) := by
  obtain ⟨opts, hopts⟩ := plain_options hp
  obtain ⟨dopts, hdopts⟩ := plain_reading hr
  refine ⟨opts, dopts, hopts, hdopts, fun bs x ⟨hs, hn, hw⟩ hx hsize hostW hostR cap msg hm after => ?_⟩
  have hmsg : msg = message bs := by
    have h := C04_object_size_exact (o.write opts) bs hw hostW cap
    simp only [sendMemory, sendable, hs, hopts, refute, Out.bind_ok, if_true, Bool.not_true, Bool.false_eq_true, if_false] at hm
    rw [h] at hm
    by_cases hc : szHeader + bs.length ≤ cap
    · rw [if_pos hc] at hm; cases hm; rfl
    · rw [if_neg hc] at hm; cases hm
  subst hmsg
  have hmem : deMemory hostR (rd dopts) (message bs ++ after) = .ok (x, after) := reads_bind (decodes_header hostR _).1 hx after
  refine ⟨?_, fun path files hf => ?_, fun sched => ?_⟩
  · simp [takeMemory, refute, hdopts, hmem]
  · have hne : message bs ++ after ≠ [] := by
      intro h0
      have := congrArg List.length h0
      rw [List.length_append, length_message, szHeader_eq] at this
      simp at this
    have hne' : ¬ (message bs = [] ∧ after = []) := by simpa using hne
    simp [takeFile, refute, hf, obliging, hdopts, hmem, hne']
  · have h := C17_reads_exactly_the_object (rd dopts) bs x hx hostR hsize after sched
    simp only [takeDescriptor, hdopts, Bool.not_true, Bool.false_eq_true, if_false]
    exact h

/-- An object of three bytes. -/
def exSendable : Sendable := ⟨true, fun _ => .ok 3, fun _ => serRaw [1#8, 2#8, 3#8]⟩

theorem exSendable_announces (opts : SerOpts) : Announces exSendable opts [1#8, 2#8, 3#8] :=
  ⟨rfl, rfl, writes_raw _⟩

example : sendMemory true (some exSendable) true 20 [.callback (some (exSave 1#8))] =
    .ok (magicTag ++ leBytes 8 16 ++ [1#8] ++ [1#8, 2#8, 3#8]) := by decide +kernel

/-! ## C108: files and failures -/

/-- **C108** A call that is refused before the file is opened, or whose file cannot be opened, leaves all files as they were. -/
theorem C108_refused_leaves_files_partial (little : Bool) (sys : System) (scrap : Bytes) (obj : Option Sendable) (path : Option Nat)
    (options : List SerOption) (files : Nat → Option Bytes)
    (h : obj = none ∨ (∃ o, obj = some o ∧ o.supported = false) ∨ path = none ∨
      (options.findSome? (SerRefused .file)).isSome = true ∨ sys.opens = false) :
    (sendFile little sys scrap obj path options files).files = files ∧
    ∀ u, (sendFile little sys scrap obj path options files).result ≠ .ok u := by
  unfold sendFile
  rcases obj with _ | o
  · exact ⟨by rfl, by rintro u ⟨⟩⟩
  by_cases hs : o.supported = true
  case neg =>
    simp only [sendable, hs, Bool.false_eq_true, if_false]; exact ⟨trivial, by rintro u ⟨⟩⟩
  simp only [sendable, hs, if_true]
  rcases path with _ | path
  · exact ⟨rfl, by rintro u ⟨⟩⟩
  simp only
  cases hf : options.findSome? (SerRefused .file) with
  | some e =>
    rw [(C110_serialization_options .file options).1 e hf]
    exact ⟨rfl, by rintro u ⟨⟩⟩
  | none =>
    rw [(C110_serialization_options .file options).2 hf]
    have ho : sys.opens = false := by
      rcases h with h | ⟨o', h1, h2⟩ | h | h | h
      · cases h
      · cases h1; rw [hs] at h2; cases h2
      · cases h
      · rw [hf] at h; cases h
      · exact h
    simp only [storeFile, ho, Bool.not_false, if_true]
    exact ⟨trivial, by rintro u ⟨⟩⟩

/-- **C108** The other files are never touched. -/
theorem C108_other_files (little : Bool) (sys : System) (scrap : Bytes) (obj : Option Sendable) (path : Nat) (options : List SerOption)
    (files : Nat → Option Bytes) (p : Nat) (hp : p ≠ path) :
    (sendFile little sys scrap obj (some path) options files).files p = files p := by
  have hset : ∀ bs, fileSet files path bs p = files p := fun bs => if_neg hp
  unfold sendFile
  cases sendable obj with
  | err e => rfl
  | ub => rfl
  | ok o =>
    simp only
    cases serOptions .file options {} with
    | err e => rfl
    | ub => rfl
    | ok opts =>
      simp only [storeFile]
      repeat' split
      all_goals first | rfl | exact hset _

/-- **C108** Success means that the file starts with what MEMORY would have stored in a buffer of the announced size, has exactly the announced
size, and is zero in between; no assumption is made on the object. -/
theorem C108_success (little : Bool) (sys : System) (scrap : Bytes) (o : Sendable) (path : Nat) (options : List SerOption)
    (files : Nat → Option Bytes) (opts : SerOpts) (ho : serOptions .file options {} = .ok opts) (u : Unit)
    (h : (sendFile little sys scrap (some o) (some path) options files).result = .ok u) :
    ∃ n bs, o.size opts = .ok n ∧ serMemory little (o.write opts) (szHeader + n) = .ok bs ∧
      (sendFile little sys scrap (some o) (some path) options files).files path =
        some (bs ++ List.replicate (szHeader + n - bs.length) 0#8) := by
  unfold sendFile at h ⊢
  by_cases hs : o.supported = true
  case neg =>
    simp only [sendable, hs, Bool.false_eq_true, if_false] at h; cases h
  simp only [sendable, hs, if_true, ho, storeFile] at h ⊢
  cases h1 : sys.opens <;> rw [h1] at h <;> simp only [Bool.not_false, Bool.not_true, Bool.false_eq_true, if_true, if_false] at h ⊢
  · cases h
  cases hn : o.size opts with
  | err e => simp [Sendable.total, hn] at h
  | ub => simp [Sendable.total, hn] at h
  | ok n =>
    simp only [Sendable.total, hn, Out.bind_ok] at h ⊢
    cases h2 : sys.mapping with
    | some f => rw [h2] at h; cases h
    | none =>
      rw [h2] at h
      simp only at h ⊢
      cases h3 : sys.truncates <;> rw [h3] at h <;> simp only [Bool.not_false, Bool.not_true, Bool.false_eq_true, if_true, if_false] at h ⊢
      · cases h
      cases h4 : serMemory little (o.write opts) (szHeader + n) with
      | err e => rw [h4] at h; cases h
      | ub => rw [h4] at h; cases h
      | ok bs =>
        refine ⟨n, bs, rfl, h4, ?_⟩
        simp only
        cases sys.syncs <;> simp [fileSet]

/-- **C108** What the caller is told when the system refuses something, for an object that can be written. -/
theorem C108_system_codes (little : Bool) (sys : System) (scrap : Bytes) (o : Sendable) (hs : o.supported = true) (path : Nat)
    (options : List SerOption) (files : Nat → Option Bytes) (opts : SerOpts) (ho : serOptions .file options {} = .ok opts) (n : Nat)
    (hn : o.size opts = .ok n) (bs : Bytes) (hb : serMemory little (o.write opts) (szHeader + n) = .ok bs) :
    let r := (sendFile little sys scrap (some o) (some path) options files).result
    (sys.opens = false → r = .err .invalidFilePath) ∧
    (sys.opens = true → sys.mapping = some .noMemory → r = .err .outOfMemory) ∧
    (sys.opens = true → sys.mapping = some .access → r = .err .invalidFilePath) ∧
    (sys.opens = true → sys.mapping = some .otherFault → r = .err .system) ∧
    (sys.opens = true → sys.mapping = none → sys.truncates = false ∨ sys.syncs = false → r = .err .system) ∧
    (sys.opens = true → sys.mapping = none → sys.truncates = true → sys.syncs = true → r = .ok ()) := by
  simp only [sendFile, sendable, hs, if_true, ho, storeFile, Sendable.total, hn, Out.bind_ok]
  refine ⟨fun h => ?_, fun h h1 => ?_, fun h h1 => ?_, fun h h1 => ?_, fun h h1 h2 => ?_, fun h h1 h2 h3 => ?_⟩
  · simp [h]
  · simp [h, h1, MapFault.code]
  · simp [h, h1, MapFault.code]
  · simp [h, h1, MapFault.code]
  · rcases h2 with h2 | h2
    · simp [h, h1, h2]
    · cases h3 : sys.truncates <;> simp [h, h1, h2, hb]
  · simp [h, h1, h2, h3, hb]

/-- **C108** Likewise when reading a file, whatever is in it. -/
theorem C108_reading_codes {V α : Type} (little : Bool) (sys : System) (rd : DeOpts V → Rd α) (path : Nat) (options : List (DeOption V))
    (files : Nat → Option Bytes) :
    let r := takeFile little sys rd true (some path) options files
    (files path = none ∨ sys.opens = false → r = .err .invalidFilePath) ∧
    ∀ bs, files path = some bs → sys.opens = true →
      (sys.stats = false → r = .err .system) ∧
      (sys.stats = true → sys.mapping = some .noMemory → r = .err .outOfMemory) ∧
      (sys.stats = true → sys.mapping = some .access → r = .err .invalidFilePath) ∧
      (sys.stats = true → sys.mapping = some .otherFault ∨ bs = [] ∧ sys.mapping = none → r = .err .system) := by
  simp only [takeFile, refute, Bool.not_true, Bool.false_eq_true, if_false, Out.bind_ok]
  refine ⟨fun h => ?_, fun bs hb ho => ⟨fun h => ?_, fun h h1 => ?_, fun h h1 => ?_, fun h h1 => ?_⟩⟩
  · rcases h with h | h
    · simp [h]
    · cases hf : files path <;> simp [h]
  · simp [hb, ho, h]
  · simp [hb, ho, h, h1, MapFault.code]
  · simp [hb, ho, h, h1, MapFault.code]
  · rcases h1 with h1 | ⟨rfl, h1⟩
    · simp [hb, ho, h, h1, MapFault.code]
    · simp [hb, ho, h, h1]

/-- **C108** fails.  Once the file is opened, what it held is gone: what it contains after the call, successful or not, does not depend on what it
contained before. -/
theorem C108_previous_content_lost (little : Bool) (sys : System) (scrap : Bytes) (o : Sendable) (hs : o.supported = true) (path : Nat)
    (options : List SerOption) (hopt : options.findSome? (SerRefused .file) = none) (hopen : sys.opens = true)
    (files files' : Nat → Option Bytes) :
    (sendFile little sys scrap (some o) (some path) options files).files path =
      (sendFile little sys scrap (some o) (some path) options files').files path ∧
    (sendFile little sys scrap (some o) (some path) options files).result =
      (sendFile little sys scrap (some o) (some path) options files').result := by
  have hset : ∀ bs, fileSet files path bs path = fileSet files' path bs path := fun bs => by simp [fileSet]
  simp only [sendFile, sendable, hs, if_true, (C110_serialization_options .file options).2 hopt, storeFile, hopen, Bool.not_true,
    Bool.false_eq_true, if_false]
  split
  · exact ⟨hset _, rfl⟩
  · exact ⟨hset _, rfl⟩
  · split
    · exact ⟨hset _, rfl⟩
    · split
      · exact ⟨hset _, rfl⟩
      · split
        · exact ⟨hset _, rfl⟩
        · exact ⟨hset _, rfl⟩
        · split
          · exact ⟨hset _, rfl⟩
          · exact ⟨hset _, rfl⟩

/-- An object whose user data callback fails when asked for a size. -/
def exFailing : Sendable :=
  let a : Attached := ⟨true, some ⟨.err .external, fun _ => .err .external⟩⟩
  ⟨true, fun opts => szAttached a opts.callback, fun opts => serAttached a opts.callback⟩

/-- **C108** fails: a callback that fails leaves an empty file in place of the message that was there, and the file then cannot be read. -/
theorem C108_failure_empties_file (files : Nat → Option Bytes) (path : Nat) (little : Bool) (scrap : Bytes) :
    (sendFile little obliging scrap (some exFailing) (some path) [] files).result = .err .external ∧
    (sendFile little obliging scrap (some exFailing) (some path) [] files).files path = some [] ∧
    ∀ (V α : Type) (rd : DeOpts V → Rd α) (options : List (DeOption V)),
      takeFile little obliging rd true (some path) options (sendFile little obliging scrap (some exFailing) (some path) [] files).files =
        .err .system := by
  have h : sendFile little obliging scrap (some exFailing) (some path) [] files = ⟨.err .external, fileSet files path []⟩ := rfl
  rw [h]
  refine ⟨rfl, by simp [fileSet], fun V α rd options => ?_⟩
  simp [takeFile, refute, obliging, fileSet]

example : (sendFile true obliging [] (some exSendable) (some 7) [] (fun _ => none)).files 7 =
    some (magicTag ++ leBytes 8 16 ++ [1#8] ++ [1#8, 2#8, 3#8]) := by decide +kernel

/-! ## C109: the generic reader -/

/-- **C109** The generic reader is the reader of the kind whose type the message announces. -/
theorem C109_chosen_by_type {σ τ : Type} (D : Desk σ τ) (k : Kind) (bs : Bytes) (h : Announced bs k.code) :
    deAny D bs = k.reader D bs := by
  unfold deAny
  rw [Rd.bind_eq, announced_peek h]
  show (match Kind.ofCode k.code with
    | some k => k.reader D
    | none => Rd.fail .unsupportedOperation) bs = _
  rw [Kind.ofCode_code]

/-- **C109** Whatever the reader of some kind accepts, the generic reader reads as the same object, leaving the same bytes. -/
theorem C109_reads_what_the_kind_reads {σ τ : Type} (D : Desk σ τ) (k : Kind) (bs : Bytes) (x : AnyObj τ) (rest : Bytes)
    (h : k.reader D bs = .ok (x, rest)) : deAny D bs = .ok (x, rest) ∧ x.kind = k := by
  rw [C109_chosen_by_type D k bs (k.reader_announced D h)]
  exact ⟨h, k.reader_kind D h⟩

/-- **C109** Conversely an object read by the generic reader is one that the reader of its own kind reads, and the message announces that kind. -/
theorem C109_kind_is_the_one_announced {σ τ : Type} (D : Desk σ τ) (bs : Bytes) (x : AnyObj τ) (rest : Bytes)
    (h : deAny D bs = .ok (x, rest)) : x.kind.reader D bs = .ok (x, rest) ∧ Announced bs x.kind.code := by
  unfold deAny at h
  rw [Rd.bind_eq] at h
  obtain ⟨⟨t, r⟩, h1, h2⟩ := bind_eq_ok h
  unfold Rd.peek at h1
  obtain ⟨q, -, h3⟩ := bind_eq_ok h1
  cases h3
  simp only at h2
  cases hk : Kind.ofCode q.1 with
  | none => rw [hk] at h2; cases h2
  | some k =>
    rw [hk] at h2
    have hk' := k.reader_kind D h2
    simp only at hk'
    rw [hk']
    exact ⟨h2, k.reader_announced D h2⟩

/-- **C109** A type that is not one of the nineteen is refused. -/
theorem C109_unknown_type {σ τ : Type} (D : Desk σ τ) (bs : Bytes) (t : BitVec 32) (h : Announced bs t)
    (ht : ∀ k : Kind, k.code ≠ t) : deAny D bs = .err .unsupportedOperation := by
  unfold deAny
  rw [Rd.bind_eq, announced_peek h]
  cases hk : Kind.ofCode t with
  | none =>
    show (match Kind.ofCode t with
      | some k => k.reader D
      | none => Rd.fail .unsupportedOperation) bs = _
    rw [hk]; rfl
  | some k => exact absurd (Kind.code_ofCode hk) (ht k)

/-- **C109** So every round trip of a kind is one of the generic entry points: what an object writes and the reader of its kind reads back comes
back, as that kind, from memory on any host. -/
theorem C109_round_trips {σ τ : Type} (D : Desk σ τ) (k : Kind) (obj : Wr) (bs : Bytes) (x : AnyObj τ) (hw : WritesBytes obj bs)
    (hr : ReadsBack (k.reader D) bs x) (hostW hostR : Bool) (cap : Nat) (hc : szHeader + bs.length ≤ cap) :
    ∃ out, serMemory hostW obj cap = .ok out ∧ ReadsBack (deMemory hostR (deAny D)) out x ∧ x.kind = k := by
  have hb : ReadsBack (deAny D) bs x := fun tail => (C109_reads_what_the_kind_reads D k _ x tail (hr tail)).1
  obtain ⟨out, h1, h2⟩ := C10_memory_round_trip obj (deAny D) bs x hw hb hostW hostR cap hc
  exact ⟨out, h1, h2, (C109_reads_what_the_kind_reads D k _ x [] (hr [])).2⟩

/-- Types 14 (error stacks) and 20 and more are those of no kind. -/
theorem unknown_types (n : Nat) (h : n = 14 ∨ 20 ≤ n) (hn : n < 2 ^ 32) : ∀ k : Kind, k.code ≠ BitVec.ofNat 32 n := by
  intro k hk
  have h1 := congrArg BitVec.toNat hk
  rw [BitVec.toNat_ofNat, Nat.mod_eq_of_lt hn] at h1
  subst h1
  cases k <;> revert h <;> decide

/-- A generator comes back as a generator, in any process with these types of generators. -/
example {σ τ : Type} (D : Desk σ τ) (hl : D.H.little = true) (hg : D.H.gens = exGens) :
    deAny D (rngBytes true 7#64 exGen) = .ok (.rng 7#64 exGen, []) := by
  refine (C109_reads_what_the_kind_reads D .rng _ _ _ ?_).1
  show (deRng D.H.little D.H.gens >>= fun r => pure (AnyObj.rng r.1 r.2) : Rd (AnyObj τ)) _ = _
  have h : deRng true exGens (rngBytes true 7#64 exGen) = .ok ((7#64, exGen), []) := by decide +kernel
  rw [Rd.bind_eq, hl, hg, h]; rfl

example : Announced [14#8, 9#8] 14#32 ∧ ∀ k : Kind, k.code ≠ 14#32 := ⟨⟨9#64, [], by decide⟩, unknown_types 14 (Or.inl rfl) (by decide)⟩

/-! ## C111: user data -/

theorem travels_size {a : Attached} {opt : Option SaveCallback} {ud : Bytes} (h : Travels a opt ud) :
    dataSize (a.chosen opt) = .ok ud.length := by
  rcases h with ⟨h, rfl⟩ | ⟨h, cb, hc, hs, -⟩ | ⟨h, hc, cb, ho, hs, -⟩ | ⟨h, hc, ho, rfl⟩ <;> simp_all [dataSize, Attached.chosen]

theorem travels_filled {a : Attached} {opt : Option SaveCallback} {ud : Bytes} (h : Travels a opt ud) :
    filled ud.length (a.chosen opt) = .ok ud := by
  rcases h with ⟨h, rfl⟩ | ⟨h, cb, hc, -, hf⟩ | ⟨h, hc, cb, ho, -, hf⟩ | ⟨h, hc, ho, rfl⟩ <;> simp_all [filled, Attached.chosen]

/-- **C111** Whatever the callback does, when the data is written it takes exactly the announced size. -/
theorem C111_size_respected (a : Attached) (opt : Option SaveCallback) (n : Nat) (hn : szAttached a opt = .ok n) (b b' : WBuf)
    (h : serAttached a opt b = .ok b') : b'.data.length = b.data.length + n ∧ b'.left + n = b.left := by
  unfold szAttached at hn
  obtain ⟨m, hm, h1⟩ := bind_eq_ok hn
  obtain rfl := Out.ok.inj h1
  unfold serAttached at h
  rw [hm, Out.bind_ok] at h
  obtain ⟨b1, h2, h3⟩ := bind_eq_ok h
  rw [writes_size] at h2
  split at h2
  case isFalse => cases h2
  next hroom =>
  obtain rfl := Out.ok.inj h2
  rw [← length_size]
  cases hp : a.present with
  | false =>
    have h0 : m = 0 := by simpa [Attached.chosen, hp, dataSize] using hm.symm
    rw [hp, if_neg (by decide)] at h3
    obtain rfl := Out.ok.inj h3
    subst h0
    simp only [List.length_append]
    omega
  | true =>
    rw [hp, if_pos rfl] at h3
    obtain ⟨u, h4, h5⟩ := bind_eq_ok h3
    obtain ⟨bs, h6, h7⟩ := bind_eq_ok h5
    obtain rfl := Out.ok.inj h7
    have hle : ¬ b.left - (lebBytes (BitVec.ofNat 64 m)).length < m := fun hlt => by rw [refute_true hlt] at h4; cases h4
    have hlen : bs.length = m := by
      unfold filled at h6
      cases hc : a.chosen opt with
      | none =>
        rw [hc] at h6 hm
        obtain rfl := Out.ok.inj h6
        exact Out.ok.inj hm
      | some cb =>
        rw [hc] at h6
        obtain ⟨cs, -, h8⟩ := bind_eq_ok h6
        split at h8
        · cases h8
        · obtain rfl := Out.ok.inj h8
          simp only [List.length_append, List.length_replicate]
          omega
    simp only [List.length_append, hlen]
    omega

/-- **C111** With a callback that announces what it writes, the object carries exactly the data of its own callback, or else of the one of the
options, and nothing without user data or callback; the announced size is exact. -/
theorem C111_data_written (a : Attached) (opt : Option SaveCallback) (ud : Bytes) (h : Travels a opt ud) :
    ∃ bs, szAttached a opt = .ok bs.length ∧ WritesBytes (serAttached a opt) bs ∧ WritesBytes (serUserData ud) bs := by
  refine ⟨blobBytes ud, ?_, ?_, writes_userData ud⟩
  · rw [length_userData, szAttached, travels_size h]; rfl
  · intro b
    unfold serAttached
    rw [travels_size h, Out.bind_ok, writes_size, blobBytes, List.length_append]
    by_cases h1 : (lebBytes (BitVec.ofNat 64 ud.length)).length ≤ b.left
    · rw [if_pos h1, Out.bind_ok]
      cases hp : a.present with
      | true =>
        rw [if_pos rfl, travels_filled h]
        simp only [Out.bind_ok]
        by_cases h2 : b.left - (lebBytes (BitVec.ofNat 64 ud.length)).length < ud.length
        · rw [refute_true h2, if_neg (by omega)]; rfl
        · rw [refute_false h2, if_pos (by omega), Out.bind_ok, List.append_assoc, Nat.sub_sub]
      | false =>
        have hu : ud = [] := by
          rcases h with ⟨-, rfl⟩ | ⟨h, -⟩ | ⟨h, -⟩ | ⟨h, -⟩
          · rfl
          all_goals rw [hp] at h; cases h
        subst hu
        simp only [List.length_nil, Nat.add_zero, List.append_nil] at h1 ⊢
        rw [if_pos h1]; rfl
    · rw [if_neg h1, if_neg (by omega)]; rfl

/-- **C111** The callback given for reading is called once with exactly the data written when it is not empty, and its failure is the result; without
it the data is skipped. -/
theorem C111_data_read (ud : Bytes) (hl : ud.length < 2 ^ 64) (cb : Option (Bytes → Out Unit)) (bs : Bytes)
    (hw : WritesBytes (serUserData ud) bs) (after : Bytes) :
    (cb = none → deAttached cb (bs ++ after) = .ok ([], after)) ∧
    (∀ f, cb = some f → ud ≠ [] → f ud = .ok () → deAttached cb (bs ++ after) = .ok ([ud], after)) ∧
    (∀ f e, cb = some f → ud ≠ [] → f ud = .err e → deAttached cb (bs ++ after) = .err e) := by
  have hb : bs = blobBytes ud := by
    have h1 := hw ⟨[], bs.length + (blobBytes ud).length⟩
    rw [writes_userData, if_pos (by simp only; omega), if_pos (by simp only; omega)] at h1
    simpa using (congrArg WBuf.data (Out.ok.inj h1)).symm
  subst hb
  have hsz : deSize (blobBytes ud ++ after) = .ok (ud.length, ud ++ after) := by
    rw [blobBytes, List.append_assoc]; exact (decodes_size hl).1 (ud ++ after)
  have hun : deUnchecked ud.length (ud ++ after) = .ok (ud, after) := by simp [deUnchecked]
  have hgo : ∀ (h : ud ≠ []), deAttached cb (blobBytes ud ++ after) =
      ((match cb with
        | none => pure []
        | some f => do
          Rd.lift (f ud)
          pure [ud] : Rd (List Bytes)) after) := by
    intro h
    unfold deAttached
    rw [Rd.bind_eq, hsz, Out.bind_ok]
    simp only
    rw [if_neg (by simpa using h), Rd.bind_eq, hun, Out.bind_ok]
    rfl
  refine ⟨?_, ?_, ?_⟩
  · intro hc
    by_cases h : ud = []
    · subst h
      unfold deAttached
      rw [Rd.bind_eq, hsz]; rfl
    · rw [hgo h, hc]; rfl
  · intro f hc h hf
    rw [hgo h, hc]
    show (Rd.lift (f ud) >>= fun _ => pure [ud] : Rd (List Bytes)) after = _
    rw [hf]; rfl
  · intro f e hc h hf
    rw [hgo h, hc]
    show (Rd.lift (f ud) >>= fun _ => pure [ud] : Rd (List Bytes)) after = _
    rw [hf]; rfl

/-- **C111** The two ends agree: data that travels with an object and is not empty arrives once, and unchanged, at the callback of the reader. -/
theorem C111_data_arrives (a : Attached) (opt : Option SaveCallback) (ud : Bytes) (h : Travels a opt ud) (hl : ud.length < 2 ^ 64)
    (hne : ud ≠ []) (f : Bytes → Out Unit) (hf : f ud = .ok ()) :
    ∃ bs, WritesBytes (serAttached a opt) bs ∧ ∀ after, deAttached (some f) (bs ++ after) = .ok ([ud], after) := by
  obtain ⟨bs, -, h2, h3⟩ := C111_data_written a opt ud h
  exact ⟨bs, h2, fun after => (C111_data_read ud hl (some f) bs h3 after).2.1 f rfl hne hf⟩

/-- **C111** fails for empty data: an object with user data that serializes to nothing reads like one without user data, the callback of the reader
not being called. -/
theorem C111_empty_data_not_reported (cb : SaveCallback) (hcb : Saves cb []) (f : Bytes → Out Unit) :
    ∃ bs, WritesBytes (serAttached ⟨true, some cb⟩ none) bs ∧ WritesBytes (serAttached ⟨false, none⟩ none) bs ∧
      ∀ after, deAttached (some f) (bs ++ after) = .ok ([], after) := by
  obtain ⟨bs, -, h2, h3⟩ := C111_data_written ⟨true, some cb⟩ none [] (Or.inr (Or.inl ⟨rfl, cb, rfl, hcb⟩))
  obtain ⟨bs', -, h2', h3'⟩ := C111_data_written ⟨false, none⟩ none [] (Or.inl ⟨rfl, rfl⟩)
  have hb : ∀ {x : Bytes}, WritesBytes (serUserData []) x → x = blobBytes [] := by
    intro x hx
    have h1 := hx ⟨[], x.length + (blobBytes []).length⟩
    rw [writes_userData, if_pos (by simp only; omega), if_pos (by simp only; omega)] at h1
    simpa using (congrArg WBuf.data (Out.ok.inj h1)).symm
  obtain rfl := hb h3
  obtain rfl := hb h3'
  refine ⟨_, h2, h2', fun after => ?_⟩
  have hsz : deSize (blobBytes [] ++ after) = .ok (0, after) := by
    rw [blobBytes, List.append_assoc]; exact (decodes_size (by decide)).1 ([] ++ after)
  unfold deAttached
  rw [Rd.bind_eq, hsz]; rfl

example : Travels ⟨true, some (exSave 5#8)⟩ (some (exSave 6#8)) [5#8] := Or.inr (Or.inl ⟨rfl, _, rfl, rfl, rfl⟩)
example : Travels ⟨true, none⟩ (some (exSave 6#8)) [6#8] := Or.inr (Or.inr (Or.inl ⟨rfl, rfl, _, rfl, rfl, rfl⟩))
example : Travels ⟨false, some (exSave 5#8)⟩ (some (exSave 6#8)) [] := Or.inl ⟨rfl, rfl⟩

/-! ## C112: what a failed deserialization hands out -/

/-- **C112** An error raised while the object is read hands out nothing; a success hands out a live object. -/
theorem C112_reading_errors_partial {α : Type} (k : Kind) (create : Rd (BitVec 64 × α)) (handles : Option (List (BitVec 64)))
    (cb : Option (Bytes → Out Unit)) (bs : Bytes) :
    (∀ e, create bs = .err e → readHandout k create handles cb bs = (.err e, .empty)) ∧
    (∀ x, (readHandout k create handles cb bs).1 = .ok x → (readHandout k create handles cb bs).2 = .live) := by
  constructor
  · intro e h; simp [readHandout, h]
  · intro x h
    unfold readHandout at h ⊢
    cases hc : create bs with
    | err e => rw [hc] at h; cases h
    | ub => rw [hc] at h; cases h
    | ok p =>
      rw [hc] at h
      simp only at h ⊢
      by_cases hd : p.1.1 ∈ handles.getD []
      · rw [if_pos hd] at h; cases h
      · rw [if_neg hd] at h ⊢
        cases ha : deAttached cb p.2 <;> rw [ha] at h <;> first | rfl | cases h

/-- **C112** fails: when the user data cannot be read, because the message stops there or because the callback fails, the call fails and hands out a
live object, that nobody knows must be released. -/
theorem C112_user_data_leaks {α : Type} (k : Kind) (create : Rd (BitVec 64 × α)) (handles : Option (List (BitVec 64)))
    (cb : Option (Bytes → Out Unit)) (bs rest : Bytes) (h : BitVec 64) (x : α) (e : Err) (hc : create bs = .ok ((h, x), rest))
    (hh : h ∉ handles.getD []) (he : deAttached cb rest = .err e) : readHandout k create handles cb bs = (.err e, .live) := by
  simp [readHandout, hc, hh, he]

/-- **C112** fails: when the handle is already in the map, seven kinds hand out a pointer to an object that has been freed. -/
theorem C112_dangling {α : Type} (k : Kind) (create : Rd (BitVec 64 × α)) (handles : List (BitVec 64))
    (cb : Option (Bytes → Out Unit)) (bs rest : Bytes) (h : BitVec 64) (x : α) (hc : create bs = .ok ((h, x), rest)) (hh : h ∈ handles) :
    readHandout k create (some handles) cb bs = (.err .duplicateHandle,
      if k ∈ [Kind.distribution, .parameter, .expression, .tuner, .featuresTuner, .treeSpace, .treeTuner] then .dangling else .empty) := by
  simp only [readHandout, hc, Option.getD_some, if_pos hh]
  cases k <;> rfl

/-- The object header alone, as the contents of an object. -/
def exCreate : Rd (BitVec 64 × Unit) := do
  let o ← deObj
  pure (o.2, ())

/-- A message that stops before the user data, one whose data the callback refuses, and one with a handle known already. -/
example : readHandout .parameter exCreate none none [2#8, 9#8] = (.err .notEnoughData, .live) := by decide
example : readHandout .rng exCreate none (some fun _ => .err .external) [0#8, 9#8, 1#8, 7#8] = (.err .external, .live) := by decide
example : readHandout .parameter exCreate (some [9#64]) none [2#8, 9#8, 0#8] = (.err .duplicateHandle, .dangling) := by decide
example : readHandout .rng exCreate (some [9#64]) none [0#8, 9#8, 0#8] = (.err .duplicateHandle, .empty) := by decide

end CCS.Props
