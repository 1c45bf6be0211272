import Verif.Spec.Strings
import Verif.Lemmas.Datum

/-! Helper lemmas about strings in memory. -/

namespace CCS.Mem

open CCS Mem.Spec CCS.Spec

variable {jen : Bytes → BitVec 32} {little : Bool}

theorem reads_iff {h : Heap} {w : Word} {v : Value} : Reads h w v ↔ w.load h = some v := by
  constructor
  · intro hr
    cases hr with
    | null => rfl
    | text h1 h2 => simp [Word.load, Heap.read, h1, h2]
    | plain hv =>
      cases v with
      | str s => exact absurd rfl (hv s)
      | _ => rfl
  · intro hl
    match w, hl with
    | .str none, hl => cases hl; exact .null
    | .str (some p), hl =>
      simp only [Word.load, Heap.read] at hl
      cases hb : h.blocks p.block with
      | none => simp [hb] at hl
      | some texts =>
        rw [hb] at hl
        cases ht : texts[p.slot]? with
        | none => simp [ht] at hl
        | some s => simp [ht] at hl; subst hl; exact .text hb ht
    | .plain x, hl =>
      cases x with
      | str s => simp [Word.load] at hl
      | _ => cases hl; exact .plain (by simp)

theorem reads_unique {h : Heap} {w : Word} {a b : Value} (ha : Reads h w a) (hb : Reads h w b) : a = b := by
  have := reads_iff.1 ha; have h2 := reads_iff.1 hb; rw [this] at h2; exact Option.some.inj h2

theorem reads_agree {h h' : Heap} {w : Word} {v : Value}
    (hag : ∀ p, w = .str (some p) → h'.blocks p.block = h.blocks p.block) (hr : Reads h w v) : Reads h' w v := by
  cases hr with
  | null => exact .null
  | text h1 h2 => exact .text ((hag _ rfl).trans h1) h2
  | plain hv => exact .plain hv

theorem compare_reads {h : Heap} {a b : Word} {x y : Value} (ha : Reads h a x) (hb : Reads h b y) :
    ∃ o, compare little h a b = some o ∧ (o = .eq ↔ x = y) := by
  cases ha with
  | null =>
    cases hb with
    | null => exact ⟨.eq, by simp [compare], by simp⟩
    | text h1 h2 => exact ⟨.lt, by simp [compare], by simp⟩
    | plain hv =>
      refine ⟨_, rfl, ?_⟩
      constructor
      · intro h; split at h <;> cases h
      · intro h; exact absurd h.symm (hv none)
  | @text p texts s h1 h2 =>
    cases hb with
    | null => exact ⟨.gt, by simp [compare], by simp⟩
    | @text q texts' t h3 h4 =>
      by_cases hpq : p = q
      · subst hpq
        rw [h1] at h3; cases h3
        rw [h2] at h4; cases h4
        exact ⟨.eq, by simp [compare], by simp⟩
      · refine ⟨lexCmp s t, ?_, by simp [lexCmp_eq_iff]⟩
        simp [compare, hpq, Heap.read, h1, h2, h3, h4]
    | plain hv =>
      refine ⟨_, rfl, ?_⟩
      constructor
      · intro h; split at h <;> cases h
      · intro h; exact absurd h.symm (hv _)
  | plain hu =>
    cases hb with
    | null =>
      refine ⟨_, rfl, ?_⟩
      constructor
      · intro h; split at h <;> cases h
      · intro h; exact absurd h (hu _)
    | text h1 h2 =>
      refine ⟨_, rfl, ?_⟩
      constructor
      · intro h; split at h <;> cases h
      · intro h; exact absurd h (hu _)
    | plain hv => exact ⟨_, rfl, datumCmp_eq_iff little _ _⟩

theorem hashOf_reads {h : Heap} {w : Word} {v : Value} (hr : Reads h w v) : hashOf jen little h w = some (hashDatum jen little v) := by
  rw [hashOf, reads_iff.1 hr]

/-- The record can be read and its hash is that of its key. -/
def Sound (jen : Bytes → BitVec 32) (little : Bool) (h : Heap) (r : Record) (x y : Value) : Prop :=
  Reads h r.key.w x ∧ Reads h r.value.w y ∧ r.hash = hashDatum jen little x

theorem find_spec {h : Heap} {k : Word} {x : Value} (hk : Reads h k x) : ∀ {rs : List Record},
    (∀ r ∈ rs, ∃ a b, Sound jen little h r a b) →
    (find little h k (hashDatum jen little x) rs = some none ∧ ∀ r ∈ rs, ¬ Reads h r.key.w x) ∨
    (∃ r ∈ rs, find little h k (hashDatum jen little x) rs = some (some r) ∧ Reads h r.key.w x)
  | [], _ => .inl ⟨rfl, by simp⟩
  | r :: rs, hrs => by
    obtain ⟨a, b, h1, -, h3⟩ := hrs r (by simp)
    obtain ⟨o, ho, heq⟩ := compare_reads (little := little) h1 hk
    have ih := find_spec hk (rs := rs) fun r' hr' => hrs r' (by simp [hr'])
    by_cases hax : a = x
    · subst hax
      have : o = .eq := heq.2 rfl
      subst this
      exact .inr ⟨r, by simp, by simp [find, h3, ho], h1⟩
    · have hne : ¬ Reads h r.key.w x := fun h' => hax (reads_unique h1 h')
      have hskip : find little h k (hashDatum jen little x) (r :: rs) = find little h k (hashDatum jen little x) rs := by
        rw [find]
        by_cases hh : r.hash = hashDatum jen little x
        · rw [if_pos hh, ho]
          cases o with
          | eq => exact absurd (heq.1 rfl) hax
          | lt => rfl
          | gt => rfl
        · rw [if_neg hh]
      rw [hskip]
      rcases ih with ⟨h4, h5⟩ | ⟨r', h4, h5, h6⟩
      · refine .inl ⟨h4, fun r' hr' => ?_⟩
        rcases List.mem_cons.1 hr' with rfl | hr'
        · exact hne
        · exact h5 r' hr'
      · exact .inr ⟨r', by simp [h4], h5, h6⟩

theorem search_spec {h : Heap} {k : Word} {x : Value} (hk : Reads h k x) {rs : List Record}
    (hrs : ∀ r ∈ rs, ∃ a b, Sound jen little h r a b) :
    (search jen little h k rs = some none ∧ ∀ r ∈ rs, ¬ Reads h r.key.w x) ∨
    (∃ r ∈ rs, search jen little h k rs = some (some r) ∧ Reads h r.key.w x) := by
  rw [search, hashOf_reads hk]; exact find_spec hk hrs

/-- The string is in the record's own block or in a buffer of the caller that will not be touched. -/
def Anchored (w : World) (later : List Act) (r : Record) (c : Cell) : Prop :=
  ∀ p, c.w = .str (some p) → p.block = r.block ∨ (p.block ∈ w.caller ∧ ∀ a ∈ later, ¬ touches p.block a)

/-- The memory of a map that stands for the finite map `f`. -/
structure Inv (jen : Bytes → BitVec 32) (little : Bool) (later : List Act) (w : World) (f : FMap) : Prop where
  callerLt : ∀ b ∈ w.caller, b < w.heap.next
  recordLt : ∀ r ∈ w.records, r.block < w.heap.next
  apart : ∀ r ∈ w.records, r.block ∉ w.caller
  distinct : ∀ r ∈ w.records, ∀ r' ∈ w.records, r.block = r'.block → r = r'
  anchored : ∀ r ∈ w.records, Anchored w later r r.key ∧ Anchored w later r r.value
  sound : ∀ r ∈ w.records, ∃ x y, Sound jen little w.heap r x y ∧ f x = some y
  complete : ∀ x y, f x = some y → ∃ r ∈ w.records, Reads w.heap r.key.w x
  single : ∀ r ∈ w.records, ∀ r' ∈ w.records, ∀ x, Reads w.heap r.key.w x → Reads w.heap r'.key.w x → r = r'

theorem Inv.start : Inv jen little later Spec.start (fun _ => none) :=
  ⟨by simp [Spec.start], by simp [Spec.start], by simp [Spec.start], by simp [Spec.start], by simp [Spec.start],
    by simp [Spec.start], by simp, by simp [Spec.start]⟩

theorem Anchored.later {w : World} {a : Act} {later : List Act} {r : Record} {c : Cell} (h : Anchored w (a :: later) r c) :
    Anchored w later r c := fun p hp => (h p hp).imp_right fun h => ⟨h.1, fun a' ha' => h.2 a' (by simp [ha'])⟩

/-- Changing only memory the records do not use. -/
theorem Inv.change {w : World} {later : List Act} {f : FMap} {a : Act} (hi : Inv jen little (a :: later) w f) (h' : Heap) (caller' : List Nat)
    (hnext : w.heap.next ≤ h'.next) (hc1 : ∀ b ∈ caller', b < h'.next) (hc2 : ∀ r ∈ w.records, r.block ∉ caller')
    (hc3 : ∀ b ∈ w.caller, ¬ touches b a → b ∈ caller')
    (hag : ∀ b, b < w.heap.next → (b ∈ w.caller → ¬ touches b a) → h'.blocks b = w.heap.blocks b) :
    Inv jen little later { w with heap := h', caller := caller' } f := by
  have hpt : ∀ r ∈ w.records, ∀ c, Anchored w (a :: later) r c → ∀ p, c.w = .str (some p) → h'.blocks p.block = w.heap.blocks p.block := by
    intro r hr c hc p hp
    rcases hc p hp with h1 | ⟨h1, h2⟩
    · rw [h1]; exact hag _ (hi.recordLt r hr) fun h => absurd h (hi.apart r hr)
    · exact hag _ (hi.callerLt _ h1) fun _ => h2 a (by simp)
  have hback : ∀ r ∈ w.records, ∀ x, Reads h' r.key.w x → Reads w.heap r.key.w x := fun r hr x h =>
    reads_agree (fun p hp => (hpt r hr _ (hi.anchored r hr).1 p hp).symm) h
  refine ⟨hc1, fun r hr => Nat.lt_of_lt_of_le (hi.recordLt r hr) hnext, hc2, hi.distinct, fun r hr => ?_, fun r hr => ?_, fun x y hf => ?_, ?_⟩
  · have hx : ∀ c, Anchored w (a :: later) r c → Anchored { w with heap := h', caller := caller' } later r c := fun c hc p hp =>
      (hc p hp).imp_right fun h => ⟨hc3 _ h.1 (h.2 a (by simp)), fun a' ha' => h.2 a' (by simp [ha'])⟩
    exact ⟨hx _ (hi.anchored r hr).1, hx _ (hi.anchored r hr).2⟩
  · obtain ⟨x, y, ⟨h1, h2, h3⟩, h4⟩ := hi.sound r hr
    exact ⟨x, y, ⟨reads_agree (hpt r hr _ (hi.anchored r hr).1) h1, reads_agree (hpt r hr _ (hi.anchored r hr).2) h2, h3⟩, h4⟩
  · obtain ⟨r, hr, h1⟩ := hi.complete x y hf
    exact ⟨r, hr, reads_agree (hpt r hr _ (hi.anchored r hr).1) h1⟩
  · exact fun r hr r' hr' x h1 h2 => hi.single r hr r' hr' x (hback r hr x h1) (hback r' hr' x h2)

theorem Inv.weaken {w : World} {later : List Act} {f : FMap} {a : Act} (hi : Inv jen little (a :: later) w f) : Inv jen little later w f :=
  ⟨hi.callerLt, hi.recordLt, hi.apart, hi.distinct, fun r hr => ⟨(hi.anchored r hr).1.later, (hi.anchored r hr).2.later⟩, hi.sound, hi.complete, hi.single⟩

theorem Inv.buffer {w : World} {later : List Act} {f : FMap} {s : Bytes} (hi : Inv jen little (.buffer s :: later) w f) :
    Inv jen little later { w with heap := w.heap.alloc [s], caller := w.heap.next :: w.caller } f := by
  refine hi.change _ _ (Nat.le_succ _) ?_ ?_ ?_ ?_
  · intro b hb
    rcases List.mem_cons.1 hb with rfl | hb
    · exact Nat.lt_succ_self _
    · exact Nat.lt_succ_of_lt (hi.callerLt b hb)
  · intro r hr hb
    rcases List.mem_cons.1 hb with hb | hb
    · have := hi.recordLt r hr; omega
    · exact hi.apart r hr hb
  · intro b hb _; simp [hb]
  · intro b hb _; simp only [Heap.alloc]; rw [if_neg (by omega)]

theorem Inv.rewrite {w : World} {later : List Act} {f : FMap} {b : Nat} {s : Bytes} (hi : Inv jen little (.rewrite b s :: later) w f)
    (hb : b ∈ w.caller) : Inv jen little later { w with heap := w.heap.rewrite b s } f := by
  refine hi.change _ w.caller (Nat.le_refl _) hi.callerLt hi.apart (fun b hb _ => hb) ?_
  intro b' _ hn
  simp only [Heap.rewrite]
  rw [if_neg]
  rintro rfl
  exact hn hb rfl

theorem Inv.free {w : World} {later : List Act} {f : FMap} {b : Nat} (hi : Inv jen little (.free b :: later) w f)
    (hb : b ∈ w.caller) :
    Inv jen little later { w with heap := w.heap.free b, caller := w.caller.filter fun x => decide (x ≠ b) } f := by
  refine hi.change _ _ (Nat.le_refl _) (fun b' hb' => hi.callerLt b' (List.mem_filter.1 hb').1)
    (fun r hr h => hi.apart r hr (List.mem_filter.1 h).1) (fun b' hb' ht => ?_) ?_
  · refine List.mem_filter.2 ⟨hb', ?_⟩
    simp only [decide_eq_true_eq]
    rintro rfl
    exact ht rfl
  · intro b' _ hn
    simp only [Heap.free]
    rw [if_neg]
    rintro rfl
    exact hn hb rfl

theorem mem_remove {w : World} {h : Heap} {old : Option Record} {r : Record} :
    r ∈ (removeOld h w.records old).2 ↔ r ∈ w.records ∧ ∀ o, old = some o → r.block ≠ o.block := by
  cases old with
  | none => simp [removeOld]
  | some o => simp [removeOld, removeRecord]

theorem remove_blocks {w : World} {h : Heap} {old : Option Record} {b : Nat} (hb : ∀ o, old = some o → b ≠ o.block) :
    (removeOld h w.records old).1.blocks b = h.blocks b := by
  cases old with
  | none => rfl
  | some o => simp [removeOld, removeRecord, Heap.free, hb o rfl]

theorem remove_next {w : World} {h : Heap} {old : Option Record} : (removeOld h w.records old).1.next = h.next := by
  cases old <;> rfl

/-- What the finite map becomes. -/
def update (f : FMap) (x : Value) (y : Option Value) : FMap := fun z => if z = x then y else f z

/-- Records that stay when one is removed. -/
theorem Inv.remove {w : World} {later : List Act} {f : FMap} (hi : Inv jen little later w f) {h' : Heap} {rs' : List Record} {x : Value}
    {o : Record} (ho : o ∈ w.records) (hx : Reads w.heap o.key.w x)
    (hrs : ∀ r, r ∈ rs' ↔ r ∈ w.records ∧ r.block ≠ o.block)
    (hnext : w.heap.next ≤ h'.next) (hag : ∀ b, b < w.heap.next → b ≠ o.block → h'.blocks b = w.heap.blocks b) :
    Inv jen little later { w with heap := h', records := rs' } (update f x none) := by
  have hpt : ∀ r ∈ rs', ∀ c, Anchored w later r c → ∀ p, c.w = .str (some p) → h'.blocks p.block = w.heap.blocks p.block := by
    intro r hr c hc p hp
    obtain ⟨hr1, hr2⟩ := (hrs r).1 hr
    rcases hc p hp with h1 | ⟨h1, h2⟩
    · rw [h1]; exact hag _ (hi.recordLt r hr1) hr2
    · exact hag _ (hi.callerLt _ h1) fun h => hi.apart o ho (h ▸ h1)
  have hmem : ∀ r ∈ rs', r ∈ w.records := fun r hr => ((hrs r).1 hr).1
  have hback : ∀ r ∈ rs', ∀ z, Reads h' r.key.w z → Reads w.heap r.key.w z := fun r hr z h =>
    reads_agree (fun p hp => (hpt r hr _ (hi.anchored r (hmem r hr)).1 p hp).symm) h
  refine ⟨fun b hb => Nat.lt_of_lt_of_le (hi.callerLt b hb) hnext, fun r hr => Nat.lt_of_lt_of_le (hi.recordLt r (hmem r hr)) hnext,
    fun r hr => hi.apart r (hmem r hr), fun r hr r' hr' => hi.distinct r (hmem r hr) r' (hmem r' hr'),
    fun r hr => hi.anchored r (hmem r hr), fun r hr => ?_, fun z y hf => ?_, ?_⟩
  · obtain ⟨a, b, ⟨h1, h2, h3⟩, h4⟩ := hi.sound r (hmem r hr)
    refine ⟨a, b, ⟨reads_agree (hpt r hr _ (hi.anchored r (hmem r hr)).1) h1, reads_agree (hpt r hr _ (hi.anchored r (hmem r hr)).2) h2, h3⟩, ?_⟩
    rw [update, if_neg, h4]
    rintro rfl
    exact ((hrs r).1 hr).2 (congrArg Record.block (hi.single r (hmem r hr) o ho _ h1 hx))
  · rw [update] at hf
    split at hf
    · cases hf
    · next hne =>
      obtain ⟨r, hr, h1⟩ := hi.complete z y hf
      have hr' : r ∈ rs' := (hrs r).2 ⟨hr, fun hb => hne (reads_unique h1 (hi.distinct r hr o ho hb ▸ hx))⟩
      exact ⟨r, hr', reads_agree (hpt r hr' _ (hi.anchored r hr).1) h1⟩
  · exact fun r hr r' hr' z h1 h2 => hi.single r (hmem r hr) r' (hmem r' hr') z (hback r hr z h1) (hback r' hr' z h2)

/-- A key that is absent is not in the finite map either. -/
theorem Inv.absent {w : World} {later : List Act} {f : FMap} (hi : Inv jen little later w f) {x : Value}
    (h : ∀ r ∈ w.records, ¬ Reads w.heap r.key.w x) : f x = none := by
  cases hf : f x with
  | none => rfl
  | some y => obtain ⟨r, hr, h1⟩ := hi.complete x y hf; exact absurd h1 (h r hr)

theorem Inv.removeOld {w : World} {later : List Act} {f : FMap} (hi : Inv jen little later w f) {x : Value} {texts : List Bytes}
    {old : Option Record} (hold : (old = none ∧ ∀ r ∈ w.records, ¬ Reads w.heap r.key.w x) ∨
      ∃ r ∈ w.records, old = some r ∧ Reads w.heap r.key.w x) :
    Inv jen little later { w with heap := (removeOld (w.heap.alloc texts) w.records old).1,
                                  records := (removeOld (w.heap.alloc texts) w.records old).2 } (update f x none) := by
  have halloc : ∀ b, b < w.heap.next → (w.heap.alloc texts).blocks b = w.heap.blocks b := fun b hb => by
    simp only [Heap.alloc]; rw [if_neg (by omega)]
  rcases hold with ⟨rfl, hne⟩ | ⟨o, ho, rfl, hx⟩
  · have hf : update f x none = f := funext fun z => by
      rw [update]; split
      · next h => rw [h, hi.absent hne]
      · rfl
    rw [hf]
    have hpt : ∀ r ∈ w.records, ∀ c, Anchored w later r c → ∀ p, c.w = .str (some p) →
        (w.heap.alloc texts).blocks p.block = w.heap.blocks p.block := by
      intro r hr c hc p hp
      rcases hc p hp with h1 | ⟨h1, h2⟩
      · rw [h1]; exact halloc _ (hi.recordLt r hr)
      · exact halloc _ (hi.callerLt _ h1)
    refine ⟨fun b hb => Nat.lt_succ_of_lt (hi.callerLt b hb), fun r hr => Nat.lt_succ_of_lt (hi.recordLt r hr),
      hi.apart, hi.distinct, hi.anchored, fun r hr => ?_, fun z y hf => ?_, fun r hr r' hr' z h1 h2 => ?_⟩
    · obtain ⟨a, b, ⟨h1, h2, h3⟩, h4⟩ := hi.sound r hr
      exact ⟨a, b, ⟨reads_agree (hpt r hr _ (hi.anchored r hr).1) h1, reads_agree (hpt r hr _ (hi.anchored r hr).2) h2, h3⟩, h4⟩
    · obtain ⟨r, hr, h1⟩ := hi.complete z y hf
      exact ⟨r, hr, reads_agree (hpt r hr _ (hi.anchored r hr).1) h1⟩
    · exact hi.single r hr r' hr' z (reads_agree (fun p hp => (hpt r hr _ (hi.anchored r hr).1 p hp).symm) h1)
        (reads_agree (fun p hp => (hpt r' hr' _ (hi.anchored r' hr').1 p hp).symm) h2)
  · refine hi.remove ho hx (fun r => ?_) (by rw [remove_next]; exact Nat.le_succ _) fun b hb hne => ?_
    · rw [mem_remove]; simp
    · rw [remove_blocks (by simpa using hne), halloc b hb]

/-- Adding a record for an absent key. -/
theorem Inv.add {w : World} {later : List Act} {f : FMap} (hi : Inv jen little later w f) {r : Record} {x y : Value}
    (hs : Sound jen little w.heap r x y) (hx : f x = none) (hlt : r.block < w.heap.next) (hap : r.block ∉ w.caller)
    (hne : ∀ r' ∈ w.records, r'.block ≠ r.block) (han : Anchored w later r r.key ∧ Anchored w later r r.value) :
    Inv jen little later { w with records := w.records ++ [r] } (update f x (some y)) := by
  have hother : ∀ r' ∈ w.records, ¬ Reads w.heap r'.key.w x := fun r' hr' h => by
    obtain ⟨a, b, ⟨h1, -, -⟩, h4⟩ := hi.sound r' hr'
    rw [reads_unique h1 h, hx] at h4
    cases h4
  refine ⟨hi.callerLt, fun r' hr' => ?_, fun r' hr' => ?_, fun r1 h1 r2 h2 hb => ?_, fun r' hr' => ?_, fun r' hr' => ?_, fun z v hf => ?_,
    fun r1 h1 r2 h2 z hz1 hz2 => ?_⟩
  · rcases List.mem_append.1 hr' with hr' | hr'
    · exact hi.recordLt r' hr'
    · rw [List.mem_singleton.1 hr']; exact hlt
  · rcases List.mem_append.1 hr' with hr' | hr'
    · exact hi.apart r' hr'
    · rw [List.mem_singleton.1 hr']; exact hap
  · rcases List.mem_append.1 h1 with h1 | h1 <;> rcases List.mem_append.1 h2 with h2 | h2
    · exact hi.distinct r1 h1 r2 h2 hb
    · rw [List.mem_singleton.1 h2] at hb; exact absurd hb (hne r1 h1)
    · rw [List.mem_singleton.1 h1] at hb; exact absurd hb.symm (hne r2 h2)
    · rw [List.mem_singleton.1 h1, List.mem_singleton.1 h2]
  · rcases List.mem_append.1 hr' with hr' | hr'
    · exact hi.anchored r' hr'
    · rw [List.mem_singleton.1 hr']; exact han
  · rcases List.mem_append.1 hr' with hr' | hr'
    · obtain ⟨a, b, h1, h4⟩ := hi.sound r' hr'
      refine ⟨a, b, h1, ?_⟩
      rw [update, if_neg, h4]
      rintro rfl
      exact hother r' hr' h1.1
    · rw [List.mem_singleton.1 hr']; exact ⟨x, y, hs, by simp [update]⟩
  · rw [update] at hf
    split at hf
    · next h => subst h; exact ⟨r, by simp, hs.1⟩
    · obtain ⟨r', hr', h1⟩ := hi.complete z v hf
      exact ⟨r', by simp [hr'], h1⟩
  · rcases List.mem_append.1 h1 with h1 | h1 <;> rcases List.mem_append.1 h2 with h2 | h2
    · exact hi.single r1 h1 r2 h2 z hz1 hz2
    · rw [List.mem_singleton.1 h2] at hz2
      have := reads_unique hz2 hs.1; subst this
      exact absurd hz1 (hother r1 h1)
    · rw [List.mem_singleton.1 h1] at hz1
      have := reads_unique hz1 hs.1; subst this
      exact absurd hz2 (hother r2 h2)
    · rw [List.mem_singleton.1 h1, List.mem_singleton.1 h2]

/-- What is stored for a datum that was given as documented. -/
theorem placed_spec {w : World} {later : List Act} {c : Cell} {v : Value} {b i : Nat} (hr : Reads w.heap c.w v)
    (hg : c.transient = true ∨ Lasting w later c) :
    ∃ cp, copied w.heap c = some cp ∧
      ∀ h' : Heap, (∀ b ∈ w.caller, h'.blocks b = w.heap.blocks b) → (∃ texts, h'.blocks b = some texts ∧ texts[i]? = some (cp.getD [])) →
        Reads h' (placed c cp ⟨b, i⟩).w v ∧
        (∀ p, (placed c cp ⟨b, i⟩).w = .str (some p) → p.block = b ∨ (p.block ∈ w.caller ∧ ∀ a ∈ later, ¬ touches p.block a)) := by
  obtain ⟨cw, tr⟩ := c
  simp only at hr hg
  cases hr with
  | null =>
    refine ⟨none, rfl, fun h' _ _ => ⟨.null, fun p hp => ?_⟩⟩
    simp [placed] at hp
  | plain hv =>
    refine ⟨none, rfl, fun h' _ _ => ⟨.plain hv, fun p hp => ?_⟩⟩
    simp [placed] at hp
  | @text p texts s h1 h2 =>
    cases tr with
    | true =>
      refine ⟨some s, by simp [copied, Heap.read, h1, h2], fun h' _ ⟨t, ht, hti⟩ => ⟨?_, fun q hq => ?_⟩⟩
      · exact .text ht hti
      · simp only [placed, Word.str.injEq, Option.some.injEq] at hq
        exact .inl (by rw [← hq])
    | false =>
      refine ⟨none, by simp [copied], fun h' hca _ => ?_⟩
      have hl := (hg.resolve_left (by simp)) p rfl
      refine ⟨.text ((hca _ hl.1).trans h1) h2, fun q hq => ?_⟩
      simp only [placed, Word.str.injEq, Option.some.injEq] at hq
      subst hq
      exact .inr hl

theorem setEntry_spec {w : World} {later : List Act} {f : FMap} (hi : Inv jen little later w f) {k v : Cell} {x y : Value}
    (hk : Reads w.heap k.w x) (hv : Reads w.heap v.w y) (hgk : k.transient = true ∨ Lasting w later k)
    (hgv : v.transient = true ∨ Lasting w later v) :
    ∃ w', setEntry jen little w k v = .ret none w' ∧ Inv jen little later w' (update f x (some y)) := by
  have hrep : ∀ old, ((old = none ∧ ∀ r ∈ w.records, ¬ Reads w.heap r.key.w x) ∨
      ∃ r ∈ w.records, old = some r ∧ Reads w.heap r.key.w x) →
      ∃ w', replace jen little w old k v = .ret none w' ∧ Inv jen little later w' (update f x (some y)) := by
    intro old hold
    obtain ⟨ck, hck, hk'⟩ := placed_spec (b := w.heap.next) (i := 0) hk hgk
    obtain ⟨cv, hcv, hv'⟩ := placed_spec (b := w.heap.next) (i := 1) hv hgv
    have hi' := hi.removeOld (texts := [ck.getD [], cv.getD []]) hold
    have hold' : ∀ o, old = some o → o ∈ w.records := by
      intro o ho
      rcases hold with ⟨rfl, -⟩ | ⟨r, hr, rfl, -⟩
      · cases ho
      · cases ho; exact hr
    have hcall : ∀ b ∈ w.caller, (removeOld (w.heap.alloc [ck.getD [], cv.getD []]) w.records old).1.blocks b = w.heap.blocks b := by
      intro b hb
      rw [remove_blocks (fun o ho h => hi.apart o (hold' o ho) (h ▸ hb))]
      have := hi.callerLt b hb
      simp only [Heap.alloc]; rw [if_neg (by omega)]
    have hnew : (removeOld (w.heap.alloc [ck.getD [], cv.getD []]) w.records old).1.blocks w.heap.next = some [ck.getD [], cv.getD []] := by
      rw [remove_blocks (fun o ho h => by have := hi.recordLt o (hold' o ho); omega)]
      simp [Heap.alloc]
    obtain ⟨rk, ak⟩ := hk' _ hcall ⟨_, hnew, rfl⟩
    obtain ⟨rv, av⟩ := hv' _ hcall ⟨_, hnew, rfl⟩
    have hadd := hi'.add (r := ⟨w.heap.next, hashDatum jen little x, placed k ck ⟨w.heap.next, 0⟩, placed v cv ⟨w.heap.next, 1⟩⟩)
      (x := x) (y := y) ⟨rk, rv, rfl⟩ (by simp [update]) (by simp only [remove_next]; exact Nat.lt_succ_self _)
      (fun h => by have := hi.callerLt _ h; simp at this)
      (fun r' hr' h => by have := hi.recordLt r' (mem_remove.1 hr').1; simp only at h; omega) ⟨ak, av⟩
    have hupd : update (update f x none) x (some y) = update f x (some y) := funext fun z => by
      simp only [update]; split <;> rfl
    rw [hupd] at hadd
    refine ⟨_, ?_, hadd⟩
    simp only [replace, hck, hcv, addRecord, hashOf_reads rk]
  have hsd : ∀ r ∈ w.records, ∃ a b, Sound jen little w.heap r a b := fun r hr => by
    obtain ⟨a, b, h1, -⟩ := hi.sound r hr; exact ⟨a, b, h1⟩
  rw [setEntry]
  rcases search_spec hk hsd with ⟨h1, h2⟩ | ⟨r, hr, h1, h2⟩
  · rw [h1]; exact hrep none (.inl ⟨rfl, h2⟩)
  · rw [h1]
    obtain ⟨a, b, ⟨h3, h4, -⟩, h5⟩ := hi.sound r hr
    have := reads_unique h3 h2; subst this
    obtain ⟨o, ho, heq⟩ := compare_reads (little := little) hv h4
    simp only [ho]
    cases o with
    | eq =>
      have := heq.1 rfl; subst this
      refine ⟨w, rfl, ?_⟩
      have : update f a (some y) = f := funext fun z => by
        rw [update]; split
        · next h => rw [h, h5]
        · rfl
      rw [this]; exact hi
    | lt => exact hrep (some r) (.inr ⟨r, hr, rfl, h2⟩)
    | gt => exact hrep (some r) (.inr ⟨r, hr, rfl, h2⟩)

theorem delEntry_spec {w : World} {later : List Act} {f : FMap} (hi : Inv jen little later w f) {k : Cell} {x : Value}
    (hk : Reads w.heap k.w x) : ∃ c w', delEntry jen little w k = .ret c w' ∧ (c = none ∧ Inv jen little later w' (update f x none) ∨
      c = some .invalidValue ∧ Inv jen little later w' f) := by
  have hsd : ∀ r ∈ w.records, ∃ a b, Sound jen little w.heap r a b := fun r hr => by
    obtain ⟨a, b, h1, -⟩ := hi.sound r hr; exact ⟨a, b, h1⟩
  rw [delEntry]
  rcases search_spec hk hsd with ⟨h1, h2⟩ | ⟨r, hr, h1, h2⟩
  · rw [h1]; exact ⟨_, _, rfl, .inr ⟨rfl, hi⟩⟩
  · rw [h1]
    refine ⟨_, _, rfl, .inl ⟨rfl, hi.remove hr h2 (fun r' => ?_) (Nat.le_refl _) fun b _ hne => ?_⟩⟩
    · simp [removeRecord]
    · simp [removeRecord, Heap.free, hne]

theorem free_all (rs : List Record) : ∀ h : Heap, (rs.foldl (fun h r => h.free r.block) h).next = h.next := by
  induction rs with
  | nil => intro h; rfl
  | cons r rs ih => intro h; rw [List.foldl_cons, ih]; rfl

theorem clearEntries_spec {w : World} {later : List Act} {f : FMap} (hi : Inv jen little later w f) :
    ∃ w', clearEntries w = .ret none w' ∧ Inv jen little later w' (fun _ => none) := by
  refine ⟨_, rfl, ⟨fun b hb => ?_, by simp, by simp, by simp, by simp, by simp, by simp, by simp⟩⟩
  simp only [free_all]; exact hi.callerLt b hb

theorem run_spec : ∀ {acts : List Act} {w : World} {f : FMap}, Inv jen little acts w f → Fair jen little w acts →
    ∃ h w', Heard jen little w acts h w' ∧ Inv jen little [] w' (FMap.history f h) ∧ (∀ e ∈ h, ∀ k v, e.1 = .set k v → e.2 = none)
  | [], w, f, hi, _ => ⟨[], w, .nil, hi, by simp⟩
  | .buffer s :: later, w, f, hi, hf => by
    obtain ⟨h, w', h1, h2, h3⟩ := run_spec hi.buffer (hf.2 _ _ rfl)
    exact ⟨h, w', .buffer rfl h1, h2, h3⟩
  | .rewrite b s :: later, w, f, hi, hf => by
    have hb : b ∈ w.caller := hf.1
    have hact : act jen little w (.rewrite b s) = .ret none { w with heap := w.heap.rewrite b s } := by simp [act, ownBuffer, hb]
    obtain ⟨h, w', h1, h2, h3⟩ := run_spec (hi.rewrite hb) (hf.2 _ _ hact)
    exact ⟨h, w', .rewrite hact h1, h2, h3⟩
  | .free b :: later, w, f, hi, hf => by
    have hb : b ∈ w.caller := hf.1
    have hact : act jen little w (.free b) = .ret none { w with heap := w.heap.free b, caller := w.caller.filter fun x => decide (x ≠ b) } := by
      simp [act, ownBuffer, hb]
    obtain ⟨h, w', h1, h2, h3⟩ := run_spec (hi.free hb) (hf.2 _ _ hact)
    exact ⟨h, w', .free hact h1, h2, h3⟩
  | .set k v :: later, w, f, hi, hf => by
    obtain ⟨⟨⟨x, hx⟩, hgk⟩, ⟨y, hy⟩, hgv⟩ := hf.1
    obtain ⟨w1, hact, hi1⟩ := setEntry_spec hi.weaken hx hy hgk hgv
    obtain ⟨h, w', h1, h2, h3⟩ := run_spec hi1 (hf.2 _ _ hact)
    refine ⟨_, w', .set hx hy hact h1, ?_, ?_⟩
    · exact h2
    · intro e he k' v' hkv
      rcases List.mem_cons.1 he with rfl | he
      · rfl
      · exact h3 e he k' v' hkv
  | .del k :: later, w, f, hi, hf => by
    obtain ⟨x, hx⟩ := hf.1
    obtain ⟨c, w1, hact, hi1⟩ := delEntry_spec hi.weaken hx
    rcases hi1 with ⟨rfl, hi1⟩ | ⟨rfl, hi1⟩
    · obtain ⟨h, w', h1, h2, h3⟩ := run_spec hi1 (hf.2 _ _ hact)
      refine ⟨_, w', .del hx hact h1, h2, fun e he k' v' hkv => ?_⟩
      rcases List.mem_cons.1 he with rfl | he
      · cases hkv
      · exact h3 e he k' v' hkv
    · obtain ⟨h, w', h1, h2, h3⟩ := run_spec hi1 (hf.2 _ _ hact)
      refine ⟨_, w', .del hx hact h1, h2, fun e he k' v' hkv => ?_⟩
      rcases List.mem_cons.1 he with rfl | he
      · cases hkv
      · exact h3 e he k' v' hkv
  | .clear :: later, w, f, hi, hf => by
    obtain ⟨w1, hact, hi1⟩ := clearEntries_spec hi.weaken
    obtain ⟨h, w', h1, h2, h3⟩ := run_spec hi1 (hf.2 _ _ hact)
    refine ⟨_, w', .clear hact h1, h2, fun e he k' v' hkv => ?_⟩
    rcases List.mem_cons.1 he with rfl | he
    · cases hkv
    · exact h3 e he k' v' hkv

/-! ## String parameters -/

theorem keep_spec {w : World} {later : List Act} {f : FMap} (hi : Inv jen little later w f) {c : Cell} {x : Value} (hx : Reads w.heap c.w x)
    {p : Option Ptr} (hc : c.w = .str p) :
    ∃ r w' f', keep jen little w c = .ret none (r, w') ∧ Inv jen little later w' f' ∧ w'.caller = w.caller ∧
      Reads w'.heap r.w x ∧ (∃ o ∈ w'.records, o.key = r) ∧ (∀ o ∈ w.records, o ∈ w'.records) ∧
      (∀ b, b < w.heap.next → w'.heap.blocks b = w.heap.blocks b) := by
  have hsd : ∀ r ∈ w.records, ∃ a b, Sound jen little w.heap r a b := fun r hr => by
    obtain ⟨a, b, h1, -⟩ := hi.sound r hr; exact ⟨a, b, h1⟩
  obtain ⟨cw, tr⟩ := c
  simp only at hc hx
  subst hc
  simp only [keep]
  rcases search_spec hx hsd with ⟨h1, h2⟩ | ⟨r, hr, h1, h2⟩
  · rw [h1]
    have hnew : ∀ texts (k : Cell), Reads (w.heap.alloc texts) k.w x → (∀ q, k.w = .str (some q) → q.block = w.heap.next) →
        Inv jen little later { w with heap := w.heap.alloc texts,
                                      records := w.records ++ [{ block := w.heap.next, hash := hashDatum jen little x, key := k }] }
          (update (update f x none) x (some .none)) := by
      intro texts k hk hq
      have hi' := hi.removeOld (texts := texts) (.inl ⟨rfl, h2⟩)
      refine hi'.add (r := { block := w.heap.next, hash := hashDatum jen little x, key := k }) ⟨hk, .plain (by simp), rfl⟩ (by simp [update])
        (Nat.lt_succ_self _) (fun h => by have := hi.callerLt _ h; simp at this)
        (fun r' hr' h => by have := hi.recordLt r' hr'; simp only at h; omega)
        ⟨fun q hq' => .inl (hq q hq'), fun q hq' => by simp at hq'⟩
    have hold : ∀ texts, ∀ b, b < w.heap.next → (w.heap.alloc texts).blocks b = w.heap.blocks b := fun texts b hb => by
      simp only [Heap.alloc]; rw [if_neg (by omega)]
    cases hx with
    | null =>
      simp only [hashOf_reads (Reads.null (h := w.heap))]
      exact ⟨_, _, _, rfl, hnew [] { w := .str none } .null (by simp), rfl, .null, ⟨_, List.mem_append_right _ (List.mem_singleton.2 rfl), rfl⟩, fun o ho => by simp [ho], hold []⟩
    | @text p texts s h3 h4 =>
      have hread : w.heap.read p = some s := by simp [Heap.read, h3, h4]
      have hrd : Reads (w.heap.alloc [s]) (.str (some ⟨w.heap.next, 0⟩)) (.str (some s)) := .text (texts := [s]) (by simp [Heap.alloc]) rfl
      simp only [hread, hashOf_reads hrd]
      exact ⟨_, _, _, rfl, hnew [s] { w := .str (some ⟨w.heap.next, 0⟩) } hrd (by simp), rfl, hrd, ⟨_, List.mem_append_right _ (List.mem_singleton.2 rfl), rfl⟩, fun o ho => by simp [ho], hold [s]⟩
  · rw [h1]
    exact ⟨r.key, w, f, rfl, hi, rfl, h2, ⟨r, hr, rfl⟩, fun o ho => ho, fun b _ => rfl⟩

/-- Where a value held by a binding lies. -/
def Rooted (w : World) (later : List Act) (c : Cell) : Prop := Lasting w later c ∨ ∃ r ∈ w.records, r.key.w = c.w

theorem rooted_block {w : World} {later : List Act} {f : FMap} (hi : Inv jen little later w f) {c : Cell} (hc : Rooted w later c) {p : Ptr}
    (hp : c.w = .str (some p)) : (∃ r ∈ w.records, p.block = r.block) ∨ (p.block ∈ w.caller ∧ ∀ a ∈ later, ¬ touches p.block a) := by
  rcases hc with h | ⟨r, hr, h⟩
  · exact .inr (h p hp)
  · rcases (hi.anchored r hr).1 p (h.trans hp) with h1 | h1
    · exact .inl ⟨r, hr, h1⟩
    · exact .inr h1

theorem rooted_lt {w : World} {later : List Act} {f : FMap} (hi : Inv jen little later w f) {c : Cell} (hc : Rooted w later c) {p : Ptr}
    (hp : c.w = .str (some p)) : p.block < w.heap.next := by
  rcases rooted_block hi hc hp with ⟨r, hr, h⟩ | ⟨h, -⟩
  · rw [h]; exact hi.recordLt r hr
  · exact hi.callerLt _ h

/-- A parameter and bindings whose values are `vs`. -/
structure BInv (jen : Bytes → BitVec 32) (little : Bool) (later : List Use) (b : Bound) (vs : List Value) : Prop where
  inv : ∃ f, Inv jen little (buffers later) b.world f
  same : b.held.length = vs.length
  held : ∀ (i : Nat) c v, b.held[i]? = some c → vs[i]? = some v → Reads b.world.heap c.w v ∧ Rooted b.world (buffers later) c

theorem BInv.unused (n : Nat) : BInv jen little later (Spec.unused n) (List.replicate n .inactive) := by
  refine ⟨⟨_, Inv.start⟩, by simp [Spec.unused], fun i c v h1 h2 => ?_⟩
  simp only [Spec.unused, List.getElem?_replicate] at h1 h2
  split at h1
  · next h =>
    rw [if_pos h] at h2
    cases h1; cases h2
    exact ⟨.plain (by simp), .inl fun p hp => by simp at hp⟩
  · cases h1

/-- The values stay readable when the parameter stores one more string. -/
theorem BInv.keep {b : Bound} {vs : List Value} {later : List Act} {f : FMap} (hi : Inv jen little later b.world f)
    (hh : ∀ (i : Nat) c v, b.held[i]? = some c → vs[i]? = some v → Reads b.world.heap c.w v ∧ Rooted b.world later c) {w' : World}
    (h1 : w'.caller = b.world.caller) (h2 : ∀ o ∈ b.world.records, o ∈ w'.records)
    (h3 : ∀ x, x < b.world.heap.next → w'.heap.blocks x = b.world.heap.blocks x) :
    ∀ (i : Nat) c v, b.held[i]? = some c → vs[i]? = some v → Reads w'.heap c.w v ∧ Rooted w' later c := by
  intro i c v hc hv
  obtain ⟨hr, hro⟩ := hh i c v hc hv
  refine ⟨reads_agree (fun p hp => h3 _ (rooted_lt hi hro hp)) hr, ?_⟩
  rcases hro with h | ⟨r, hr', h⟩
  · exact .inl fun p hp => ⟨h1 ▸ (h p hp).1, (h p hp).2⟩
  · exact .inr ⟨r, h2 r hr', h⟩

theorem own_spec {w w' : World} {a : Act} {later : List Act} {f : FMap} {c : Option Err} (hi : Inv jen little (a :: later) w f)
    (ha : ownBuffer w a = .ret c w') : Inv jen little later w' f ∧
      (∀ e : Cell, ∀ v, Rooted w (a :: later) e → Reads w.heap e.w v → Reads w'.heap e.w v ∧ Rooted w' later e) := by
  have hmono : ∀ w' : World, w'.records = w.records → (∀ b ∈ w.caller, ¬ touches b a → b ∈ w'.caller) →
      (∀ b, b < w.heap.next → (b ∈ w.caller → ¬ touches b a) → w'.heap.blocks b = w.heap.blocks b) →
      ∀ e : Cell, ∀ v, Rooted w (a :: later) e → Reads w.heap e.w v → Reads w'.heap e.w v ∧ Rooted w' later e := by
    intro w' hrec hca hag e v hro hr
    refine ⟨reads_agree (fun p hp => ?_) hr, ?_⟩
    · rcases rooted_block hi hro hp with ⟨r, hr', h⟩ | ⟨h1, h2⟩
      · rw [h]; exact hag _ (hi.recordLt r hr') fun h => absurd h (hi.apart r hr')
      · exact hag _ (hi.callerLt _ h1) fun _ => h2 a (by simp)
    · rcases hro with h | ⟨r, hr', h⟩
      · exact .inl fun p hp => ⟨hca _ (h p hp).1 ((h p hp).2 a (by simp)), fun a' ha' => (h p hp).2 a' (by simp [ha'])⟩
      · exact .inr ⟨r, hrec ▸ hr', h⟩
  cases a with
  | buffer s =>
    cases ha
    refine ⟨hi.buffer, hmono _ rfl (fun b hb _ => by simp [hb]) fun b hb _ => ?_⟩
    simp only [Heap.alloc]; rw [if_neg (by omega)]
  | rewrite b s =>
    rw [ownBuffer] at ha
    split at ha
    · next hb =>
      cases ha
      refine ⟨hi.rewrite hb, hmono _ rfl (fun b hb _ => hb) fun b' _ hn => ?_⟩
      simp only [Heap.rewrite]
      rw [if_neg]
      rintro rfl
      exact hn hb rfl
    · cases ha
  | free b =>
    rw [ownBuffer] at ha
    split at ha
    · next hb =>
      cases ha
      refine ⟨hi.free hb, hmono _ rfl (fun b' hb' ht => ?_) fun b' _ hn => ?_⟩
      · refine List.mem_filter.2 ⟨hb', ?_⟩
        simp only [decide_eq_true_eq]
        rintro rfl
        exact ht rfl
      · simp only [Heap.free]
        rw [if_neg]
        rintro rfl
        exact hn hb rfl
    · cases ha
  | set k v => cases ha; exact ⟨hi.weaken, hmono _ rfl (fun b hb _ => hb) fun b _ _ => rfl⟩
  | del k => cases ha; exact ⟨hi.weaken, hmono _ rfl (fun b hb _ => hb) fun b _ _ => rfl⟩
  | clear => cases ha; exact ⟨hi.weaken, hmono _ rfl (fun b hb _ => hb) fun b _ _ => rfl⟩

theorem held_set {P : Cell → Value → Prop} {held : List Cell} {vs : List Value} {i : Nat} {c : Cell} {x : Value}
    (hh : ∀ (i : Nat) c v, held[i]? = some c → vs[i]? = some v → P c v) (hp : P c x) :
    ∀ (j : Nat) c' v, (held.set i c)[j]? = some c' → (vs.set i x)[j]? = some v → P c' v := by
  intro j c' v h1 h2
  rw [List.getElem?_set] at h1 h2
  by_cases hij : i = j
  · rw [if_pos hij] at h1 h2
    split at h1
    · split at h2
      · cases h1; cases h2; exact hp
      · cases h2
    · cases h1
  · rw [if_neg hij] at h1 h2
    exact hh j c' v h1 h2

theorem use_run_spec : ∀ {us : List Use} {b : Bound} {vs : List Value}, BInv jen little us b vs → FairUse jen little b us →
    ∃ b' vs', Told jen little b us vs b' vs' ∧ BInv jen little [] b' vs'
  | [], b, vs, hi, _ => ⟨b, vs, .nil, hi⟩
  | .own a :: later, b, vs, ⟨⟨f, hi⟩, hs, hh⟩, hf => by
    obtain ⟨c, w', ha⟩ : ∃ c w', ownBuffer b.world a = .ret c w' := by
      have := hf.1
      cases a with
      | rewrite x s => exact ⟨_, _, by rw [ownBuffer, if_pos (show x ∈ b.world.caller from this)]⟩
      | free x => exact ⟨_, _, by rw [ownBuffer, if_pos (show x ∈ b.world.caller from this)]⟩
      | _ => exact ⟨_, _, rfl⟩
    have hact : use jen little b (.own a) = .ret c { b with world := w' } := by simp only [use, ha]
    obtain ⟨hi', hk⟩ := own_spec hi ha
    obtain ⟨b', vs', h1, h2⟩ := use_run_spec (us := later) (b := { b with world := w' }) (vs := vs) ⟨⟨f, hi'⟩, hs, fun i e v h1 h2 => hk e v (hh i e v h1 h2).2 (hh i e v h1 h2).1⟩
      (hf.2 _ _ hact)
    exact ⟨b', vs', .own hact h1, h2⟩
  | .validate c :: later, b, vs, ⟨⟨f, hi⟩, hs, hh⟩, hf => by
    obtain ⟨x, hx⟩ := hf.1
    cases hc : c.w with
    | plain v =>
      have hact : use jen little b (.validate c) = .ret none b := by simp only [use, keep, hc]
      obtain ⟨b', vs', h1, h2⟩ := use_run_spec (b := b) (vs := vs) (us := later) ⟨⟨f, hi⟩, hs, hh⟩ (hf.2 _ _ hact)
      exact ⟨b', vs', .validate hact h1, h2⟩
    | str p =>
      obtain ⟨r, w', f', hk, hi', h1, -, -, h2, h3⟩ := keep_spec hi hx hc
      have hact : use jen little b (.validate c) = .ret none { b with world := w' } := by simp only [use, hk]
      obtain ⟨b', vs', h4, h5⟩ := use_run_spec (us := later) (b := { b with world := w' }) (vs := vs) ⟨⟨f', hi'⟩, hs, BInv.keep hi hh h1 h2 h3⟩ (hf.2 _ _ hact)
      exact ⟨b', vs', .validate hact h4, h5⟩
  | .put i c :: later, b, vs, ⟨⟨f, hi⟩, hs, hh⟩, hf => by
    obtain ⟨⟨x, hx⟩, hg⟩ := hf.1
    by_cases hlen : b.held.length ≤ i
    · have hact : use jen little b (.put i c) = .ret (some .outOfBounds) b := by simp only [use, if_pos hlen]
      obtain ⟨b', vs', h1, h2⟩ := use_run_spec (b := b) (vs := vs) (us := later) ⟨⟨f, hi⟩, hs, hh⟩ (hf.2 _ _ hact)
      exact ⟨b', vs', .refused hact h1, h2⟩
    · cases ht : c.transient with
      | false =>
        have hact : use jen little b (.put i c) = .ret none { b with held := b.held.set i c } := by
          simp only [use, if_neg hlen, ht]; rfl
        have hro : Rooted b.world (buffers later) c := by
          rcases hg with h | h | h
          · rw [ht] at h; cases h
          · exact .inl h
          · exact .inr h
        obtain ⟨b', vs', h1, h2⟩ := use_run_spec (us := later) (b := { b with held := b.held.set i c }) (vs := vs.set i x)
          ⟨⟨f, hi⟩, by simp [hs], held_set (P := fun c v => Reads b.world.heap c.w v ∧ Rooted b.world (buffers later) c) hh ⟨hx, hro⟩⟩ (hf.2 _ _ hact)
        exact ⟨b', vs', .put hx hact h1, h2⟩
      | true =>
        cases hc : c.w with
        | plain v =>
          have hact : use jen little b (.put i c) = .ret (some .invalidValue) b := by
            simp only [use, if_neg hlen, ht, keep, hc]; rfl
          obtain ⟨b', vs', h1, h2⟩ := use_run_spec (b := b) (vs := vs) (us := later) ⟨⟨f, hi⟩, hs, hh⟩ (hf.2 _ _ hact)
          exact ⟨b', vs', .refused hact h1, h2⟩
        | str p =>
          obtain ⟨r, w', f', hk, hi', h1, hr, ⟨o, ho, hor⟩, h2, h3⟩ := keep_spec hi hx hc
          have hact : use jen little b (.put i c) = .ret none { world := w', held := b.held.set i r } := by
            simp only [use, if_neg hlen, ht, hk, hc]; rfl
          obtain ⟨b', vs', h4, h5⟩ := use_run_spec (us := later) (b := { world := w', held := b.held.set i r }) (vs := vs.set i x)
            ⟨⟨f', hi'⟩, by simp [hs], held_set (P := fun c v => Reads w'.heap c.w v ∧ Rooted w' (buffers later) c)
              (BInv.keep hi hh h1 h2 h3) ⟨hr, .inr ⟨o, ho, by rw [hor]⟩⟩⟩ (hf.2 _ _ hact)
          exact ⟨b', vs', .put hx hact h4, h5⟩

end CCS.Mem
