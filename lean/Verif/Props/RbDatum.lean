/-
C137: values and maps from Ruby.
-/
import Verif.Lemmas.RbDatum

namespace CCS.Props
open CCS CCS.Rb CCS.Rb.Spec

/-- **C137** (partial) A value given to the library from Ruby comes back equal, whatever other objects there are.
Missing: strings that are not ASCII or have a NUL, and identifiers, see `C137_text_differs`, `C137_string_cut`,
`C137_identifier_refused` and `C137_identifier_read`. -/
theorem C137_value_partial {v : Rb.Val} (h : Rb.Spec.Representable v) {r : Refs} (hr : Held r v) :
    ∃ w r', (Rb.toDatum v >>= Rb.fromDatum r) = .ok (w, r') ∧ same w v = true := by
  obtain ⟨d, h1, h2, -⟩ := toDatum_ok h
  obtain ⟨w, r', h3, h4, -⟩ := fromDatum_image (r0 := r) h (fun _ => Nat.le_refl _) hr h2
  exact ⟨w, r', by rw [h1]; exact h3, h4⟩

example : Rb.Spec.Representable (.obj 5#64) ∧ Held (fun o => if o = 5#64 then 1 else 0) (.obj 5#64) ∧
    Rb.Spec.Representable (.str [97#8] false) ∧ same (.str [97#8] false) (.str [97#8] true) = true := by
  exact ⟨show (5#64 : BitVec 64) ≠ 0#64 by decide, Nat.one_pos, ⟨by decide, by decide⟩, by decide⟩

/-- **C137** An integer that the library cannot represent is refused, not changed. -/
theorem C137_integers_refused (i : Int) : (∃ d, Rb.toDatum (.int i) = .ok d) ↔ -2 ^ 63 ≤ i ∧ i < 2 ^ 63 := by
  constructor
  · rintro ⟨d, h⟩
    apply Decidable.byContradiction
    intro hi
    have : Rb.toDatum (.int i) = .err .external := by
      show int64 i >>= _ = _
      rw [int64, if_neg hi]
      rfl
    rw [this] at h
    cases h
  · intro h
    obtain ⟨d, h1, -⟩ := toDatum_ok (v := .int i) h
    exact ⟨d, h1⟩

/-- **C137** The library copies every string that Ruby gives it, whose bytes belong to a buffer that Ruby may free: the value is
flagged as transient (see C135 for what the library does then).  Objects too are given as ones to hold on to. -/
theorem C137_strings_copied {v : Rb.Val} {d : Datum} (h : Rb.toDatum v = .ok d) :
    (∀ s, d.v = .str s → d.transient = true) ∧ (∀ o, d.v = .obj o → d.transient = true) ∧ d.unpooled = false ∧ d.id = false := by
  cases v with
  | int i =>
    have h : (int64 i >>= fun n => Out.ok ({ v := .int n } : Datum)) = .ok d := h
    cases hi : int64 i with
    | ok n => rw [hi] at h; cases h; exact ⟨nofun, nofun, rfl, rfl⟩
    | err e => rw [hi] at h; cases h
    | ub => rw [hi] at h; cases h
  | _ => cases h <;> exact ⟨(by intro s hs; first | rfl | cases hs), (by intro s hs; first | rfl | cases hs), rfl, rfl⟩

example : ∃ d s, Rb.toDatum (.str [65#8, 66#8] false) = .ok d ∧ d.v = .str s := ⟨_, _, rfl, rfl⟩

/-- **C137** fails for text: no UTF-8 string that has a character outside ASCII comes back equal. -/
theorem C137_text_differs {s : Bytes} (h : 0#8 ∉ s) (ha : ¬ Ascii s) (r : Refs) :
    ∃ w, (Rb.toDatum (.str s false) >>= Rb.fromDatum r) = .ok (w, r) ∧ same w (.str s false) = false := by
  refine ⟨.str s true, ?_, ?_⟩
  · show Out.ok (Rb.Val.str (s.takeWhile (· ≠ 0#8)) true, r) = _
    rw [takeWhile_nul h]
  · exact decide_eq_false fun h1 => ha (h1.2.resolve_left nofun)

/-- The bytes of "é". -/
example : (0#8 ∉ [195#8, 169#8]) ∧ ¬ Ascii [195#8, 169#8] := by decide

/-- **C137** fails for strings with a NUL: the rest is lost. -/
theorem C137_string_cut {a : Bytes} (b : Bytes) (h : 0#8 ∉ a) (r : Refs) :
    (Rb.toDatum (.str (a ++ 0#8 :: b) false) >>= Rb.fromDatum r) = .ok (.str a true, r) := by
  show Out.ok (Rb.Val.str ((a ++ 0#8 :: b).takeWhile (· ≠ 0#8)) true, r) = _
  rw [takeWhile_stop h]

/-- **C137** fails for identifiers of objects: none can be given to the library, as a key, as a value or to look it up. -/
theorem C137_identifier_refused (h : BitVec 64) (jen : Bytes → BitVec 32) (little : Bool) (m : MapState) (v : Rb.Val) :
    Rb.toDatum (.ident h) = .err .external ∧ (∀ x, Rb.use jen little m (.set (.ident h) v) ≠ .ok x) ∧
    (∀ x, Rb.use jen little m (.set v (.ident h)) ≠ .ok x) ∧ (∀ x, Rb.use jen little m (.get (.ident h)) ≠ .ok x) ∧
    ∀ x, Rb.use jen little m (.has (.ident h)) ≠ .ok x := by
  have key : Rb.toDatum (.ident h) = .err .external := rfl
  refine ⟨key, fun x => ?_, fun x => ?_, fun x => ?_, fun x => ?_⟩
  · simp only [Rb.use, key]; nofun
  · simp only [Rb.use, key]
    cases Rb.toDatum v <;> nofun
  · simp only [Rb.use, key]; nofun
  · simp only [Rb.use, key]; nofun

/-- **C137** fails for identifiers that the library gives: an identifier is read as the object itself.  If there is no object (any
more) at that address, which is allowed for an identifier, this is undefined; otherwise the program has a reference to the object. -/
theorem C137_identifier_read (h : BitVec 64) (h0 : h ≠ 0#64) (r : Refs) :
    (r h = 0 → Rb.fromDatum r { v := .obj h, id := true } = .ub) ∧
    (0 < r h → ∃ r', Rb.fromDatum r { v := .obj h, id := true } = .ok (.obj h, r') ∧ r' h = r h + 1) := by
  have key : Rb.fromDatum r { v := .obj h, id := true } = fromHandle r h := rfl
  rw [key, fromHandle, if_neg h0, retain, if_neg h0]
  refine ⟨fun h1 => by rw [if_pos h1], fun h1 => ?_⟩
  rw [if_neg (show ¬ r h = 0 by omega)]
  exact ⟨_, rfl, by simp⟩

/-- **C137** fails for identifiers that the library gives: the value `h` of a key in a map that was written and read back, in another
program say, is an identifier, and reading it is undefined. -/
theorem C137_map_read_back (jen : Bytes → BitVec 32) (little : Bool) {h : BitVec 64} (h0 : h ≠ 0#64) {r : Refs} (hr : r h = 0) :
    ∃ m, mapFill jen little ⟨[], r⟩ [({ v := .int 1#64 }, { v := .obj h, id := true })] = .ok m ∧
      Rb.use jen little m (.get (.int 1)) = .ub := by
  refine ⟨⟨[⟨{ v := .int 1#64 }, { v := .obj h, id := true }⟩], r⟩, ?_, ?_⟩
  · simp [mapFill, mapSet, mapFind, mapReplace, checkDatum, mapAppend, storedDatum]
  · have hf : mapGet jen little ⟨[⟨{ v := .int 1#64 }, { v := .obj h, id := true }⟩], r⟩ { v := .int (BitVec.ofInt 64 1) } =
        { v := .obj h, id := true } := by
      have : (BitVec.ofInt 64 1) = 1#64 := by decide
      rw [this, mapGet, mapFind, List.find?_cons_of_pos]
      rw [keyMatch_iff]
    have h1 : Rb.toDatum (.int 1) = .ok { v := .int (BitVec.ofInt 64 1) } := rfl
    simp only [Rb.use, h1]
    show (Rb.fromDatum r (mapGet jen little ⟨[⟨{ v := .int 1#64 }, { v := .obj h, id := true }⟩], r⟩
      { v := .int (BitVec.ofInt 64 1) }) >>= _) = _
    rw [hf, (C137_identifier_read h h0 r).1 hr]
    rfl

section
variable (jen : Bytes → BitVec 32) (little : Bool)

/-- **C137** (partial) A new map is a dictionary for any program that uses `[]=`, `[]`, `include?` and `size` on values it can count
on and objects it holds: no operation fails, and each answer is equal to what a dictionary answers.
Missing: the other values, and the enumeration, see `C137_no_enumeration`. -/
theorem C137_map_partial (r : Refs) (us : List Rb.Use)
    (h : ∀ u ∈ us, ∀ v ∈ Rb.Spec.Use.values u, Rb.Spec.Representable v ∧ Held r v) :
    ∃ m as, Rb.uses jen little ⟨[], r⟩ us = .ok (m, as) ∧ SameAnswers as (Rb.Spec.Dict.answers [] us) :=
  uses_spec ⟨List.nodup_nil, List.Perm.nil, nofun, fun _ _ => Nat.le_refl _⟩ h

end

example : ∀ u ∈ [Rb.Use.set (.int 1) (.obj 5#64), .set (.obj 5#64) (.bool true), .get (.int 1), .size],
    ∀ v ∈ Rb.Spec.Use.values u, Rb.Spec.Representable v ∧ Held (fun o => if o = 5#64 then 1 else 0) v := by
  have h5 : Rb.Spec.Representable (.obj 5#64) := show (5#64 : BitVec 64) ≠ 0#64 by decide
  have h1 : Rb.Spec.Representable (.int 1) := show -2 ^ 63 ≤ (1 : Int) ∧ (1 : Int) < 2 ^ 63 by decide
  intro u hu v hv
  simp only [List.mem_cons, List.not_mem_nil, or_false] at hu
  rcases hu with rfl | rfl | rfl | rfl <;> simp only [Rb.Spec.Use.values, List.mem_cons, List.not_mem_nil, or_false] at hv
  · rcases hv with rfl | rfl
    · exact ⟨h1, trivial⟩
    · exact ⟨h5, Nat.one_pos⟩
  · rcases hv with rfl | rfl
    · exact ⟨h5, Nat.one_pos⟩
    · exact ⟨trivial, trivial⟩
  · rw [hv]; exact ⟨h1, trivial⟩

example : Rb.Spec.Dict.answers [] [.set (.int 1) (.obj 5#64), .set (.obj 5#64) (.bool true), .get (.int 1), .has (.int 2),
      .get (.int 2), .set (.int 1) .nil, .size] =
    [.done, .done, .value (.obj 5#64), .flag false, .value .nil, .done, .count 2] := by decide

/-- **C137** fails for the enumeration: `keys`, `values`, `pairs` and `each` never answer. -/
theorem C137_no_enumeration (m : MapState) (l : List Rb.Val) : Rb.enumerate m ≠ .ok l := nofun

end CCS.Props
