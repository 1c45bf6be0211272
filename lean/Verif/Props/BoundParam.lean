import Verif.Spec.BoundParam
import Verif.Spec.BoundOrder
import Verif.Props.BoundEval
import Verif.Props.BoundInterval
import Verif.Props.Param
import Verif.Props.PyDatum

/-!
# C155: parameters from Python and Ruby
-/

namespace CCS.Props.BoundParam

open CCS CCS.Props.BoundInterval CCS.BoundParam CCS.BoundParam.Spec CCS.BoundInterval CCS.BoundInterval.Spec CCS.BoundTree CCS.BoundTree.Spec CCS.BoundOrder.Spec CCS.Spec

/-! ## Names -/

section names
variable (simple : Bytes → Bool) (quote : Bytes → Bytes)

theorem takeWhile_free {s : Bytes} (h : 0#8 ∉ s) : s.takeWhile (fun c => decide (c ≠ 0#8)) = s := by
  induction s with
  | nil => rfl
  | cons c s ih =>
    rw [List.takeWhile_cons_of_pos (by simp; intro h'; exact h (h' ▸ List.mem_cons_self)), ih (fun h' => h (List.mem_cons_of_mem _ h'))]

theorem uncolon_none : ∀ {s : Bytes} {b : Bool}, (b = true → ∀ r, s ≠ 58#8 :: r) → (∀ before after, s ≠ before ++ 10#8 :: 58#8 :: after) →
    uncolon b s = none
  | [], _, _, _ => rfl
  | c :: s, b, h1, h2 => by
    unfold uncolon
    rw [if_neg (fun h => h1 h.1 s (by rw [h.2])), uncolon_none (b := decide (c = 10#8))]
    · rfl
    · intro hc r hr
      exact h2 [] r (by rw [of_decide_eq_true hc, hr]; rfl)
    · intro bf af h
      exact h2 (c :: bf) af (by rw [h]; rfl)

theorem uncolon_some : ∀ {s : Bytes} {b : Bool}, ((b = true ∧ ∃ r, s = 58#8 :: r) ∨ ∃ before after, s = before ++ 10#8 :: 58#8 :: after) →
    ∃ r, uncolon b s = some r ∧ s.length = r.length + 1
  | [], _, h => by
    rcases h with ⟨-, r, hr⟩ | ⟨bf, af, h⟩
    · cases hr
    · cases bf <;> cases h
  | c :: s, b, h => by
    unfold uncolon
    split
    · exact ⟨s, rfl, rfl⟩
    · rename_i hn
      have : ∃ r, uncolon (decide (c = 10#8)) s = some r ∧ s.length = r.length + 1 := by
        refine uncolon_some ?_
        rcases h with ⟨hb, r, hr⟩ | ⟨bf, af, h⟩
        · cases hr; exact absurd ⟨hb, rfl⟩ hn
        · cases bf with
          | nil => cases h; exact .inl ⟨by decide, _, rfl⟩
          | cons x bf => cases h; exact .inr ⟨bf, af, rfl⟩
      obtain ⟨r, h1, h2⟩ := this
      exact ⟨c :: r, by rw [h1]; rfl, by simp [h2]⟩

theorem colonLine_iff (s : Bytes) : ColonLine s ↔ (∃ r, s = 58#8 :: r) ∨ ∃ before after, s = before ++ 10#8 :: 58#8 :: after := by
  constructor
  · rintro ⟨bf, af, h, rfl | ⟨more, rfl⟩⟩
    · exact .inl ⟨af, h⟩
    · exact .inr ⟨more, af, by rw [h]; simp⟩
  · rintro (⟨r, h⟩ | ⟨bf, af, h⟩)
    · exact ⟨[], r, h, .inl rfl⟩
    · exact ⟨bf ++ [10#8], af, by rw [h]; simp, .inr ⟨bf, rfl⟩⟩

theorem madeAs_name {lang : Lang} {nm : Name} {p : Param} (h : MadeAs simple quote lang nm p) :
    nameGiven simple quote lang nm = .ok p.name := by
  cases h with
  | number h =>
    unfold createNumber at h
    obtain ⟨bytes, h1, h⟩ := bind_eq_ok h
    obtain ⟨_, -, h⟩ := bind_eq_ok h
    obtain ⟨_, -, h⟩ := bind_eq_ok h
    obtain ⟨_, -, h⟩ := bind_eq_ok h
    obtain ⟨_, -, h⟩ := bind_eq_ok h
    rw [h1, createNumerical_ok h]
  | listed ht h =>
    subst ht
    unfold createListed at h
    split at h
    · cases h
    obtain ⟨bytes, h1, h⟩ := bind_eq_ok h
    obtain ⟨_, -, h⟩ := bind_eq_ok h
    obtain ⟨_, -, h⟩ := bind_eq_ok h
    rw [h1, (C33_created_is_the_set _ _ _ _ _ _ _ h).1]
  | text h =>
    unfold createText at h
    obtain ⟨bytes, h1, h⟩ := bind_eq_ok h
    cases Out.ok.inj h
    exact h1

/-- **C155** (partial) In Python a parameter has the name it was created with.
Missing: names with a NUL (`C155_python_nul`). -/
theorem C155_python_name_partial {s : Bytes} {b : Bool} (h : 0#8 ∉ s) {p : Param} (hp : MadeAs simple quote .python (.text s b) p) :
    name .python p = .text s false := by
  have := madeAs_name simple quote hp
  show Name.text p.name false = _
  rw [← Out.ok.inj this, takeWhile_free h]

/-- **C155** (violation) In Python a name ends before its first NUL: what is read back is another name. -/
theorem C155_python_nul {s : Bytes} {b : Bool} (h : 0#8 ∈ s) {p : Param} (hp : MadeAs simple quote .python (.text s b) p) :
    ∃ r, name .python p = .text r false ∧ r ≠ s ∧ 0#8 ∉ r := by
  have := madeAs_name simple quote hp
  have hn : 0#8 ∉ s.takeWhile (fun c => decide (c ≠ 0#8)) := fun hm => by
    have : ∀ l : Bytes, 0#8 ∉ l.takeWhile (fun c => decide (c ≠ 0#8)) := by
      intro l
      induction l with
      | nil => exact List.not_mem_nil
      | cons c l ih =>
        by_cases hc : c = 0#8
        · rw [List.takeWhile_cons_of_neg (by simp [hc])]; exact List.not_mem_nil
        · rw [List.takeWhile_cons_of_pos (by simp [hc])]
          intro h
          rcases List.mem_cons.1 h with h | h
          · exact hc h.symm
          · exact ih h
    exact this s hm
  refine ⟨p.name, rfl, fun he => ?_, ?_⟩
  · rw [← Out.ok.inj this] at he
    rw [he] at hn
    exact hn h
  · rw [← Out.ok.inj this]; exact hn

example : ∃ p, MadeAs simple quote .python (.text [97#8, 0#8, 98#8] false) p := ⟨_, .text rfl⟩

/-- **C155** (partial) In Ruby a parameter has the name it was created with, string or symbol.
Missing: the other names (`C155_ruby_colon`, `C155_ruby_quoted`, `C155_ruby_binary`). -/
theorem C155_ruby_name_partial {nm : Name} (h : Nameable simple nm) {p : Param} (hp : MadeAs simple quote .ruby nm p) :
    Alike (name .ruby p) nm := by
  have hb := madeAs_name simple quote hp
  cases nm with
  | text s b =>
    obtain ⟨h0, ha, hc⟩ := h
    have hb : p.name = s := by
      rw [show nameGiven simple quote .ruby (.text s b) = Rb.cText s from rfl, Rb.cText, if_neg h0] at hb
      exact (Out.ok.inj hb).symm
    have hu : uncolon true p.name = none := by
      rw [hb]
      rw [colonLine_iff] at hc
      exact uncolon_none (fun _ r hr => hc (.inl ⟨r, hr⟩)) (fun bf af h => hc (.inr ⟨bf, af, h⟩))
    have : name .ruby p = .text s true := by unfold name; simp only [hu]; rw [hb]
    rw [this]
    exact ⟨rfl, .inr ha⟩
  | symbol s b =>
    obtain ⟨h0, ha, hs⟩ := h
    have hb : p.name = 58#8 :: s := by
      rw [show nameGiven simple quote .ruby (.symbol s b) = Rb.cText (inspect simple quote s) from rfl, inspect, if_pos hs, Rb.cText,
        if_neg (by intro hm; rcases List.mem_cons.1 hm with h | h; exact absurd h (by decide); exact h0 h)] at hb
      exact (Out.ok.inj hb).symm
    have hu : uncolon true p.name = some s := by
      rw [hb, uncolon, if_pos ⟨rfl, rfl⟩]
    unfold name
    simp only [hu]
    exact ⟨rfl, .inr ha⟩

/-- Names of both kinds. -/
example : Nameable simple (.text [97#8, 58#8] false) ∧ MadeAs simple quote .ruby (.text [97#8, 58#8] false) (createString [97#8, 58#8]) ∧
    (simple [97#8] = true → Nameable simple (.symbol [97#8] false) ∧
      MadeAs simple quote .ruby (.symbol [97#8] false) (createString [58#8, 97#8])) := by
  refine ⟨⟨by decide, by decide, fun h => ?_⟩, .text rfl, fun h => ⟨⟨by decide, by decide, h⟩, .text ?_⟩⟩
  · rw [colonLine_iff] at h
    rcases h with ⟨r, h⟩ | ⟨bf, af, h⟩
    · cases h
    · have := congrArg (fun l => decide (10#8 ∈ l)) h
      simp at this
  · simp [createText, nameGiven, inspect, h, Rb.cText]

/-- **C155** (violation) In Ruby, the name of a parameter created with a string that has a line that begins with a colon is read as a symbol. -/
theorem C155_ruby_colon {s : Bytes} {b : Bool} (h : ColonLine s) {p : Param} (hp : MadeAs simple quote .ruby (.text s b) p) :
    (∃ r, name .ruby p = .symbol r true) ∧ ¬ Alike (name .ruby p) (.text s b) := by
  have hb := madeAs_name simple quote hp
  have hb : p.name = s := by
    rw [show nameGiven simple quote .ruby (.text s b) = Rb.cText s from rfl, Rb.cText] at hb
    split at hb
    · cases hb
    · exact (Out.ok.inj hb).symm
  rw [colonLine_iff] at h
  obtain ⟨r, hr, -⟩ := uncolon_some (s := p.name) (b := true) (by rw [hb]; exact h.imp (fun h => ⟨rfl, h⟩) id)
  have : name .ruby p = .symbol r true := by unfold name; simp only [hr]
  exact ⟨⟨r, this⟩, by rw [this]; exact id⟩

/-- `"a\n:b"`, whose second line begins with a colon. -/
example : ColonLine [97#8, 10#8, 58#8, 98#8] ∧ MadeAs simple quote .ruby (.text [97#8, 10#8, 58#8, 98#8] false) (createString [97#8, 10#8, 58#8, 98#8]) ∧
    name .ruby (createString [97#8, 10#8, 58#8, 98#8]) = .symbol [97#8, 10#8, 98#8] true :=
  ⟨⟨[97#8, 10#8], [98#8], rfl, .inr ⟨[97#8], rfl⟩⟩, .text rfl, rfl⟩

/-- **C155** (violation) In Ruby, the name of a parameter created with a symbol that is written with quotes is read as another symbol, that has the
quotes. -/
theorem C155_ruby_quoted {s : Bytes} {b : Bool} (hs : simple s = false) (hq : s.length ≤ (quote s).length) {p : Param}
    (hp : MadeAs simple quote .ruby (.symbol s b) p) :
    name .ruby p = .symbol (34#8 :: (quote s ++ [34#8])) true ∧ ¬ Alike (name .ruby p) (.symbol s b) := by
  have hb := madeAs_name simple quote hp
  have hb : p.name = 58#8 :: 34#8 :: (quote s ++ [34#8]) := by
    rw [show nameGiven simple quote .ruby (.symbol s b) = Rb.cText (inspect simple quote s) from rfl, inspect, if_neg (by rw [hs]; decide), Rb.cText] at hb
    split at hb
    · cases hb
    · exact (Out.ok.inj hb).symm
  have : name .ruby p = .symbol (34#8 :: (quote s ++ [34#8])) true := by
    unfold name
    rw [hb, uncolon, if_pos ⟨rfl, rfl⟩]
  refine ⟨this, ?_⟩
  rw [this]
  rintro ⟨he, -⟩
  have := congrArg List.length he
  simp at this
  omega

/-- `:"a b"`. -/
example : ∃ p, MadeAs (fun s => !s.contains 32#8) id .ruby (.symbol [97#8, 32#8, 98#8] false) p ∧
    name .ruby p = .symbol [34#8, 97#8, 32#8, 98#8, 34#8] true := ⟨_, .text rfl, rfl⟩

/-- **C155** (violation) In Ruby, the name of a parameter created with a string in UTF-8 that is not ASCII is read as a string that is not equal to it. -/
theorem C155_ruby_binary {s : Bytes} (h : ¬ Rb.Spec.Ascii s) {p : Param} (hp : MadeAs simple quote .ruby (.text s false) p) :
    ¬ Alike (name .ruby p) (.text s false) := by
  by_cases hc : ColonLine s
  · exact (C155_ruby_colon simple quote hc hp).2
  have hb := madeAs_name simple quote hp
  have hb : p.name = s := by
    rw [show nameGiven simple quote .ruby (.text s false) = Rb.cText s from rfl, Rb.cText] at hb
    split at hb
    · cases hb
    · exact (Out.ok.inj hb).symm
  have hu : uncolon true p.name = none := by
    rw [hb]
    rw [colonLine_iff] at hc
    exact uncolon_none (fun _ r hr => hc (.inl ⟨r, hr⟩)) (fun bf af h => hc (.inr ⟨bf, af, h⟩))
  have : name .ruby p = .text s true := by unfold name; simp only [hu]; rw [hb]
  rw [this]
  rintro ⟨-, h' | h'⟩
  · cases h'
  · exact h h'

/-- "é". -/
example : ¬ Rb.Spec.Ascii [195#8, 169#8] ∧ MadeAs simple quote .ruby (.text [195#8, 169#8] false) (createString [195#8, 169#8]) :=
  ⟨by decide, .text rfl⟩

/-! ### Names given by default -/

/-- The number a decimal text stands for. -/
def numberIn (s : Bytes) : Nat := s.foldl (fun a c => 10 * a + (c.toNat - 48)) 0

theorem numberIn_snoc (s : Bytes) (c : Byte) : numberIn (s ++ [c]) = 10 * numberIn s + (c.toNat - 48) := by
  simp [numberIn]

theorem digit_toNat {k : Nat} (h : k < 10) : (BitVec.ofNat 8 (48 + k)).toNat - 48 = k := by
  rw [BitVec.toNat_ofNat]; omega

theorem numberIn_decimal (n : Nat) : numberIn (decimal n) = n := by
  induction n using Nat.strongRecOn with
  | ind n ih =>
    unfold decimal
    split
    · rename_i h
      show 10 * 0 + _ = n
      rw [digit_toNat h]; omega
    · rename_i h
      rw [numberIn_snoc, ih (n / 10) (by omega), digit_toNat (by omega)]
      omega

theorem numberIn_zeros (k : Nat) (s : Bytes) : numberIn (List.replicate k 48#8 ++ s) = numberIn s := by
  induction k with
  | zero => rfl
  | succ k ih =>
    rw [List.replicate_succ, List.cons_append]
    show List.foldl _ (10 * 0 + ((48#8).toNat - 48)) _ = _
    exact ih

theorem defaultName_inj {m n : Nat} (h : defaultName m = defaultName n) : m = n := by
  unfold defaultName at h
  injection h with h
  have h := List.append_cancel_left h
  have := congrArg numberIn h
  rwa [numberIn_zeros, numberIn_zeros, numberIn_decimal, numberIn_decimal] at this

theorem namesFrom_ge : ∀ (k c : Nat) (nm : Name), nm ∈ namesFrom c k → ∃ i, c ≤ i ∧ nm = defaultName i
  | 0, _, _, h => by cases h
  | k + 1, c, nm, h => by
    rcases List.mem_cons.1 h with rfl | h
    · exact ⟨c, Nat.le_refl _, rfl⟩
    · obtain ⟨i, h1, h2⟩ := namesFrom_ge k (c + 1) nm h
      exact ⟨i, by omega, h2⟩

/-- **C155** The names given to parameters created without one are all different, however many there are. -/
theorem C155_default_names_differ : ∀ (k c : Nat), (namesFrom c k).Nodup
  | 0, _ => List.nodup_nil
  | k + 1, c => by
    refine List.nodup_cons.2 ⟨fun h => ?_, C155_default_names_differ k (c + 1)⟩
    obtain ⟨i, h1, h2⟩ := namesFrom_ge k (c + 1) _ h
    have := defaultName_inj h2
    omega

/-- **C155** These names come back in both languages. -/
theorem C155_default_name_back (id : Nat) {p : Param} :
    (MadeAs simple quote .python (defaultName id) p → name .python p = defaultName id) ∧
    (MadeAs simple quote .ruby (defaultName id) p → Alike (name .ruby p) (defaultName id)) := by
  have hd : ∀ n : Nat, ∀ c ∈ decimal n, 48 ≤ c.toNat ∧ c.toNat < 58 := by
    intro n
    induction n using Nat.strongRecOn with
    | ind n ih =>
      intro c hc
      unfold decimal at hc
      split at hc
      · rename_i h
        rw [List.mem_singleton.1 hc, BitVec.toNat_ofNat]; omega
      · rcases List.mem_append.1 hc with h | h
        · exact ih (n / 10) (by omega) c h
        · rw [List.mem_singleton.1 h, BitVec.toNat_ofNat]; omega
  have hall : ∀ c ∈ [112#8, 97#8, 114#8, 97#8, 109#8] ++ (List.replicate (3 - (decimal id).length) 48#8 ++ decimal id),
      c ≠ 0#8 ∧ c.toNat < 128 ∧ c ≠ 58#8 := by
    intro c hc
    rcases List.mem_append.1 hc with h | h
    · simp at h; rcases h with rfl | rfl | rfl | rfl | rfl <;> decide
    · rcases List.mem_append.1 h with h | h
      · rw [List.eq_of_mem_replicate h]; decide
      · have := hd id c h
        refine ⟨?_, by omega, ?_⟩ <;> rintro rfl <;> revert this <;> decide
  constructor
  · intro h
    exact C155_python_name_partial simple quote (fun h0 => (hall _ h0).1 rfl) h
  · intro h
    refine C155_ruby_name_partial simple quote (nm := defaultName id) ⟨fun h0 => (hall _ h0).1 rfl, fun c hc => (hall c hc).2.1, ?_⟩ h
    rintro ⟨bf, af, he, -⟩
    exact (hall 58#8 (he ▸ by simp)).2.2 rfl

example : namesFrom 9 2 = [.text [112#8, 97#8, 114#8, 97#8, 109#8, 48#8, 48#8, 57#8] false, .text [112#8, 97#8, 114#8, 97#8, 109#8, 48#8, 49#8, 48#8] false] := by
  decide +kernel

end names

/-! ## Values -/

/-- **C155** The values that both languages can count on: what a tree can hold (C152), that is `None`, Booleans, integers of 64 bits, doubles and
strings without NUL (in Ruby, ASCII). -/
theorem C155_understood :
    Understood python Labels NumberPy valuePy (· = ·) ∧ Understood ruby LabelsRb NumberRb valueRb (fun a b => Rb.Spec.same a b = true) := by
  have hread : ∀ i : Int, -2 ^ 63 ≤ i ∧ i < 2 ^ 63 → (BitVec.ofInt 64 i).toInt = i := fun i h => by
    rw [BitVec.toInt_ofInt]; exact Int.bmod_eq_of_le (by have := h.1; omega) (by have := h.2; omega)
  have hofInt : ∀ x : BitVec 64, BitVec.ofInt 64 x.toInt = x := fun x => BitVec.ofInt_toInt
  have hrange : ∀ x : BitVec 64, -2 ^ 63 ≤ x.toInt ∧ x.toInt < 2 ^ 63 := fun x => ⟨BitVec.le_toInt x, BitVec.toInt_lt (x := x)⟩
  have hpy : ∀ v, Labels v → ∃ d, python.give v = .ok d ∧ Label d.v ∧ ∃ w, python.take { v := d.v } = .ok w ∧ Labels w ∧ w = v := by
    rintro v ⟨hr, hi⟩
    cases v with
    | inactive => exact absurd rfl hi
    | other => exact (show False from hr).elim
    | none => exact ⟨_, rfl, ⟨by decide, nofun⟩, _, rfl, ⟨trivial, nofun⟩, rfl⟩
    | bool b =>
      refine ⟨_, rfl, ⟨by simp [Value.tag], nofun⟩, _, rfl, ⟨trivial, nofun⟩, ?_⟩
      cases b <;> rfl
    | int i =>
      refine ⟨_, rfl, ⟨by simp [Value.tag], nofun⟩, _, rfl, ?_⟩
      rw [hread i hr]
      exact ⟨⟨hr, nofun⟩, rfl⟩
    | float f => exact ⟨_, rfl, ⟨by simp [Value.tag], nofun⟩, _, rfl, ⟨trivial, nofun⟩, rfl⟩
    | str s =>
      refine ⟨_, rfl, ⟨by simp [Value.tag], nofun⟩, _, rfl, ?_⟩
      rw [takeWhile_free hr]
      exact ⟨⟨hr, nofun⟩, rfl⟩
  have hrb : ∀ v, LabelsRb v → ∃ d, ruby.give v = .ok d ∧ Label d.v ∧ ∃ w, ruby.take { v := d.v } = .ok w ∧ LabelsRb w ∧ Rb.Spec.same w v = true := by
    rintro v ⟨hr, hi, ho⟩
    cases v with
    | inactive => exact absurd rfl hi
    | obj h => exact absurd rfl (ho h)
    | ident h => exact (show False from hr).elim
    | other => exact (show False from hr).elim
    | nil => exact ⟨{ v := .none }, rfl, ⟨by decide, nofun⟩, .nil, rfl, ⟨trivial, nofun, nofun⟩, by decide⟩
    | bool b => exact ⟨{ v := .bool (if b then 1#64 else 0#64) }, rfl, ⟨by simp [Value.tag], nofun⟩,
        .bool ((if b then 1#64 else 0#64) != 0#64), rfl, ⟨trivial, nofun, nofun⟩, by cases b <;> decide +kernel⟩
    | int i =>
      refine ⟨{ v := .int (BitVec.ofInt 64 i) }, ?_, ⟨by simp [Value.tag], nofun⟩, .int i, ?_, ⟨hr, nofun, nofun⟩, by simp [Rb.Spec.same]⟩
      · show (Rb.int64 i >>= fun n => Out.ok ({ v := .int n } : Datum)) = _
        rw [Rb.int64, if_pos (show -2 ^ 63 ≤ i ∧ i < 2 ^ 63 from hr), Out.bind_ok]
      · show Out.ok (Rb.Val.int (BitVec.ofInt 64 i).toInt) = _
        rw [hread i hr]
    | float x => exact ⟨_, rfl, ⟨by simp [Value.tag], nofun⟩, _, rfl, ⟨trivial, nofun, nofun⟩, by simp [Rb.Spec.same]⟩
    | str s b =>
      refine ⟨_, rfl, ⟨by simp [Value.tag, Rb.withBits], nofun⟩, _, rfl, ?_⟩
      rw [takeWhile_free hr.1]
      exact ⟨⟨⟨hr.1, hr.2⟩, nofun, nofun⟩, decide_eq_true (show s = s ∧ _ from ⟨rfl, .inr hr.2⟩)⟩
  refine ⟨⟨hpy, fun v w d e hv hw hd he => ?_, fun v d hv hd => ?_, fun ty x => ?_⟩,
    ⟨hrb, fun v w d e hv hw hd he => ?_, fun v d hv hd => ?_, fun ty x => ?_⟩⟩
  · obtain ⟨d', h1, -, v', h2, -, rfl⟩ := hpy v hv
    obtain ⟨e', h3, -, w', h4, -, rfl⟩ := hpy w hw
    rw [h1] at hd; rw [h3] at he
    cases Out.ok.inj hd; cases Out.ok.inj he
    constructor
    · intro h; rw [h, h4] at h2; exact (Out.ok.inj h2).symm
    · rintro rfl; rw [h1] at h3; rw [Out.ok.inj h3]
  · cases v with
    | inactive => exact absurd rfl hv.2
    | other => exact (show False from hv.1).elim
    | int i => cases Out.ok.inj hd; exact ⟨fun _ => ⟨.int, _, rfl⟩, fun _ => trivial⟩
    | float f => cases Out.ok.inj hd; exact ⟨fun _ => ⟨.float, _, rfl⟩, fun _ => trivial⟩
    | _ => cases Out.ok.inj hd; exact ⟨(nomatch ·), fun ⟨ty, x, h⟩ => by cases ty <;> cases h⟩
  · cases ty with
    | int => exact ⟨rfl, ⟨hrange x, nofun⟩, _, rfl, congrArg Value.int (hofInt x)⟩
    | float => exact ⟨rfl, ⟨trivial, nofun⟩, _, rfl, rfl⟩
  · have hval : ∀ {v d}, LabelsRb v → ruby.give v = .ok d → d.v = Rb.Spec.asValue v := by
      intro v d hv hd
      cases v with
      | inactive => exact absurd rfl hv.2.1
      | obj h => exact absurd rfl (hv.2.2 h)
      | ident h => exact (show False from hv.1).elim
      | other => exact (show False from hv.1).elim
      | int i =>
        obtain ⟨n, h, h'⟩ := bind_eq_ok (show (Rb.int64 i >>= fun n => Out.ok ({ v := .int n } : Datum)) = .ok d from hd)
        cases Out.ok.inj h'
        rw [Rb.int64, if_pos (show -2 ^ 63 ≤ i ∧ i < 2 ^ 63 from hv.1)] at h
        rw [← Out.ok.inj h]; rfl
      | str s b =>
        cases Out.ok.inj hd
        show Value.str (some (s.takeWhile _)) = _
        rw [takeWhile_free hv.1.1]; rfl
      | _ => cases Out.ok.inj hd; rfl
    rw [hval hv hd, hval hw he]
    cases v with
    | inactive => exact absurd rfl hv.2.1
    | obj h => exact absurd rfl (hv.2.2 h)
    | ident h => exact (show False from hv.1).elim
    | other => exact (show False from hv.1).elim
    | nil =>
      cases w with
      | inactive => exact absurd rfl hw.2.1
      | obj h => exact absurd rfl (hw.2.2 h)
      | ident h => exact (show False from hw.1).elim
      | other => exact (show False from hw.1).elim
      | nil => exact ⟨fun _ => by decide, fun _ => rfl⟩
      | _ => exact ⟨(nomatch ·), fun h => by simp [Rb.Spec.same] at h⟩
    | bool b =>
      cases w with
      | inactive => exact absurd rfl hw.2.1
      | obj h => exact absurd rfl (hw.2.2 h)
      | ident h => exact (show False from hw.1).elim
      | other => exact (show False from hw.1).elim
      | bool b' => cases b <;> cases b' <;> decide +kernel
      | _ => exact ⟨(nomatch ·), fun h => by simp [Rb.Spec.same] at h⟩
    | int i =>
      cases w with
      | inactive => exact absurd rfl hw.2.1
      | obj h => exact absurd rfl (hw.2.2 h)
      | ident h => exact (show False from hw.1).elim
      | other => exact (show False from hw.1).elim
      | int i' =>
        refine ⟨fun h => decide_eq_true ?_, fun h => by cases of_decide_eq_true (show decide (Rb.Val.int i = .int i') = true from h); rfl⟩
        injection (show Value.int (BitVec.ofInt 64 i) = Value.int (BitVec.ofInt 64 i') from h) with h
        rw [← hread i hv.1, h, hread i' hw.1]
      | _ => exact ⟨(nomatch ·), fun h => by simp [Rb.Spec.same] at h⟩
    | float x =>
      cases w with
      | inactive => exact absurd rfl hw.2.1
      | obj h => exact absurd rfl (hw.2.2 h)
      | ident h => exact (show False from hw.1).elim
      | other => exact (show False from hw.1).elim
      | float x' =>
        refine ⟨fun h => decide_eq_true ?_, fun h => by cases of_decide_eq_true (show decide (Rb.Val.float x = .float x') = true from h); rfl⟩
        injection (show Value.float x = Value.float x' from h) with h
        rw [h]
      | _ => exact ⟨(nomatch ·), fun h => by simp [Rb.Spec.same] at h⟩
    | str s b =>
      cases w with
      | inactive => exact absurd rfl hw.2.1
      | obj h => exact absurd rfl (hw.2.2 h)
      | ident h => exact (show False from hw.1).elim
      | other => exact (show False from hw.1).elim
      | str s' b' =>
        refine ⟨fun h => decide_eq_true ?_, fun h => by rw [show Rb.Spec.asValue (.str s b) = .str (some s) from rfl, (of_decide_eq_true (show decide (s = s' ∧ (b = b' ∨ Rb.Spec.Ascii s)) = true from h)).1]; rfl⟩
        injection (show Value.str (some s) = Value.str (some s') from h) with h
        injection h with h
        exact ⟨h, .inr hv.1.2⟩
      | _ => exact ⟨(nomatch ·), fun h => by simp [Rb.Spec.same] at h⟩
  · cases v with
    | inactive => exact absurd rfl hv.2.1
    | obj h => exact absurd rfl (hv.2.2 h)
    | ident h => exact (show False from hv.1).elim
    | other => exact (show False from hv.1).elim
    | int i =>
      obtain ⟨n, -, h⟩ := bind_eq_ok (show (Rb.int64 i >>= fun n => Out.ok ({ v := .int n } : Datum)) = .ok d from hd)
      cases Out.ok.inj h; exact ⟨fun _ => ⟨.int, _, rfl⟩, fun _ => trivial⟩
    | float f => cases Out.ok.inj hd; exact ⟨fun _ => ⟨.float, _, rfl⟩, fun _ => trivial⟩
    | _ => cases Out.ok.inj hd; exact ⟨(nomatch ·), fun ⟨ty, x, h⟩ => by cases ty <;> cases h⟩
  · cases ty with
    | int =>
      refine ⟨rfl, ⟨hrange x, nofun, nofun⟩, { v := .int (BitVec.ofInt 64 x.toInt) }, ?_, congrArg Value.int (hofInt x)⟩
      show (Rb.int64 x.toInt >>= fun n => Out.ok ({ v := .int n } : Datum)) = _
      rw [Rb.int64, if_pos (hrange x), Out.bind_ok]
    | float => exact ⟨rfl, ⟨trivial, nofun, nofun⟩, _, rfl, rfl⟩

/-! ## Numerical parameters -/

section numbers
variable (simple : Bytes → Bool) (quote : Bytes → Bytes) {lang : Lang} {ops : FloatOps} {toDouble : Int → Out F64}

theorem createNumber_ok {ty : NumType} {nm : Name} {l u q d : Option Number} {p : Param}
    (h : createNumber simple quote lang ops toDouble ty nm l u q d = .ok p) :
    ∃ xl xu xq xd, lang.numeric toDouble ty (l.getD (defaultLower ty)) = .ok xl ∧ lang.numeric toDouble ty (u.getD (defaultUpper ty)) = .ok xu ∧
      lang.numeric toDouble ty (q.getD (defaultLower ty)) = .ok xq ∧ lang.numeric toDouble ty (d.getD (l.getD (defaultLower ty))) = .ok xd ∧
      createNumerical ops p.name ty xl xu xq xd = .ok p ∧ p.kind = .numerical ⟨ty, xl, xu, 1#32, 0#32⟩ xq ∧ p.default = stored ty xd := by
  unfold createNumber at h
  obtain ⟨bytes, -, h⟩ := bind_eq_ok h
  obtain ⟨xl, h1, h⟩ := bind_eq_ok h
  obtain ⟨xu, h2, h⟩ := bind_eq_ok h
  obtain ⟨xq, h3, h⟩ := bind_eq_ok h
  obtain ⟨xd, h4, h⟩ := bind_eq_ok h
  have hp := createNumerical_ok h
  refine ⟨xl, xu, xq, xd, h1, h2, h3, h4, ?_, ?_, ?_⟩
  · rw [show p.name = bytes by rw [hp]]; exact h
  · rw [hp]
  · rw [hp]; cases ty <;> rfl

theorem numeric_read {ty : NumType} {n : Number} (hf : Fits ty n) {x : BitVec 64} (h : lang.numeric toDouble ty n = .ok x) : read ty x = n := by
  obtain ⟨y, h1, h2⟩ := numeric_fits lang toDouble hf
  rw [h1] at h
  rw [← Out.ok.inj h]; exact h2

/-- **C155** (partial) A numerical parameter created with numbers of its type that 64 bits hold has the bounds, the quantization and the default value
it was created with.
Missing: larger integers from Python (`C155_python_wraps`). -/
theorem C155_number_back_partial {α : Type} {t : Tongue α} {usual numeric : α → Prop} {num : Number → α} {same : α → α → Prop}
    (ht : Understood t usual numeric num same) {ty : NumType} {nm : Name} {l u q d : Number} (hl : Fits ty l) (hu : Fits ty u) (hq : Fits ty q)
    (hd : Fits ty d) {p : Param} (h : createNumber simple quote t.lang ops toDouble ty nm (some l) (some u) (some q) (some d) = .ok p) :
    lowerOf p = .ok l ∧ upperOf p = .ok u ∧ quantizationOf p = .ok q ∧ defaultValue t p = .ok (num d) := by
  obtain ⟨xl, xu, xq, xd, h1, h2, h3, h4, -, hk, hdef⟩ := createNumber_ok simple quote h
  refine ⟨?_, ?_, ?_, ?_⟩
  · unfold lowerOf; rw [hk]; exact congrArg Out.ok (numeric_read hl h1)
  · unfold upperOf; rw [hk]; exact congrArg Out.ok (numeric_read hu h2)
  · unfold quantizationOf; rw [hk]; exact congrArg Out.ok (numeric_read hq h3)
  · unfold defaultValue; rw [hdef, (ht.num ty xd).1, numeric_read hd h4]

/-- **C155** (partial) An integer parameter whose bounds are less than 2^63 apart can be created exactly when the lower bound is below the upper one, the
quantization is between 0 and their difference, and the default value is at least the lower bound and below the upper bound; otherwise the call raises
INVALID_VALUE.
Missing: bounds further apart, where the behaviour is undefined (C32). -/
theorem C155_int_created_partial {nm : Name} {bytes : Bytes} (hn : nameGiven simple quote lang nm = .ok bytes) {l u q d : Int}
    (hl : Fits .int (.int l)) (hu : Fits .int (.int u)) (hq : Fits .int (.int q)) (hd : Fits .int (.int d)) (hw : u - l < 2 ^ 63) :
    ((∃ p, createNumber simple quote lang ops toDouble .int nm (some (.int l)) (some (.int u)) (some (.int q)) (some (.int d)) = .ok p) ↔
      l < u ∧ 0 ≤ q ∧ q ≤ u - l ∧ l ≤ d ∧ d < u) ∧
    (¬ (l < u ∧ 0 ≤ q ∧ q ≤ u - l ∧ l ≤ d ∧ d < u) →
      createNumber simple quote lang ops toDouble .int nm (some (.int l)) (some (.int u)) (some (.int q)) (some (.int d)) = .err .invalidValue) := by
  obtain ⟨xl, h1, r1⟩ := numeric_fits lang toDouble hl
  obtain ⟨xu, h2, r2⟩ := numeric_fits lang toDouble hu
  obtain ⟨xq, h3, r3⟩ := numeric_fits lang toDouble hq
  obtain ⟨xd, h4, r4⟩ := numeric_fits lang toDouble hd
  have r1 : xl.toInt = l := Number.int.inj r1
  have r2 : xu.toInt = u := Number.int.inj r2
  have r3 : xq.toInt = q := Number.int.inj r3
  have r4 : xd.toInt = d := Number.int.inj r4
  have hc : createNumber simple quote lang ops toDouble .int nm (some (.int l)) (some (.int u)) (some (.int q)) (some (.int d)) =
      createNumerical ops bytes .int xl xu xq xd := by
    unfold createNumber
    simp only [Option.getD_some, hn, h1, h2, h3, h4, Out.bind_ok]
  have key := C32_int_creation_exact ops bytes xl xu xq xd (by rw [r1, r2]; exact hw)
  rw [r1, r2, r3, r4] at key
  rw [hc]
  refine ⟨⟨?_, fun h => ⟨_, key.1 h⟩⟩, key.2⟩
  rintro ⟨p, hp⟩
  apply Classical.byContradiction
  intro hno
  rw [key.2 hno] at hp
  cases hp

/-- **C155** A default value that is not given is the lower bound, bounds that are not given are 0 and 1 or 100, and a quantization that is not given
is 0. -/
theorem C155_number_defaults (ty : NumType) (nm : Name) (l : Number) (u q : Option Number) :
    createNumber simple quote lang ops toDouble ty nm (some l) u q none = createNumber simple quote lang ops toDouble ty nm (some l) u q (some l) ∧
    createNumber simple quote lang ops toDouble .int nm none none none none =
      createNumber simple quote lang ops toDouble .int nm (some (.int 0)) (some (.int 100)) (some (.int 0)) (some (.int 0)) ∧
    createNumber simple quote lang ops toDouble .float nm none none none none =
      createNumber simple quote lang ops toDouble .float nm (some (.float 0#64)) (some (.float F64.one)) (some (.float 0#64)) (some (.float 0#64)) :=
  ⟨rfl, rfl, rfl⟩

/-- **C155** (violation) From Python, integers that 64 bits do not hold are not refused: a parameter created with `upper = u + k * 2^64` is the one
created with `upper = u`. -/
theorem C155_python_wraps (nm : Name) (l q d : Option Number) (u k : Int) :
    createNumber simple quote .python ops toDouble .int nm l (some (.int (u + k * 2 ^ 64))) q d =
      createNumber simple quote .python ops toDouble .int nm l (some (.int u)) q d := by
  have : BitVec.ofInt 64 (u + k * 2 ^ 64) = BitVec.ofInt 64 u := by
    apply BitVec.eq_of_toInt_eq
    rw [BitVec.toInt_ofInt, BitVec.toInt_ofInt]
    exact Int.add_mul_bmod_self_right _ _ _
  have h : (Lang.python).numeric toDouble .int (.int (u + k * 2 ^ 64)) = (Lang.python).numeric toDouble .int (.int u) := by
    show Out.ok (BitVec.ofInt 64 (u + k * 2 ^ 64)) = Out.ok (BitVec.ofInt 64 u)
    rw [this]
  unfold createNumber
  simp only [Option.getD_some, h]

/-- **C155** From Ruby they are. -/
theorem C155_ruby_refuses (nm : Name) (l q d : Option Number) {u : Int} (hu : ¬ Fits .int (.int u)) (p : Param) :
    createNumber simple quote .ruby ops toDouble .int nm l (some (.int u)) q d ≠ .ok p := by
  intro h
  obtain ⟨_, xu, _, _, -, h2, -⟩ := createNumber_ok simple quote h
  rw [show (Lang.ruby).numeric toDouble .int ((some (Number.int u)).getD (defaultUpper .int)) = Rb.int64 u from rfl, Rb.int64,
    if_neg (show ¬ (-2 ^ 63 ≤ u ∧ u < 2 ^ 63) from hu)] at h2
  cases h2

/-- **C155** (partial) `check_value` answers whether a number of the type of the parameter is at least its lower bound and below its upper bound, and
refuses all other values: integers for a parameter of floats, and floats for a parameter of integers, even those that are integers.
Missing: bounds that are integers 64 bits do not hold, from Python. -/
theorem C155_check_number_partial {α : Type} {t : Tongue α} {usual numeric : α → Prop} {num : Number → α} {same : α → α → Prop}
    (ht : Understood t usual numeric num same) (jen : Bytes → BitVec 32) (little : Bool) {ty : NumType} {nm : Name} {l u : Number} (hl : Fits ty l)
    (hu : Fits ty u) {q d : Option Number} {p : Param}
    (h : createNumber simple quote t.lang ops toDouble ty nm (some l) (some u) q d = .ok p) :
    (∀ n, Fits ty n → Decides (checkOne t jen little p (num n)) (Inside ⟨ty, l, u, true, false⟩ n)) ∧
    (∀ v, usual v → (∀ n, Fits ty n → ¬ same v (num n)) → checkOne t jen little p v = .ok false) := by
  obtain ⟨xl, xu, xq, xd, h1, h2, -, -, -, hk, -⟩ := createNumber_ok simple quote h
  have rl : read ty xl = l := numeric_read hl h1
  have ru : read ty xu = u := numeric_read hu h2
  constructor
  · intro n hf
    obtain ⟨x, -, rx⟩ := numeric_fits t.lang toDouble hf
    obtain ⟨-, -, dt, hg, hv⟩ := ht.num ty x
    rw [rx] at hg
    refine ⟨Interval.include ⟨ty, xl, xu, 1#32, 0#32⟩ x, ?_, ?_⟩
    · unfold checkOne checkValue
      rw [hg, Out.bind_ok, hk, hv]
      cases ty <;> rfl
    · rw [C27_membership_exact, mem_read]
      show Inside ⟨ty, read ty xl, read ty xu, _, _⟩ (read ty x) ↔ _
      rw [rl, ru, rx]
      rfl
  · intro v hv hno
    obtain ⟨dt, hg, -, -⟩ := ht.back v hv
    have hne : ∀ x, dt.v ≠ stored ty x := by
      intro x hx
      obtain ⟨-, hus, e, he, hev⟩ := ht.num ty x
      exact hno (read ty x) (fits_read ty x) ((ht.apart v _ dt e hv hus hg he).1 (hx.trans hev.symm))
    unfold checkOne
    rw [hg, Out.bind_ok]
    refine congrArg Out.ok ?_
    unfold checkValue
    rw [hk]
    cases ty <;> cases hdv : dt.v <;> first | rfl | exact absurd hdv (hne _)

end numbers

/-- A parameter of integers from Python, and from Ruby. -/
example (simple : Bytes → Bool) (quote : Bytes → Bytes) (lang : Lang) (ops : FloatOps) (toDouble : Int → Out F64) :
    ∃ p, createNumber simple quote lang ops toDouble .int (.text [97#8] false) (some (.int (-3))) (some (.int 7)) (some (.int 0)) (some (.int 2)) = .ok p := by
  have hn : nameGiven simple quote lang (.text [97#8] false) = .ok [97#8] := by cases lang <;> rfl
  exact (C155_int_created_partial simple quote hn ⟨by decide, by decide⟩ ⟨by decide, by decide⟩ ⟨by decide, by decide⟩ ⟨by decide, by decide⟩
    (by decide)).1.2 (by decide)

/-! ## Parameters that list their values -/

section listed
variable (simple : Bytes → Bool) (quote : Bytes → Bytes) (jen : Bytes → BitVec 32) (little : Bool)
variable {α : Type} {t : Tongue α} {usual numeric : α → Prop} {num : Number → α} {same : α → α → Prop} (ht : Understood t usual numeric num same)
include ht

theorem giveAll_usual : ∀ {vs : List α}, (∀ v ∈ vs, usual v) → ∃ ds, BoundEval.giveAll t vs = .ok ds ∧ ds.length = vs.length ∧
    (∀ (i : Nat) v d, vs[i]? = some v → ds[i]? = some d → t.give v = .ok d) ∧ ∀ d ∈ ds, Label d.v
  | [], _ => ⟨[], rfl, rfl, nofun, nofun⟩
  | v :: vs, h => by
    obtain ⟨d, h1, hl, -⟩ := ht.back v (h v List.mem_cons_self)
    obtain ⟨ds, h2, h3, h4, h5⟩ := giveAll_usual fun w hw => h w (List.mem_cons_of_mem _ hw)
    refine ⟨d :: ds, ?_, by simp [h3], fun i x e hx he => ?_, fun e he => ?_⟩
    · unfold BoundEval.giveAll; rw [h1, h2]; rfl
    · cases i with
      | zero => simp at hx he; rw [← hx, ← he]; exact h1
      | succ i => exact h4 i x e (by simpa using hx) (by simpa using he)
    · rcases List.mem_cons.1 he with rfl | he
      · exact hl
      · exact h5 e he

theorem takeAll_usual : ∀ {vs : List α} {ds : List Datum}, (∀ v ∈ vs, usual v) → ds.length = vs.length →
    (∀ (i : Nat) v d, vs[i]? = some v → ds[i]? = some d → t.give v = .ok d) →
    ∃ ws, takeAll t (ds.map Datum.v) = .ok ws ∧ SameList same ws vs
  | [], [], _, _, _ => ⟨[], rfl, trivial⟩
  | [], _ :: _, _, h, _ => by cases h
  | _ :: _, [], _, h, _ => by cases h
  | v :: vs, d :: ds, hu, hl, hg => by
    obtain ⟨d', h1, -, w, h2, -, h3⟩ := ht.back v (hu v List.mem_cons_self)
    have := hg 0 v d rfl rfl
    rw [h1] at this
    cases Out.ok.inj this
    obtain ⟨ws, h4, h5⟩ := takeAll_usual (fun x hx => hu x (List.mem_cons_of_mem _ hx)) (by simpa using hl)
      (fun i x e hx he => hg (i + 1) x e (by simpa using hx) (by simpa using he))
    exact ⟨w :: ws, by simp only [List.map_cons, takeAll, h2, h4, Out.bind_ok], h3, h5⟩

theorem listable_of_label {kind : CatKind} {v : α} {d : Datum} (hv : usual v) (hd : t.give v = .ok d) (hl : Label d.v) :
    Listable kind d.v ↔ (kind = .discrete → numeric v) := by
  have hn := ht.numeric v d hv hd
  cases kind with
  | discrete =>
    constructor
    · rintro (⟨x, h⟩ | ⟨x, h⟩) _
      · exact hn.2 ⟨.int, x, h⟩
      · exact hn.2 ⟨.float, x, h⟩
    · intro h
      obtain ⟨ty, x, h⟩ := hn.1 (h rfl)
      cases ty
      · exact .inl ⟨x, h⟩
      · exact .inr ⟨x, h⟩
  | _ =>
    refine ⟨(fun _ h => (nomatch h)), fun _ => ?_⟩
    obtain ⟨h1, h2⟩ := hl
    show _ ∨ _
    cases hdv : d.v with
    | none => exact .inl rfl
    | int x => exact .inr (.inl ⟨x, rfl⟩)
    | float x => exact .inr (.inr (.inl ⟨x, rfl⟩))
    | bool x => exact .inr (.inr (.inr (.inl ⟨x, rfl⟩)))
    | str s =>
      cases s with
      | none => exact absurd hdv h2
      | some s => exact .inr (.inr (.inr (.inr ⟨s, rfl⟩)))
    | _ => rw [hdv] at h1; exact absurd h1 (by simp [Value.tag])

/-- **C155** (partial) A categorical, ordinal or discrete parameter can be created from a list of values exactly when the position given for the default
value is one of the list, no value is listed twice, and, for a discrete one, all are numbers; otherwise the call raises INVALID_VALUE.
Missing: positions that 64 bits do not hold, from Python (`C155_python_index_wraps`). -/
theorem C155_listed_created_partial {kind : CatKind} {nm : Name} {bytes : Bytes} (hn : nameGiven simple quote t.lang nm = .ok bytes) {vs : List α}
    (hv : ∀ v ∈ vs, usual v) (hlen : vs.length < 2 ^ 63) {i : Int} (h1 : -2 ^ 63 ≤ i) (h2 : i < 2 ^ 63) :
    ((∃ p, createListed simple quote t jen little kind nm vs i = .ok p) ↔
      0 ≤ i ∧ i < vs.length ∧ vs.Pairwise (fun v w => ¬ same v w) ∧ (kind = .discrete → ∀ v ∈ vs, numeric v)) ∧
    ((¬ ∃ p, createListed simple quote t jen little kind nm vs i = .ok p) →
      createListed simple quote t jen little kind nm vs i = .err .invalidValue) := by
  obtain ⟨ds, hg, hl, hgi, hlab⟩ := giveAll_usual ht hv
  obtain ⟨k, hk, hki⟩ : ∃ k, sizeGiven t.lang i = .ok k ∧ (k < vs.length ↔ 0 ≤ i ∧ i < vs.length) ∧ (0 ≤ i → (k : Int) = i) := by
    refine ⟨(BitVec.ofInt 64 i).toNat, ?_, ?_⟩
    · cases t.lang
      · rfl
      · exact if_pos ⟨h1, by omega⟩
    · rw [BitVec.toNat_ofInt]
      omega
  have hc : vs.length ≠ 0 → createListed simple quote t jen little kind nm vs i = createCategorical jen little kind bytes ds k := by
    intro h0
    unfold createListed
    rw [if_neg (fun h => h0 h.2), hn, Out.bind_ok, hg, Out.bind_ok, hk, Out.bind_ok]
  have hpair : (ds.map Datum.v).Nodup ↔ vs.Pairwise (fun v w => ¬ same v w) := by
    rw [List.Nodup, List.pairwise_iff_getElem, List.pairwise_iff_getElem]
    constructor
    · intro h a b ha hb hab hs
      refine h a b (by simp; omega) (by simp; omega) hab ?_
      rw [List.getElem_map, List.getElem_map]
      exact (ht.apart _ _ _ _ (hv _ (List.getElem_mem ha)) (hv _ (List.getElem_mem hb))
        (hgi a _ _ (List.getElem?_eq_getElem ha) (List.getElem?_eq_getElem (by omega)))
        (hgi b _ _ (List.getElem?_eq_getElem hb) (List.getElem?_eq_getElem (by omega)))).2 hs
    · intro h a b ha hb hab he
      have ha' : a < vs.length := by simp at ha; omega
      have hb' : b < vs.length := by simp at hb; omega
      rw [List.getElem_map, List.getElem_map] at he
      exact h a b ha' hb' hab ((ht.apart _ _ _ _ (hv _ (List.getElem_mem ha')) (hv _ (List.getElem_mem hb'))
        (hgi a _ _ (List.getElem?_eq_getElem ha') (List.getElem?_eq_getElem (by omega)))
        (hgi b _ _ (List.getElem?_eq_getElem hb') (List.getElem?_eq_getElem (by omega)))).1 he)
  have hlist : (∀ d ∈ ds, Listable kind d.v) ↔ (kind = .discrete → ∀ v ∈ vs, numeric v) := by
    constructor
    · intro h hk v hvm
      obtain ⟨a, ha, rfl⟩ := List.getElem_of_mem hvm
      have hd := List.getElem_mem (l := ds) (n := a) (by omega)
      exact (listable_of_label ht (hv _ hvm) (hgi a _ _ (List.getElem?_eq_getElem ha) (List.getElem?_eq_getElem (by omega))) (hlab _ hd)).1 (h _ hd) hk
    · intro h d hd
      obtain ⟨a, ha, rfl⟩ := List.getElem_of_mem hd
      have hvm := List.getElem_mem (l := vs) (n := a) (by omega)
      exact (listable_of_label ht (hv _ hvm) (hgi a _ _ (List.getElem?_eq_getElem (by omega)) (List.getElem?_eq_getElem ha)) (hlab _ hd)).2
        (fun hk => h hk _ hvm)
  by_cases h0 : vs.length = 0
  · have he : createListed simple quote t jen little kind nm vs i = .err .invalidValue := by
      unfold createListed
      split
      · rfl
      · rw [hn, Out.bind_ok, hg, Out.bind_ok, hk, Out.bind_ok]
        unfold createCategorical
        rw [if_pos (.inl (by omega))]
    rw [he]
    exact ⟨⟨fun ⟨p, h⟩ => (nomatch h), fun h => by omega⟩, fun _ => rfl⟩
  · rw [hc h0]
    have key := C33_creation_exact jen little kind bytes ds k
    rw [hl, hpair, hlist, hki.1] at key
    refine ⟨key.1.trans ⟨fun h => ⟨h.1.1, h.1.2, h.2.2⟩, fun h => ⟨⟨h.1, h.2.1⟩, by omega, h.2.2⟩⟩, key.2⟩

theorem createListed_ok {kind : CatKind} {nm : Name} {vs : List α} {i : Int} {p : Param} (hv : ∀ v ∈ vs, usual v)
    (h : createListed simple quote t jen little kind nm vs i = .ok p) :
    ∃ ds k, BoundEval.giveAll t vs = .ok ds ∧ ds.length = vs.length ∧
      (∀ (i : Nat) v d, vs[i]? = some v → ds[i]? = some d → t.give v = .ok d) ∧ sizeGiven t.lang i = .ok k ∧
      createCategorical jen little kind p.name ds k = .ok p := by
  obtain ⟨ds, hg, hl, hgi, -⟩ := giveAll_usual ht hv
  unfold createListed at h
  split at h
  · cases h
  obtain ⟨bytes, -, h⟩ := bind_eq_ok h
  rw [hg, Out.bind_ok] at h
  obtain ⟨k, hk, h⟩ := bind_eq_ok h
  refine ⟨ds, k, hg, hl, hgi, hk, ?_⟩
  rw [(C33_created_is_the_set _ _ _ _ _ _ _ h).1]
  exact h

/-- **C155** Such a parameter lists the values it was created with, in order, and its default value is the one at the position given. -/
theorem C155_listed_back {kind : CatKind} {nm : Name} {vs : List α} {i : Nat} {p : Param} (hv : ∀ v ∈ vs, usual v)
    (hi : i < 2 ^ 63) (h : createListed simple quote t jen little kind nm vs (i : Int) = .ok p) :
    (∃ ws, values t p = .ok ws ∧ SameList same ws vs) ∧ ∃ v w, vs[i]? = some v ∧ defaultValue t p = .ok w ∧ same w v := by
  obtain ⟨ds, k, -, hl, hgi, hk, h⟩ := createListed_ok simple quote jen little ht hv h
  rw [CCS.Props.BoundTree.sizeGiven_nat t.lang (by omega)] at hk
  cases Out.ok.inj hk
  obtain ⟨d, hd, hp, -⟩ := createCategorical_ok h
  have hki : i < vs.length := by have := (List.getElem?_eq_some_iff.1 hd).1; omega
  constructor
  · obtain ⟨ws, h1, h2⟩ := takeAll_usual ht hv hl hgi
    refine ⟨ws, ?_, h2⟩
    rw [hp]
    show (getValues (ds.map Datum.v) (List.replicate (ds.map Datum.v).length .none) >>= fun vs => takeAll t vs) = _
    have : getValues (ds.map Datum.v) (List.replicate (ds.map Datum.v).length .none) = .ok (ds.map Datum.v) := by
      unfold getValues
      rw [if_neg (by simp)]
      simp
    rw [this, Out.bind_ok, h1]
  · have hgv := hgi i _ d (List.getElem?_eq_getElem hki) hd
    obtain ⟨d', h1, -, w, h2, -, h3⟩ := ht.back _ (hv _ (List.getElem_mem hki))
    rw [h1] at hgv
    cases Out.ok.inj hgv
    refine ⟨_, w, List.getElem?_eq_getElem hki, ?_, h3⟩
    unfold defaultValue
    rw [hp]
    exact h2

/-- **C155** `check_value` answers whether a value is one of those listed. -/
theorem C155_check_listed {kind : CatKind} {nm : Name} {vs : List α} {i : Int} {p : Param} (hv : ∀ v ∈ vs, usual v)
    (h : createListed simple quote t jen little kind nm vs i = .ok p) {x : α} (hx : usual x) :
    Decides (checkOne t jen little p x) (∃ v ∈ vs, same x v) := by
  obtain ⟨ds, k, -, hl, hgi, hk, h⟩ := createListed_ok simple quote jen little ht hv h
  obtain ⟨d, hd, -⟩ := ht.back x hx
  refine ⟨checkValue jen little p d.v, by unfold checkOne; rw [hd]; rfl, ?_⟩
  rw [(C33_created_is_the_set _ _ _ _ _ _ _ h).2.2.1 d.v]
  constructor
  · rintro ⟨e, he, hev⟩
    obtain ⟨a, ha, rfl⟩ := List.getElem_of_mem he
    have hm := List.getElem_mem (l := vs) (n := a) (by omega)
    exact ⟨_, hm, (ht.apart x _ d _ hx (hv _ hm) hd (hgi a _ _ (List.getElem?_eq_getElem (by omega)) (List.getElem?_eq_getElem ha))).1 hev.symm⟩
  · rintro ⟨v, hm, hs⟩
    obtain ⟨a, ha, rfl⟩ := List.getElem_of_mem hm
    have he := List.getElem_mem (l := ds) (n := a) (by omega)
    exact ⟨_, he, ((ht.apart x _ d _ hx (hv _ hm) hd (hgi a _ _ (List.getElem?_eq_getElem ha) (List.getElem?_eq_getElem (by omega)))).2 hs).symm⟩

/-- **C155** `compare` of an ordinal parameter is the order in which the values were listed. -/
theorem C155_compare {nm : Name} {vs : List α} {index : Int} {p : Param} (hv : ∀ v ∈ vs, usual v)
    (h : createListed simple quote t jen little .ordinal nm vs index = .ok p) {i j : Nat} {a b : α} (ha : vs[i]? = some a) (hb : vs[j]? = some b) :
    compareValues t jen little p a b = .ok (if i < j then -1 else if j < i then 1 else 0) := by
  obtain ⟨ds, k, -, hl, hgi, hk, h⟩ := createListed_ok simple quote jen little ht hv h
  have hi := (List.getElem?_eq_some_iff.1 ha).1
  have hj := (List.getElem?_eq_some_iff.1 hb).1
  have da := List.getElem?_eq_getElem (l := ds) (i := i) (by omega)
  have db := List.getElem?_eq_getElem (l := ds) (i := j) (by omega)
  obtain ⟨e1, e2, e3⟩ := C34_order_of_declaration jen little p.name ds k p h i j _ _ da db
  obtain ⟨d, -, hp, -⟩ := createCategorical_ok h
  have : compareValues t jen little p a b = (t.give a >>= fun x => t.give b >>= fun y => ordinalCompare jen little p x.v y.v >>= fun o =>
      .ok (match o with | .lt => -1 | .eq => 0 | .gt => 1)) := by
    have hkind : p.kind = .categorical .ordinal (ds.map Datum.v) := by rw [hp]
    unfold compareValues
    simp only [hkind]
    rfl
  rw [this, hgi i a _ ha da, hgi j b _ hb db, Out.bind_ok, Out.bind_ok]
  rcases Nat.lt_trichotomy i j with hij | hij | hij
  · rw [e1.2 hij, if_pos hij]; rfl
  · rw [e2.2 hij, if_neg (by omega), if_neg (by omega)]; rfl
  · rw [e3.2 hij, if_neg (by omega), if_pos hij]; rfl

/-- **C155** Values that are not listed are not compared. -/
theorem C155_compare_unlisted {nm : Name} {vs : List α} {index : Int} {p : Param} (hv : ∀ v ∈ vs, usual v)
    (h : createListed simple quote t jen little .ordinal nm vs index = .ok p) {a b : α} (ha : usual a) (hb : usual b)
    (hab : (∀ v ∈ vs, ¬ same a v) ∨ ∀ v ∈ vs, ¬ same b v) : compareValues t jen little p a b = .err .invalidValue := by
  obtain ⟨ds, k, -, hl, hgi, hk, h⟩ := createListed_ok simple quote jen little ht hv h
  obtain ⟨d, -, hp, -⟩ := createCategorical_ok h
  obtain ⟨da, ga, -⟩ := ht.back a ha
  obtain ⟨db, gb, -⟩ := ht.back b hb
  have : compareValues t jen little p a b = (t.give a >>= fun x => t.give b >>= fun y => ordinalCompare jen little p x.v y.v >>= fun o =>
      .ok (match o with | .lt => -1 | .eq => 0 | .gt => 1)) := by
    have hkind : p.kind = .categorical .ordinal (ds.map Datum.v) := by rw [hp]
    unfold compareValues
    simp only [hkind]
    rfl
  have hno : ∀ {x dx}, usual x → t.give x = .ok dx → (∀ v ∈ vs, ¬ same x v) → dx.v ∉ ds.map Datum.v := by
    intro x dx hx hg hn hm
    obtain ⟨e, he, hev⟩ := List.mem_map.1 hm
    obtain ⟨c, hc, rfl⟩ := List.getElem_of_mem he
    have hmv := List.getElem_mem (l := vs) (n := c) (by omega)
    exact hn _ hmv ((ht.apart x _ dx _ hx (hv _ hmv) hg (hgi c _ _ (List.getElem?_eq_getElem (by omega)) (List.getElem?_eq_getElem hc))).1 hev.symm)
  rw [this, ga, gb, Out.bind_ok, Out.bind_ok,
    C34_unlisted_refused jen little p.name ds k p h _ _ (hab.imp (hno ha ga) (hno hb gb))]
  rfl

/-- **C155** `check_values` from Python answers `check_value` for each value. -/
theorem C155_python_check_values (hlang : t.lang = .python) (p : Param) {vs : List α} (hv : ∀ v ∈ vs, usual v) :
    ∃ bs, checkAll t jen little p vs = .ok bs ∧ bs.length = vs.length ∧
      ∀ (i : Nat) v, vs[i]? = some v → ∃ b, bs[i]? = some b ∧ checkOne t jen little p v = .ok b := by
  obtain ⟨ds, hg, hl, hgi, -⟩ := giveAll_usual ht hv
  refine ⟨CCS.checkValues jen little p (ds.map Datum.v), ?_, by simp [CCS.checkValues, hl], fun i v hi => ?_⟩
  · unfold checkAll
    simp only [hlang, hg, Out.bind_ok]
  · have hlt := (List.getElem?_eq_some_iff.1 hi).1
    have hd := List.getElem?_eq_getElem (l := ds) (i := i) (by omega)
    refine ⟨checkValue jen little p ds[i].v, ?_, ?_⟩
    · unfold CCS.checkValues
      rw [List.getElem?_map, List.getElem?_map, hd]; rfl
    · unfold checkOne
      rw [hgi i v _ hi hd]; rfl

theorem legal_usual {ops : FloatOps} {p : Param} (hp : MadeUsual t usual ops jen little p) {v : Value} (hv : Legal p v) :
    ∃ x, t.take { v := v } = .ok x ∧ checkOne t jen little p x = .ok true := by
  have hchk : ∀ {x d}, t.give x = .ok d → d.v = v → checkOne t jen little p x = .ok true := by
    intro x d hg hd
    unfold checkOne
    rw [hg, Out.bind_ok, hd, (checkValue_iff p v).2 hv]
  cases hp with
  | @number simple quote toDouble ty nm l u q d _ h =>
    obtain ⟨xl, xu, xq, xd, -, -, -, -, -, hk, -⟩ := createNumber_ok simple quote h
    have : ∃ x, v = stored ty x := by
      unfold Legal at hv
      rw [hk] at hv
      cases ty <;> obtain ⟨x, hx, -⟩ := hv <;> exact ⟨x, hx⟩
    obtain ⟨x, rfl⟩ := this
    obtain ⟨h1, -, d, h2, h3⟩ := ht.num ty x
    exact ⟨_, h1, hchk h2 h3⟩
  | @listed simple quote kind nm vs index _ hu h =>
    obtain ⟨ds, k, -, hl, hgi, -, h⟩ := createListed_ok simple quote jen little ht hu h
    obtain ⟨_, -, hp, -⟩ := createCategorical_ok h
    have hm : v ∈ ds.map Datum.v := by
      unfold Legal at hv
      rw [show p.kind = .categorical kind (ds.map Datum.v) by rw [hp]] at hv
      exact hv
    obtain ⟨d, hd, rfl⟩ := List.mem_map.1 hm
    obtain ⟨a, ha, rfl⟩ := List.getElem_of_mem hd
    have hmv := List.getElem_mem (l := vs) (n := a) (by omega)
    have hg := hgi a _ _ (List.getElem?_eq_getElem (by omega)) (List.getElem?_eq_getElem ha)
    obtain ⟨d', h1, -, w, h2, h3, h4⟩ := ht.back _ (hu _ hmv)
    rw [hg] at h1
    cases Out.ok.inj h1
    obtain ⟨e, h5, -⟩ := ht.back w h3
    exact ⟨w, h2, hchk h5 ((ht.apart w _ e _ h3 (hu _ hmv) h5 hg).2 h4)⟩

theorem takeAll_legal {ops : FloatOps} {p : Param} (hp : MadeUsual t usual ops jen little p) : ∀ {vs : List Value} {xs : List α},
    (∀ v ∈ vs, Legal p v) → takeAll t vs = .ok xs → xs.length = vs.length ∧ ∀ x ∈ xs, checkOne t jen little p x = .ok true
  | [], xs, _, h => by cases Out.ok.inj h; exact ⟨rfl, nofun⟩
  | v :: vs, xs, hv, h => by
    unfold takeAll at h
    obtain ⟨x, h1, h⟩ := bind_eq_ok h
    obtain ⟨ys, h2, h⟩ := bind_eq_ok h
    cases Out.ok.inj h
    obtain ⟨y, h3, h4⟩ := legal_usual jen little ht hp (hv v List.mem_cons_self)
    rw [h1] at h3
    cases Out.ok.inj h3
    obtain ⟨h5, h6⟩ := takeAll_legal hp (fun w hw => hv w (List.mem_cons_of_mem _ hw)) h2
    refine ⟨by simp [h5], fun z hz => ?_⟩
    rcases List.mem_cons.1 hz with rfl | hz
    · exact h4
    · exact h6 z hz

theorem madeUsual_created {ops : FloatOps} {p : Param} (hp : MadeUsual t usual ops jen little p) : Created ops jen little p := by
  cases hp with
  | @number simple quote toDouble ty nm l u q d _ h =>
    obtain ⟨_, _, _, _, -, -, -, -, h, -⟩ := createNumber_ok simple quote h
    exact .numerical h
  | @listed simple quote kind nm vs index _ hu h =>
    obtain ⟨_, _, -, -, -, -, h⟩ := createListed_ok simple quote jen little ht hu h
    exact .categorical h

/-- **C155** Sampling a parameter whose bounds are no NaN, from a distribution that gives as many numbers within its bounds as it is asked for, gives
values that `check_value` accepts, as many as asked for.  For a negative number Ruby gives none and Python raises an exception. -/
theorem C155_samples {ops : FloatOps} {p : Param} (hp : MadeUsual t usual ops jen little p) (hprop : Proper p.interval) {bounds : Interval}
    {draw : Draws} (hd : Respects bounds draw) :
    (∀ (n : Nat) xs, BoundParam.sampleMany t p bounds draw (n : Int) = .ok xs →
      xs.length = n ∧ ∀ x ∈ xs, checkOne t jen little p x = .ok true) ∧
    (∀ x, BoundParam.sampleOne t p bounds draw = .ok x → checkOne t jen little p x = .ok true) ∧
    (∀ n : Int, n < 0 → BoundParam.sampleMany t p bounds draw n = match t.lang with | .ruby => .ok [] | .python => .err .external) := by
  have hc := madeUsual_created jen little ht hp
  refine ⟨fun n xs h => ?_, fun x h => ?_, fun n hn => ?_⟩
  · unfold BoundParam.sampleMany at h
    split at h
    · rename_i h0
      cases Out.ok.inj h
      exact ⟨by have := h0.2; simp; omega, nofun⟩
    · obtain ⟨m, hm, h⟩ := bind_eq_ok h
      obtain ⟨vs, h1, h2⟩ := bind_eq_ok h
      have hm : m = n := by
        unfold BoundTuner.arrayOf at hm
        split at hm
        · rw [← Out.ok.inj hm]; exact Int.toNat_natCast n
        · cases hm
      subst hm
      obtain ⟨h3, h4⟩ := C36_samples_legal ops jen little p hc hprop bounds draw hd m vs h1
      obtain ⟨h5, h6⟩ := takeAll_legal jen little ht hp (fun v hv => (checkValue_iff p v).1 (h4 v hv)) h2
      exact ⟨h5.trans h3, h6⟩
  · unfold BoundParam.sampleOne at h
    obtain ⟨vs, h1, h2⟩ := bind_eq_ok h
    obtain ⟨h3, h4⟩ := C36_samples_legal ops jen little p hc hprop bounds draw hd 1 vs h1
    cases vs with
    | nil => cases h3
    | cons v vs =>
      obtain ⟨y, h5, h6⟩ := legal_usual jen little ht hp ((checkValue_iff p v).1 (h4 v List.mem_cons_self))
      rw [show (t.take { v := v }) = .ok x from h2] at h5
      cases Out.ok.inj h5
      exact h6
  · unfold BoundParam.sampleMany
    cases hl : t.lang with
    | ruby => exact if_pos ⟨rfl, by omega⟩
    | python =>
      rw [if_neg (fun h => (nomatch h.1))]
      have : BoundTuner.arrayOf n = .err .external := if_neg (fun h => by have := h.1; omega)
      rw [this]; rfl

end listed

/-- **C155** (violation) `check_values` from Ruby raises an exception for every list that is not empty. -/
theorem C155_ruby_check_values (jen : Bytes → BitVec 32) (little : Bool) (p : Param) {vs : List Rb.Val} (h : vs ≠ []) :
    checkAll ruby jen little p vs = .err .external := by
  show (if vs.length = 0 then Out.ok [] else _) = _
  rw [if_neg (fun h' => h (List.length_eq_zero_iff.1 h'))]

/-- **C155** (violation) From Python, a position for the default value that 64 bits do not hold is not refused: `default_index = i + k * 2^64` means
`default_index = i`. -/
theorem C155_python_index_wraps (simple : Bytes → Bool) (quote : Bytes → Bytes) (jen : Bytes → BitVec 32) (little : Bool) (kind : CatKind) (nm : Name)
    (vs : List Py.Val) (i k : Int) :
    createListed simple quote python jen little kind nm vs (i + k * 2 ^ 64) = createListed simple quote python jen little kind nm vs i := by
  have : BitVec.ofInt 64 (i + k * 2 ^ 64) = BitVec.ofInt 64 i := by
    apply BitVec.eq_of_toInt_eq
    rw [BitVec.toInt_ofInt, BitVec.toInt_ofInt]
    exact Int.add_mul_bmod_self_right _ _ _
  have h : sizeGiven python.lang (i + k * 2 ^ 64) = sizeGiven python.lang i := by
    show Out.ok (BitVec.ofInt 64 (i + k * 2 ^ 64)).toNat = Out.ok (BitVec.ofInt 64 i).toNat
    rw [this]
  unfold createListed
  rw [h]

/-- An ordinal parameter of two strings, from both languages, and what it says. -/
example (simple : Bytes → Bool) (quote : Bytes → Bytes) (jen : Bytes → BitVec 32) (little : Bool) :
    (∃ p, createListed simple quote python jen little .ordinal (.text [97#8] false) [.str [98#8], .none, .int 3] 2 = .ok p ∧
      compareValues python jen little p (.str [98#8]) (.int 3) = .ok (-1)) ∧
    ∃ p, createListed simple quote ruby jen little .ordinal (.text [97#8] false) [.str [98#8] false, .nil, .int 3] 2 = .ok p ∧
      compareValues ruby jen little p (.int 3) (.str [98#8] false) = .ok 1 := by
  have hpy : ∀ v ∈ [Py.Val.str [98#8], .none, .int 3], Labels v := by
    intro v hv
    simp at hv
    rcases hv with rfl | rfl | rfl
    · exact ⟨show 0#8 ∉ [98#8] by decide, nofun⟩
    · exact ⟨trivial, nofun⟩
    · exact ⟨⟨by decide, by decide⟩, nofun⟩
  have hrb : ∀ v ∈ [Rb.Val.str [98#8] false, .nil, .int 3], LabelsRb v := by
    intro v hv
    simp at hv
    rcases hv with rfl | rfl | rfl
    · exact ⟨⟨by decide, by decide⟩, nofun, nofun⟩
    · exact ⟨trivial, nofun, nofun⟩
    · exact ⟨⟨by decide, by decide⟩, nofun, nofun⟩
  constructor
  · obtain ⟨p, hp⟩ := (C155_listed_created_partial simple quote jen little C155_understood.1 (kind := .ordinal) (nm := .text [97#8] false) (bytes := [97#8])
      rfl hpy (by decide) (i := 2) (by decide) (by decide)).1.2 ⟨by decide, by decide, by decide, nofun⟩
    exact ⟨p, hp, C155_compare simple quote jen little C155_understood.1 hpy hp (i := 0) (j := 2) rfl rfl⟩
  · obtain ⟨p, hp⟩ := (C155_listed_created_partial simple quote jen little C155_understood.2 (kind := .ordinal) (nm := .text [97#8] false) (bytes := [97#8])
      rfl hrb (by decide) (i := 2) (by decide) (by decide)).1.2 ⟨by decide, by decide, by decide, nofun⟩
    exact ⟨p, hp, C155_compare simple quote jen little C155_understood.2 hrb hp (i := 2) (j := 0) rfl rfl⟩

end CCS.Props.BoundParam
