/-
C143: values of configurations, features and evaluations used from Python and Ruby.
-/
import Verif.Spec.BoundValues
import Verif.Props.Binding
import Verif.Props.PyDatum
import Verif.Props.RbDatum

namespace CCS.Props
open CCS CCS.Spec

/-! ### The library -/

theorem getByName_at {c : Ctx} (hc : Context c) (b : Binding) {i : Nat} {h : BitVec 64} {p : Param} (hp : Holds c i h p) :
    b.getByName c p.name = b.get i := ((C58_by_name hc b).1 i h p hp).1

theorem getByParameter_at {c : Ctx} (hc : Context c) (b : Binding) {i : Nat} {h : BitVec 64} {p : Param} (hp : Holds c i h p) :
    b.getByParameter c h = b.get i := ((C58_by_name hc b).1 i h p hp).2

section
variable (jen : Bytes → BitVec 32) (little : Bool)

theorem setByName_at {c : Ctx} (hc : Context c) (b : Binding) {i : Nat} {h : BitVec 64} {p : Param} (hp : Holds c i h p) (d : Datum) :
    b.setByName jen little c p.name d = b.set jen little c i d := by
  have ht := context_table hc
  unfold Binding.setByName
  rcases ht.indexByName p.name with ⟨i', h', p', hp', hn, hi⟩ | ⟨hno, -⟩
  · rw [hi, ht.name_inj hp' hp hn]; rfl
  · exact absurd rfl (hno _ _ _ hp)

theorem setByParameter_at {c : Ctx} (hc : Context c) (b : Binding) {i : Nat} {h : BitVec 64} {p : Param} (hp : Holds c i h p) (d : Datum) :
    b.setByParameter jen little c h d = b.set jen little c i d := by
  have ht := context_table hc
  unfold Binding.setByParameter
  rcases ht.index h with ⟨i', p', hp', hi⟩ | ⟨hno, -⟩
  · rw [hi, ht.handle_inj hp' hp]; rfl
  · exact absurd hp (hno _ _)

theorem validate_at {c : Ctx} (hl : c.params.length < 4294967296) {i : Nat} {h : BitVec 64} {p : Param} (hp : Holds c i h p) (d : Datum) :
    (Legal p d.v → ∃ e, c.validate jen little i d = .ok e ∧ e.v = d.v) ∧
    (¬ Legal p d.v → c.validate jen little i d = .err .invalidValue) := by
  have hi := (List.getElem?_eq_some_iff.1 hp).1
  have hu : toUint i = i := by unfold toUint; omega
  unfold Ctx.validate
  rw [hu, show c.params[i]? = some (h, p) from hp]
  simp only
  rcases validateValue_cases (jen := jen) (little := little) p d with ⟨hleg, h1, h2⟩ | ⟨hno, h1⟩
  · refine ⟨fun _ => ⟨(validateValue jen little p d).2, ?_, h2⟩, fun h => absurd hleg h⟩
    rcases hv : validateValue jen little p d with ⟨b, d'⟩
    rw [hv] at h1
    cases h1; rfl
  · exact ⟨fun h => absurd h hno, fun _ => by rw [h1]⟩

end

theorem get_congr {b b' : Binding} {i j : Nat} (h : b'.values[j]? = b.values[i]?) : b'.get j = b.get i := by
  unfold Binding.get; rw [h]

theorem get_of_some {b : Binding} {i : Nat} {d : Datum} (h : b.values[i]? = some d) : b.get i = .ok d := by
  unfold Binding.get; rw [h]

end CCS.Props

namespace CCS.Py
open CCS CCS.Spec CCS.Py.Spec CCS.Props

theorem nul_free {s : Bytes} (h : 0#8 ∉ s) : s.takeWhile (· ≠ 0#8) = s := by
  induction s with
  | nil => rfl
  | cons x s ih =>
    simp only [List.mem_cons, not_or] at h
    rw [List.takeWhile_cons_of_pos (by simpa using Ne.symm h.1), ih h.2]

theorem position_fits {i : Nat} (h : i < 4294967296) : (BitVec.ofInt 64 (i : Int)).toNat = i := by
  rw [BitVec.toNat_ofInt]
  omega

/-- Reading by a key is reading at the position it stands for. -/
theorem valueOf_at {c : Ctx} (hc : Context c) (b : Binding) {i : Nat} (hi : i < 4294967296) {k : Key} (hk : Names c i k) :
    valueOf c b k = (b.get i >>= fromDatum) := by
  cases k with
  | parameter h => obtain ⟨p, hp⟩ := hk; exact congrArg (· >>= fromDatum) (getByParameter_at hc b hp)
  | name s =>
    obtain ⟨h0, h, p, hp, rfl⟩ := hk
    show (b.getByName c (p.name.takeWhile (· ≠ 0#8)) >>= fromDatum) = _
    rw [nul_free h0, getByName_at hc b hp]
  | position j =>
    cases hk
    show (b.get (BitVec.ofInt 64 (i : Int)).toNat >>= fromDatum) = _
    rw [position_fits hi]
  | other => cases hk

theorem fromDatum_congr {d e : Datum} (h : d.v = e.v) : fromDatum d = fromDatum e := by
  unfold fromDatum; rw [h]

/-- What is given to the library for a value. -/
theorem toDatum_some {v : Val} (h : Representable v) : ∃ d, toDatum v = .ok d ∧ fromDatum d = .ok v ∧
    ∀ c i, Accepts c i d ↔ Takes c i v := by
  have key := C132_value_partial h
  cases hd : toDatum v with
  | err e => rw [hd] at key; cases key
  | ub => rw [hd] at key; cases key
  | ok d =>
    rw [hd] at key
    refine ⟨d, rfl, key, fun c i => ?_⟩
    cases v with
    | str s =>
      cases hd
      have hs := nul_free h
      constructor
      · intro ha t ht
        cases ht
        obtain ⟨h, p, h1, h2⟩ := ha rfl
        exact ⟨h, p, h1, hs ▸ h2⟩
      · intro ha _
        obtain ⟨h, p, h1, h2⟩ := ha s rfl
        exact ⟨h, p, h1, by show Legal p (.str (some (s.takeWhile (· ≠ 0#8)))); rw [hs]; exact h2⟩
    | other => cases h
    | _ => cases hd; exact ⟨fun _ s hs => (by cases hs), fun _ ht => (by cases ht)⟩

theorem giveAll_some : ∀ {vs : List Val}, (∀ v ∈ vs, Representable v) → ∃ ds, giveAll vs = .ok ds ∧ ds.length = vs.length ∧
    ∀ (i : Nat) v d, vs[i]? = some v → ds[i]? = some d → toDatum v = .ok d
  | [], _ => ⟨[], rfl, rfl, nofun⟩
  | v :: vs, h => by
    obtain ⟨d, h1, -⟩ := toDatum_some (h v List.mem_cons_self)
    obtain ⟨ds, h2, h3, h4⟩ := giveAll_some fun w hw => h w (List.mem_cons_of_mem _ hw)
    refine ⟨d :: ds, ?_, by simp [h3], fun i x e hx he => ?_⟩
    · unfold giveAll; rw [h1, h2]; rfl
    · cases i with
      | zero => simp at hx he; rw [← hx, ← he]; exact h1
      | succ i => exact h4 i x e (by simpa using hx) (by simpa using he)

theorem readAll_iff : ∀ (ds : List Datum) (vs : List Val),
    readAll ds = .ok vs ↔ vs.length = ds.length ∧ ∀ (i : Nat) v d, vs[i]? = some v → ds[i]? = some d → fromDatum d = .ok v
  | [], vs => by
    constructor
    · intro h; cases h; exact ⟨rfl, nofun⟩
    · rintro ⟨h, -⟩; rw [List.length_eq_zero_iff.1 h]; rfl
  | d :: ds, vs => by
    have ih := readAll_iff ds
    unfold readAll
    constructor
    · intro h
      obtain ⟨v, h1, h⟩ := bind_eq_ok h
      obtain ⟨ws, h2, h⟩ := bind_eq_ok h
      cases h
      obtain ⟨h3, h4⟩ := (ih ws).1 h2
      refine ⟨by simp [h3], fun i x e hx he => ?_⟩
      cases i with
      | zero => simp at hx he; rw [← hx, ← he]; exact h1
      | succ i => exact h4 i x e (by simpa using hx) (by simpa using he)
    · rintro ⟨h1, h2⟩
      cases vs with
      | nil => cases h1
      | cons v vs =>
        rw [h2 0 v d rfl rfl, Out.bind_ok, (ih vs).2 ⟨by simpa using h1, fun i x e hx he =>
          h2 (i + 1) x e (by simpa using hx) (by simpa using he)⟩]
        rfl

end CCS.Py

namespace CCS.Props
open CCS CCS.Spec

section
open CCS.Py CCS.Py.Spec
variable (jen : Bytes → BitVec 32) (little : Bool)

/-- **C143** Python reads, by parameter, by name or by position, the value at that position. -/
theorem C143_python_get {c : Ctx} (hc : Context c) {b : Binding} (hf : FitsIn b.values.length c) {i : Nat} {d : Datum}
    (hd : b.values[i]? = some d) {k : Key} (hk : Names c i k) : Py.valueOf c b k = Py.fromDatum d := by
  have hi := (List.getElem?_eq_some_iff.1 hd).1
  have := hf.1
  have := hf.2
  rw [valueOf_at hc b (by omega) hk, get_of_some hd]
  rfl

/-- **C143** (partial) A value set from Python by parameter or by position is read back by parameter, by name or by position, and the
other values stay; a text that the parameter does not have is refused, and then nothing changes.
Missing: setting by name, see `C143_python_name_crashes`. -/
theorem C143_python_set_partial {c : Ctx} (hc : Context c) (b : Binding) (hf : FitsIn b.values.length c) {i : Nat}
    (hi : i < b.values.length) {k : Key} (hk : Names c i k) (hn : ∀ s, k ≠ .name s) {v : Py.Val} (hv : Py.Spec.Representable v) :
    (Py.Spec.Takes c i v → (Py.setValue jen little c b k v).2 = .ok () ∧
      (∀ k', Names c i k' → Py.valueOf c (Py.setValue jen little c b k v).1 k' = .ok v) ∧
      ∀ k' j, j < b.values.length → Names c j k' → j ≠ i →
        Py.valueOf c (Py.setValue jen little c b k v).1 k' = Py.valueOf c b k') ∧
    (¬ Py.Spec.Takes c i v → Py.setValue jen little c b k v = (b, .err .invalidValue)) := by
  obtain ⟨d, h1, h2, h3⟩ := Py.toDatum_some hv
  have h32 : ∀ j, j < b.values.length → j < 4294967296 := fun j hj => by have := hf.1; have := hf.2; omega
  have hset : Py.setValue jen little c b k v = b.set jen little c i d := by
    unfold Py.setValue
    rw [h1]
    cases k with
    | parameter h => obtain ⟨p, hp⟩ := hk; exact setByParameter_at jen little hc b hp d
    | name s => exact absurd rfl (hn s)
    | position j =>
      cases hk
      show b.set jen little c (BitVec.ofInt 64 (i : Int)).toNat d = _
      rw [Py.position_fits (h32 i hi)]
    | other => cases hk
  rw [hset]
  obtain ⟨-, hl, h4, h5⟩ := set_effect jen little c b i d hf
  refine ⟨fun ht => ?_, fun ht => ?_⟩
  · have ha := (h3 c i).2 ht
    refine ⟨?_, fun k' hk' => ?_, fun k' j hj hk' hji => ?_⟩
    · rcases C58_set_outcome jen little c b i d hf with h | h | h
      · exact h.1
      · omega
      · exact absurd ha h.2.2
    · obtain ⟨e, he, hev⟩ := h4 hi ha
      rw [Py.valueOf_at hc _ (h32 i hi) hk', get_of_some he]
      exact (Py.fromDatum_congr hev).trans h2
    · rw [Py.valueOf_at hc _ (h32 j hj) hk', Py.valueOf_at hc b (h32 j hj) hk',
        get_congr (h5 j fun h => hji h.1)]
  · rcases C58_set_outcome jen little c b i d hf with h | h | h
    · exact absurd ((h3 c i).1 h.2.2) ht
    · omega
    · exact h.1

/-- **C143** fails for names: setting a value by name from Python ends the program, whatever the name and the value. -/
theorem C143_python_name_crashes (c : Ctx) (b : Binding) (s : Bytes) {v : Py.Val} (hv : Py.Spec.Representable v) :
    (Py.setValue jen little c b (.name s) v).2 = .ub := by
  obtain ⟨d, h, -⟩ := Py.toDatum_some hv
  unfold Py.setValue
  rw [h]

/-- **C143** Python gets an exception, and nothing changes, for what does not stand for any position: other parameters, other names,
positions past the end and negative ones. -/
theorem C143_python_unknown {c : Ctx} (hc : Context c) (b : Binding) (hf : FitsIn b.values.length c) {k : Key}
    (hk : ∀ i, i < c.params.length → ¬ Names c i k) (hs : ∀ s, k = .name s → 0#8 ∉ s) (hr : ∀ j, k = .position j → -2 ^ 63 ≤ j ∧ j < 2 ^ 63) :
    (∃ e, Py.valueOf c b k = .err e) ∧
    ((∀ s, k ≠ .name s) → ∀ v, Py.Spec.Representable v → ∃ e, Py.setValue jen little c b k v = (b, .err e)) := by
  have hlen : ∀ {i h p}, Holds c i h p → i < c.params.length := fun hp => (List.getElem?_eq_some_iff.1 hp).1
  cases k with
  | parameter h =>
    have hno : ∀ i p, ¬ Holds c i h p := fun i p hp => hk i (hlen hp) ⟨p, hp⟩
    refine ⟨⟨.invalidParameter, ?_⟩, fun _ v hv => ?_⟩
    · show (b.getByParameter c h >>= Py.fromDatum) = _
      rw [(C58_by_name hc b).2.2 h hno]; rfl
    · obtain ⟨d, h1, -⟩ := Py.toDatum_some hv
      unfold Py.setValue
      rw [h1]
      show ∃ e, b.setByParameter jen little c h d = _
      unfold Binding.setByParameter
      rcases (context_table hc).index h with ⟨i', p', hp', -⟩ | ⟨-, hi⟩
      · exact absurd hp' (hno _ _)
      · rw [hi]; exact ⟨_, rfl⟩
  | name s =>
    refine ⟨⟨.invalidName, ?_⟩, fun h => absurd rfl (h s)⟩
    show (b.getByName c (s.takeWhile (· ≠ 0#8)) >>= Py.fromDatum) = _
    rw [Py.nul_free (hs s rfl), (C58_by_name hc b).2.1 s fun i h p hp hn => hk i (hlen hp) ⟨hs s rfl, h, p, hp, hn⟩]
    rfl
  | position j =>
    have hj := hr j rfl
    have hge : b.values.length ≤ (BitVec.ofInt 64 j).toNat := by
      have h1 := hf.1
      have h2 := hf.2
      rw [BitVec.toNat_ofInt]
      rcases Int.lt_or_le j 0 with h0 | h0
      · omega
      · have : ¬ (j.toNat < c.params.length) := fun h => hk j.toNat h (show j = (j.toNat : Int) by omega)
        omega
    refine ⟨⟨.outOfBounds, ?_⟩, fun _ v hv => ?_⟩
    · show (b.get (BitVec.ofInt 64 j).toNat >>= Py.fromDatum) = _
      rcases C58_get b (BitVec.ofInt 64 j).toNat with ⟨h, -⟩ | ⟨-, h⟩
      · omega
      · rw [h]; rfl
    · obtain ⟨d, h1, -⟩ := Py.toDatum_some hv
      unfold Py.setValue
      rw [h1]
      show ∃ e, b.set jen little c (BitVec.ofInt 64 j).toNat d = _
      unfold Binding.set
      rw [if_pos hge]
      exact ⟨_, rfl⟩
  | other =>
    refine ⟨⟨_, rfl⟩, fun _ v hv => ?_⟩
    obtain ⟨d, h1, -⟩ := Py.toDatum_some hv
    unfold Py.setValue
    rw [h1]
    exact ⟨_, rfl⟩

/-- **C143** fails for large positions: they are taken modulo 2^64, so the one 2^64 further reads and sets the same value. -/
theorem C143_python_position_wraps (c : Ctx) (b : Binding) (i : Int) (v : Py.Val) :
    Py.valueOf c b (.position (i + 2 ^ 64)) = Py.valueOf c b (.position i) ∧
    Py.setValue jen little c b (.position (i + 2 ^ 64)) v = Py.setValue jen little c b (.position i) v := by
  have h : BitVec.ofInt 64 (i + 2 ^ 64) = BitVec.ofInt 64 i := by
    apply BitVec.eq_of_toNat_eq
    rw [BitVec.toNat_ofInt, BitVec.toNat_ofInt]
    omega
  exact ⟨by simp only [Py.valueOf, h], by simp only [Py.setValue, h]⟩

/-- **C143** fails for sets and dictionaries of Python: a configuration, features or an evaluation has no hash. -/
theorem C143_python_no_hash (b : Binding) (asked : Binding → BitVec 32) (x : BitVec 32) : Py.hashOf b asked ≠ .ok x := nofun

/-- **C143** fails for the validation of a value by Python: no parameter can be named but by its position, where it works. -/
theorem C143_python_validate {c : Ctx} (k : Key) (v x : Py.Val) (h : Py.validate jen little c k v = .ok x) : ∃ i, k = .position i := by
  cases k with
  | position i => exact ⟨i, rfl⟩
  | other =>
    have h : (Py.toDatum v >>= fun _ => Out.err .external) = .ok x := h
    cases hd : Py.toDatum v <;> rw [hd] at h <;> cases h
  | _ => cases h

/-- **C143** There, the values of the parameter are given back, and the others refused. -/
theorem C143_python_validate_position {c : Ctx} (hl : c.params.length < 4294967296) {i : Nat} {h : BitVec 64} {p : Param}
    (hp : Holds c i h p) {v : Py.Val} (hv : Py.Spec.Representable v) :
    (Legal p (Py.Spec.asValue v) → Py.validate jen little c (.position i) v = .ok v) ∧
    (¬ Legal p (Py.Spec.asValue v) → Py.validate jen little c (.position i) v = .err .invalidValue) := by
  have hi := (List.getElem?_eq_some_iff.1 hp).1
  obtain ⟨d, h1, h2, -⟩ := Py.toDatum_some hv
  have hd : d.v = Py.Spec.asValue v := by
    cases v with
    | str s => cases h1; show Value.str (some (s.takeWhile (· ≠ 0#8))) = _; rw [Py.nul_free hv]; rfl
    | other => cases hv
    | _ => cases h1; rfl
  have hval : Py.validate jen little c (.position i) v = (c.validate jen little i d >>= Py.fromDatum) := by
    show (Py.toDatum v >>= fun d => c.validate jen little (BitVec.ofInt 64 (i : Int)).toNat d >>= Py.fromDatum) = _
    rw [h1, Py.position_fits (by omega)]
    rfl
  rw [hval, ← hd]
  obtain ⟨g1, g2⟩ := validate_at jen little hl hp d
  refine ⟨fun h => ?_, fun h => by rw [g2 h]; rfl⟩
  obtain ⟨e, h3, h4⟩ := g1 h
  rw [h3]
  exact (Py.fromDatum_congr h4).trans h2

/-- **C143** All values at once are what is read one by one. -/
theorem C143_python_values {c : Ctx} (hc : Context c) {b : Binding} (hf : FitsIn b.values.length c) (vs : List Py.Val) :
    Py.valuesOf b = .ok vs ↔
      vs.length = b.values.length ∧ ∀ i v, vs[i]? = some v → ∀ k, Names c i k → Py.valueOf c b k = .ok v := by
  have h1 : Py.valuesOf b = Py.readAll b.values := by
    unfold Py.valuesOf
    split
    · rename_i h; rw [List.length_eq_zero_iff.1 h]; rfl
    · unfold Binding.getAll
      simp
  rw [h1, Py.readAll_iff]
  refine ⟨fun ⟨h2, h3⟩ => ⟨h2, fun i v hv k hk => ?_⟩, fun ⟨h2, h3⟩ => ⟨h2, fun i v d hv hd => ?_⟩⟩
  · obtain ⟨hi, -⟩ := List.getElem?_eq_some_iff.1 hv
    have hd : b.values[i]? = some b.values[i] := List.getElem?_eq_getElem (h2 ▸ hi)
    rw [C143_python_get hc hf hd hk]
    exact h3 i v _ hv hd
  · rw [← C143_python_get hc hf hd (k := .position i) rfl]
    exact h3 i v hv _ rfl

/-- **C143** All values set at once from Python are read back. -/
theorem C143_python_set_values {c : Ctx} (hc : Context c) (b : Binding) (hf : FitsIn b.values.length c) {vs : List Py.Val}
    (hl : vs.length = b.values.length) (hv : ∀ v ∈ vs, Py.Spec.Representable v) (ht : ∀ (i : Nat) v, vs[i]? = some v → Py.Spec.Takes c i v) :
    (Py.setValues jen little c b vs).2 = .ok () ∧ Py.valuesOf (Py.setValues jen little c b vs).1 = .ok vs := by
  obtain ⟨ds, h1, h2, h3⟩ := Py.giveAll_some hv
  have hs : Py.setValues jen little c b vs = b.setAll jen little c ds := by unfold Py.setValues; rw [h1]
  have ha : ∀ (j : Nat) e, ds[j]? = some e → Accepts c j e := fun j e he => by
    obtain ⟨hj, -⟩ := List.getElem?_eq_some_iff.1 he
    have hx : vs[j]? = some vs[j] := List.getElem?_eq_getElem (h2 ▸ hj)
    obtain ⟨d, g1, -, g2⟩ := Py.toDatum_some (hv _ (List.mem_of_getElem? hx))
    have := h3 j _ e hx he
    rw [g1] at this
    cases this
    exact (g2 c j).2 (ht j _ hx)
  rw [hs]
  obtain ⟨-, h4, h5, -⟩ := step_effect jen little hc b (.setAll ds) hf
  have h4 : (b.setAll jen little c ds).1.values.length = b.values.length := h4
  have hok : (b.setAll jen little c ds).2 = .ok () := by
    unfold Binding.setAll
    rw [if_neg (by simp; omega)]
    obtain ⟨vs', r, he, -, -, hr⟩ := setLoop_spec jen little c hf.2 ds b.values 0 (by omega) hf.1
    rw [he]
    rcases hr with ⟨hr, -⟩ | ⟨-, k, dk, hk, hn, -⟩
    · exact hr
    · exact absurd (ha k dk hk) (by simpa using hn)
  refine ⟨hok, ?_⟩
  have hf' : FitsIn (b.setAll jen little c ds).1.values.length c := by rw [h4]; exact hf
  rw [C143_python_values hc hf']
  refine ⟨by omega, fun i v hi k hk => ?_⟩
  obtain ⟨hi', -⟩ := List.getElem?_eq_some_iff.1 hi
  have hd : ds[i]? = some ds[i] := List.getElem?_eq_getElem (h2 ▸ hi')
  obtain ⟨e, he, hev⟩ := h5 i _ (.all (by omega) hd fun j e _ hj => ha j e hj)
  rw [C143_python_get hc hf' he hk, Py.fromDatum_congr hev]
  obtain ⟨d, g1, g2, -⟩ := Py.toDatum_some (hv _ (List.mem_of_getElem? hi))
  have := h3 i v _ hi hd
  rw [g1] at this
  cases this
  exact g2

/-- **C143** The dictionary of a configuration gives each name its value, if the space has not been given parameters since then. -/
theorem C143_python_asdict {c : Ctx} (hc : Context c) {b : Binding} (hl : b.values.length = c.params.length) {vs : List Py.Val}
    (h : Py.valuesOf b = .ok vs) (hv : vs.length = b.values.length) : ∃ d, Py.asDict c b = .ok d ∧ Py.Spec.Pairs c vs d := by
  refine ⟨(c.params.map (·.2.name)).zip vs, ?_, ?_, ?_, fun i x p v hp hi => ?_⟩
  · unfold Py.asDict
    rw [h]
    exact if_neg (by omega)
  · rw [List.map_fst_zip (by simp; omega)]
    exact (context_table hc).names
  · simp; omega
  · refine List.mem_of_getElem? (i := i) ?_
    rw [List.getElem?_zip_eq_some]
    exact ⟨by rw [List.getElem?_map, hp]; rfl, hi⟩

/-- **C143** fails if the space has: there is no dictionary any more. -/
theorem C143_python_asdict_grown {c : Ctx} {b : Binding} (hl : b.values.length < c.params.length) {vs : List Py.Val}
    (h : Py.valuesOf b = .ok vs) (hv : vs.length = b.values.length) : Py.asDict c b = .err .external := by
  unfold Py.asDict
  rw [h]
  exact if_pos (by omega)

end

/-- Meets the hypotheses: the integers of [0, 10) and the list "1, 2", and a text refused by both. -/
example : Py.Spec.Names exCtx 1 (.name [98#8]) ∧ Py.Spec.Names exCtx 1 (.parameter 2#64) ∧ Py.Spec.Takes exCtx 1 (.int 2) ∧
    ¬ Py.Spec.Takes exCtx 1 (.str [65#8]) := by
  have h1 : Holds exCtx 1 2#64 (exParam 2#64) := by unfold Holds; decide +kernel
  refine ⟨⟨by decide, _, _, h1, rfl⟩, ⟨_, h1⟩, nofun, fun h => ?_⟩
  obtain ⟨h, p, hp, hl⟩ := h _ rfl
  have : (h, p) = (2#64, exParam 2#64) := Option.some.inj (hp.symm.trans h1)
  cases this
  have hl' : Value.str (some [65#8]) ∈ [Value.int 1#64, Value.int 2#64] := hl
  exact absurd hl' (by decide)

example : Py.asDict exCtx exBinding = .ok [([97#8], .int 0), ([98#8], .int 1)] ∧
    Py.valueOf exCtx (Py.setValue exJen true exCtx exBinding (.parameter 2#64) (.int 2)).1 (.name [98#8]) = .ok (.int 2) := by
  decide +kernel

end CCS.Props

namespace CCS.Rb
open CCS CCS.Spec CCS.Rb.Spec CCS.Props

theorem toDatum_plain {v : Val} (h : Representable v) (hp : Plain v) : ∃ d, toDatum v = .ok d ∧
    (∀ (e : Datum) (r : Refs), e.v = d.v → ∃ w, fromDatum r e = .ok (w, r) ∧ same w v = true) ∧ ∀ c i, Accepts c i d ↔ Takes c i v := by
  obtain ⟨d, h1, h2, -⟩ := toDatum_ok h
  refine ⟨d, h1, fun e r he => ?_, fun c i => ?_⟩
  · obtain ⟨w, r', h3, h4, -⟩ := fromDatum_image (r0 := r) h (fun _ => Nat.le_refl _) (by cases v <;> first | trivial | cases hp) (he.trans h2)
    have : r' = r := by
      unfold fromDatum at h3
      rw [he.trans h2] at h3
      cases v <;> first | (cases h3; rfl) | cases hp
    rw [this] at h3
    exact ⟨w, h3, h4⟩
  · have hc := C137_strings_copied h1
    cases v with
    | str s b =>
      have hs : d.v = .str (some s) := by rw [h2]; show Value.str (some (s.takeWhile (· ≠ 0#8))) = _; rw [Py.nul_free h.1]
      constructor
      · intro ha t b' ht
        cases ht
        obtain ⟨h, p, g1, g2⟩ := ha (hc.1 _ hs)
        exact ⟨h, p, g1, hs ▸ g2⟩
      · intro ha _
        obtain ⟨h, p, g1, g2⟩ := ha s b rfl
        exact ⟨h, p, g1, by rw [hs]; exact g2⟩
    | other => cases h
    | obj o => cases hp
    | ident o => cases hp
    | int i =>
      refine ⟨fun _ s b hs => (by cases hs), fun _ ht => ?_⟩
      have h1 : (int64 i >>= fun n => Out.ok ({ v := .int n } : Datum)) = .ok d := h1
      rw [int64, if_pos (show -2 ^ 63 ≤ i ∧ i < 2 ^ 63 from h)] at h1
      cases h1
      cases ht
    | _ => cases h1; exact ⟨fun _ s b hs => (by cases hs), fun _ ht => (by cases ht)⟩

theorem giveAll_some : ∀ {vs : List Val}, (∀ v ∈ vs, Representable v ∧ Plain v) → ∃ ds, giveAll vs = .ok ds ∧ ds.length = vs.length ∧
    ∀ (i : Nat) v d, vs[i]? = some v → ds[i]? = some d → toDatum v = .ok d
  | [], _ => ⟨[], rfl, rfl, nofun⟩
  | v :: vs, h => by
    obtain ⟨d, h1, -⟩ := toDatum_plain (h v List.mem_cons_self).1 (h v List.mem_cons_self).2
    obtain ⟨ds, h2, h3, h4⟩ := giveAll_some fun w hw => h w (List.mem_cons_of_mem _ hw)
    refine ⟨d :: ds, ?_, by simp [h3], fun i x e hx he => ?_⟩
    · unfold giveAll; rw [h1, h2]; rfl
    · cases i with
      | zero => simp at hx he; rw [← hx, ← he]; exact h1
      | succ i => exact h4 i x e (by simpa using hx) (by simpa using he)

theorem cText_free {s : Bytes} (h : 0#8 ∉ s) : cText s = .ok s := if_neg h

theorem valueOf_at {c : Ctx} (hc : Context c) (b : Binding) (r : Refs) {i : Nat} {k : Key} (hk : Names c i k)
    (hne : ∀ h, k ≠ .parameter h) : valueOf c b r k = (b.get i >>= fromDatum r) := by
  cases k with
  | parameter h => exact absurd rfl (hne h)
  | name s =>
    obtain ⟨h0, h, p, hp, rfl⟩ := hk
    show (cText p.name >>= fun s => b.getByName c s >>= fromDatum r) = _
    rw [cText_free h0, Out.bind_ok, getByName_at hc b hp]
  | symbol s =>
    obtain ⟨h0, h, p, hp, rfl⟩ := hk
    show (cText p.name >>= fun s => b.getByName c s >>= fromDatum r) = _
    rw [cText_free h0, Out.bind_ok, getByName_at hc b hp]
  | position j => cases hk; rfl
  | other => cases hk

end CCS.Rb

namespace CCS.Props
open CCS CCS.Spec

section
open CCS.Rb CCS.Rb.Spec
variable (jen : Bytes → BitVec 32) (little : Bool)

/-- **C143** (partial) Ruby reads, by name, by symbol or by position, the value at that position.
Missing: reading by parameter, see `C143_ruby_no_parameter`. -/
theorem C143_ruby_get_partial {c : Ctx} (hc : Context c) {b : Binding} {r : Refs} {i : Nat} {d : Datum}
    (hd : b.values[i]? = some d) {k : Rb.Key} (hk : Rb.Spec.Names c i k) (hp : ∀ h, k ≠ .parameter h) :
    Rb.valueOf c b r k = Rb.fromDatum r d := by
  rw [Rb.valueOf_at hc b r hk hp, get_of_some hd]
  rfl

/-- **C143** fails for parameters: Ruby never reads a value by its parameter. -/
theorem C143_ruby_no_parameter (c : Ctx) (b : Binding) (r : Refs) (h : BitVec 64) (x : Rb.Val × Refs) :
    Rb.valueOf c b r (.parameter h) ≠ .ok x := nofun

/-- **C143** A value set from Ruby by parameter, by name, by symbol or by position is read back equal, and the other values stay; a text
that the parameter does not have is refused, and then nothing changes. -/
theorem C143_ruby_set {c : Ctx} (hc : Context c) (b : Binding) (hf : FitsIn b.values.length c) (r : Refs) {i : Nat}
    (hi : i < b.values.length) {k : Rb.Key} (hk : Rb.Spec.Names c i k) {v : Rb.Val} (hv : Rb.Spec.Representable v) (hpl : Plain v) :
    (Rb.Spec.Takes c i v → (Rb.setValue jen little c b k v).2 = .ok () ∧
      (∀ k', Rb.Spec.Names c i k' → (∀ h, k' ≠ .parameter h) →
        ∃ w, Rb.valueOf c (Rb.setValue jen little c b k v).1 r k' = .ok (w, r) ∧ same w v = true) ∧
      ∀ k' j, j < b.values.length → Rb.Spec.Names c j k' → j ≠ i →
        Rb.valueOf c (Rb.setValue jen little c b k v).1 r k' = Rb.valueOf c b r k') ∧
    (¬ Rb.Spec.Takes c i v → Rb.setValue jen little c b k v = (b, .err .invalidValue)) := by
  obtain ⟨d, h1, h2, h3⟩ := Rb.toDatum_plain hv hpl
  have hset : Rb.setValue jen little c b k v = b.set jen little c i d := by
    unfold Rb.setValue
    rw [h1]
    cases k with
    | parameter h => obtain ⟨p, hp⟩ := hk; exact setByParameter_at jen little hc b hp d
    | name s =>
      obtain ⟨h0, h, p, hp, rfl⟩ := hk
      exact (if_neg h0).trans (setByName_at jen little hc b hp d)
    | symbol s =>
      obtain ⟨h0, h, p, hp, rfl⟩ := hk
      exact (if_neg h0).trans (setByName_at jen little hc b hp d)
    | position j => cases hk; rfl
    | other => cases hk
  rw [hset]
  obtain ⟨-, hl, h4, h5⟩ := set_effect jen little c b i d hf
  refine ⟨fun ht => ?_, fun ht => ?_⟩
  · have ha := (h3 c i).2 ht
    refine ⟨?_, fun k' hk' hp' => ?_, fun k' j hj hk' hji => ?_⟩
    · rcases C58_set_outcome jen little c b i d hf with h | h | h
      · exact h.1
      · omega
      · exact absurd ha h.2.2
    · obtain ⟨e, he, hev⟩ := h4 hi ha
      rw [Rb.valueOf_at hc _ r hk' hp', get_of_some he]
      exact h2 e r hev
    · by_cases hp' : ∃ h, k' = .parameter h
      · obtain ⟨h, rfl⟩ := hp'; rfl
      · have hp' : ∀ h, k' ≠ .parameter h := fun h e => hp' ⟨h, e⟩
        rw [Rb.valueOf_at hc _ r hk' hp', Rb.valueOf_at hc b r hk' hp', get_congr (h5 j fun h => hji h.1)]
  · rcases C58_set_outcome jen little c b i d hf with h | h | h
    · exact absurd ((h3 c i).1 h.2.2) ht
    · omega
    · exact h.1

/-- **C143** All values set at once from Ruby are read back equal, by name, by symbol or by position. -/
theorem C143_ruby_set_values {c : Ctx} (hc : Context c) (b : Binding) (hf : FitsIn b.values.length c) (r : Refs) {vs : List Rb.Val}
    (h0 : vs ≠ []) (hl : vs.length = b.values.length) (hv : ∀ v ∈ vs, Rb.Spec.Representable v ∧ Plain v)
    (ht : ∀ (i : Nat) v, vs[i]? = some v → Rb.Spec.Takes c i v) :
    (Rb.setValues jen little c b vs).2 = .ok () ∧ ∀ (i : Nat) v, vs[i]? = some v → ∀ k, Rb.Spec.Names c i k → (∀ h, k ≠ .parameter h) →
      ∃ w, Rb.valueOf c (Rb.setValues jen little c b vs).1 r k = .ok (w, r) ∧ same w v = true := by
  obtain ⟨ds, h1, h2, h3⟩ := Rb.giveAll_some hv
  have hs : Rb.setValues jen little c b vs = b.setAll jen little c ds := by
    unfold Rb.setValues; rw [if_neg (by rw [List.length_eq_zero_iff]; exact h0), h1]
  have ha : ∀ (j : Nat) e, ds[j]? = some e → Accepts c j e := fun j e he => by
    obtain ⟨hj, -⟩ := List.getElem?_eq_some_iff.1 he
    have hx : vs[j]? = some vs[j] := List.getElem?_eq_getElem (h2 ▸ hj)
    obtain ⟨g1, g2⟩ := hv _ (List.mem_of_getElem? hx)
    obtain ⟨d, g1, -, g2⟩ := Rb.toDatum_plain g1 g2
    have := h3 j _ e hx he
    rw [g1] at this
    cases this
    exact (g2 c j).2 (ht j _ hx)
  rw [hs]
  obtain ⟨-, h4, h5, -⟩ := step_effect jen little hc b (.setAll ds) hf
  refine ⟨?_, fun i v hi k hk hp => ?_⟩
  · unfold Binding.setAll
    rw [if_neg (by simp; omega)]
    obtain ⟨vs', r, he, -, -, hr⟩ := setLoop_spec jen little c hf.2 ds b.values 0 (by omega) hf.1
    rw [he]
    rcases hr with ⟨hr, -⟩ | ⟨-, k, dk, hk, hn, -⟩
    · exact hr
    · exact absurd (ha k dk hk) (by simpa using hn)
  · obtain ⟨hi', -⟩ := List.getElem?_eq_some_iff.1 hi
    have hd : ds[i]? = some ds[i] := List.getElem?_eq_getElem (h2 ▸ hi')
    obtain ⟨e, he, hev⟩ := h5 i _ (.all (by omega) hd fun j e _ hj => ha j e hj)
    have he : (b.setAll jen little c ds).1.values[i]? = some e := he
    rw [C143_ruby_get_partial hc he hk hp]
    obtain ⟨g1, g2⟩ := hv _ (List.mem_of_getElem? hi)
    obtain ⟨d, g1, g2, -⟩ := Rb.toDatum_plain g1 g2
    have := h3 i v _ hi hd
    rw [g1] at this
    cases this
    exact g2 e r hev

/-- **C143** From Ruby, a value is validated by parameter, by name, by symbol or by position: the values of the parameter are given back
equal, and the others refused. -/
theorem C143_ruby_validate {c : Ctx} (hc : Context c) (hl : c.params.length < 4294967296) {i : Nat} {h : BitVec 64} {p : Param}
    (hp : Holds c i h p) (r : Refs) {k : Rb.Key} (hk : Rb.Spec.Names c i k) {v : Rb.Val} (hv : Rb.Spec.Representable v) (hpl : Plain v) :
    (Legal p (Rb.Spec.asValue v) → ∃ w, Rb.validate jen little c r k v = .ok (w, r) ∧ same w v = true) ∧
    (¬ Legal p (Rb.Spec.asValue v) → Rb.validate jen little c r k v = .err .invalidValue) := by
  obtain ⟨d, h1, h2, -⟩ := Rb.toDatum_plain hv hpl
  have hd : d.v = Rb.Spec.asValue v := by
    obtain ⟨d', g1, g2, -⟩ := Rb.toDatum_ok hv
    rw [h1] at g1
    cases g1
    rw [g2]
    cases v with
    | str s b => show Value.str (some (s.takeWhile (· ≠ 0#8))) = _; rw [Py.nul_free hv.1]; rfl
    | obj o => cases hpl
    | ident o => cases hpl
    | other => cases hv
    | _ => rfl
  have ht := context_table hc
  have hname : ∀ {x q}, Holds c i x q → c.indexByName q.name = .ok i := fun {x q} hq => by
    rcases ht.indexByName q.name with ⟨i', h', p', hp', hn, hi⟩ | ⟨hno, -⟩
    · rw [hi, ht.name_inj hp' hq hn]
    · exact absurd rfl (hno _ _ _ hq)
  have hval : Rb.validate jen little c r k v = (c.validate jen little i d >>= Rb.fromDatum r) := by
    unfold Rb.validate
    rw [h1, Out.bind_ok]
    cases k with
    | parameter x =>
      obtain ⟨q, hq⟩ := hk
      show (c.index x >>= _) = _
      rcases ht.index x with ⟨i', p', hp', hi⟩ | ⟨hno, -⟩
      · rw [hi, ht.handle_inj hp' hq]; rfl
      · exact absurd hq (hno _ _)
    | name s =>
      obtain ⟨n0, x, q, hq, rfl⟩ := hk
      show ((cText q.name >>= c.indexByName) >>= _) = _
      rw [Rb.cText_free n0, Out.bind_ok, hname hq]; rfl
    | symbol s =>
      obtain ⟨n0, x, q, hq, rfl⟩ := hk
      show ((cText q.name >>= c.indexByName) >>= _) = _
      rw [Rb.cText_free n0, Out.bind_ok, hname hq]; rfl
    | position j => cases hk; rfl
    | other => cases hk
  rw [hval, ← hd]
  obtain ⟨g1, g2⟩ := validate_at jen little hl hp d
  refine ⟨fun h => ?_, fun h => by rw [g2 h]; rfl⟩
  obtain ⟨e, h3, h4⟩ := g1 h
  rw [h3]
  exact h2 e r h4

/-- **C143** The dictionary of a configuration in Ruby gives each name the value that is read by that name, and `nil` to parameters that
the space was given since then. -/
theorem C143_ruby_to_h {c : Ctx} (hc : Context c) {b : Binding} (hf : FitsIn b.values.length c) {r r' : Refs} {d : List (Bytes × Rb.Val)}
    (h : Rb.toH c b r = .ok (d, r')) : (d.map (·.1)).Nodup ∧ d.length = c.params.length ∧
      ∀ i x p, Holds c i x p → ∃ v, (p.name, v) ∈ d ∧
        (∀ e, b.values[i]? = some e → ∃ r1 r2, Rb.fromDatum r1 e = .ok (v, r2)) ∧ (b.values.length ≤ i → v = .nil) := by
  have hread : ∀ (ds : List Datum) (r r' : Refs) (vs : List Rb.Val), Rb.readAll r ds = .ok (vs, r') →
      vs.length = ds.length ∧ ∀ (i : Nat) e, ds[i]? = some e → ∃ v r1 r2, vs[i]? = some v ∧ Rb.fromDatum r1 e = .ok (v, r2) := by
    intro ds
    induction ds with
    | nil => intro r r' vs h; cases h; exact ⟨rfl, nofun⟩
    | cons e ds ih =>
      intro r r' vs h
      obtain ⟨x, h1, h⟩ := bind_eq_ok h
      obtain ⟨y, h2, h⟩ := bind_eq_ok h
      cases h
      obtain ⟨h3, h4⟩ := ih _ _ _ h2
      refine ⟨by simp [h3], fun i e' he => ?_⟩
      cases i with
      | zero => simp at he; subst he; exact ⟨x.1, r, x.2, rfl, h1⟩
      | succ i => simpa using h4 i e' (by simpa using he)
  obtain ⟨⟨vs, r1⟩, h1, h⟩ := bind_eq_ok h
  have h2 : Rb.readAll r b.values = .ok (vs, r1) := by
    rw [← h1]
    unfold Rb.valuesOf
    split
    · rename_i h; rw [List.length_eq_zero_iff.1 h]; rfl
    · unfold Binding.getAll
      simp
  obtain ⟨h3, h4⟩ := hread _ _ _ _ h2
  have hf1 := hf.1
  cases h
  refine ⟨?_, ?_, fun i x p hp => ?_⟩
  · rw [List.map_fst_zip (by simp; omega)]
    exact (context_table hc).names
  · simp; omega
  · have hi := (List.getElem?_eq_some_iff.1 hp).1
    have hn : (c.params.map (·.2.name))[i]? = some p.name := by rw [List.getElem?_map, hp]; rfl
    rcases Nat.lt_or_ge i b.values.length with hb | hb
    · obtain ⟨v, r2, r3, hv, hfd⟩ := h4 i _ (List.getElem?_eq_getElem hb)
      refine ⟨v, List.mem_of_getElem? (i := i) ?_, fun e he => ?_, fun hge => by omega⟩
      · rw [List.getElem?_zip_eq_some]
        exact ⟨hn, by rw [List.getElem?_append_left (show i < vs.length by omega)]; exact hv⟩
      · rw [List.getElem?_eq_getElem hb] at he
        cases he
        exact ⟨r2, r3, hfd⟩
    · refine ⟨.nil, List.mem_of_getElem? (i := i) ?_, fun e he => ?_, fun _ => rfl⟩
      · rw [List.getElem?_zip_eq_some]
        refine ⟨hn, ?_⟩
        rw [List.getElem?_append_right (show vs.length ≤ i by omega), List.getElem?_replicate]
        exact if_pos (show i - vs.length < _ by simp; omega)
      · rw [List.getElem?_eq_none hb] at he
        cases he

end

example : Rb.Spec.Names exCtx 1 (.name [98#8]) ∧ Rb.Spec.Representable (.int 2) ∧ Rb.Spec.Takes exCtx 1 (.int 2) :=
  ⟨⟨by decide, 2#64, exParam 2#64, by unfold Holds; decide +kernel, rfl⟩, by unfold Rb.Spec.Representable; decide, nofun⟩

end CCS.Props
