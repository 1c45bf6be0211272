import Verif.Spec.Map
import Verif.Lemmas.Datum

/-! Helper lemmas about maps. -/

namespace CCS

open Spec

section
variable {jen : Bytes → BitVec 32} {little : Bool}

theorem keyMatch_iff (k : Datum) (e : Entry) : keyMatch jen little k e = true ↔ e.key.v = k.v := by
  unfold keyMatch
  rw [Bool.and_eq_true, decide_eq_true_iff, decide_eq_true_iff, datumCmp_eq_iff]
  exact ⟨fun h => h.2, fun h => ⟨by rw [h], h⟩⟩

theorem keyMatch_eq (k : Datum) : keyMatch jen little k = fun e => decide (e.key.v = k.v) := by
  funext e
  rw [Bool.eq_iff_iff, keyMatch_iff, decide_eq_true_iff]

/-- The association of a key. -/
def lookup (es : List Entry) (x : Value) : Option Value :=
  (es.find? (fun e => decide (e.key.v = x))).map (fun e => e.value.v)

/-- Keys are pairwise different. -/
def WF (es : List Entry) : Prop := (es.map (fun e => e.key.v)).Nodup

theorem mapFind_lookup (es : List Entry) (k : Datum) :
    (mapFind jen little es k).map (fun e => e.value.v) = lookup es k.v := by
  rw [mapFind, keyMatch_eq, lookup]

theorem lookup_append (es : List Entry) (e : Entry) (x : Value) :
    lookup (es ++ [e]) x = (lookup es x).or (if x = e.key.v then some e.value.v else none) := by
  unfold lookup
  rw [List.find?_append]
  cases h : es.find? (fun e => decide (e.key.v = x)) with
  | some a => simp
  | none =>
    by_cases hx : x = e.key.v
    · simp [hx]
    · have : ¬ e.key.v = x := fun h => hx h.symm
      simp [hx, this]

theorem lookup_none_iff (es : List Entry) (x : Value) :
    lookup es x = none ↔ x ∉ es.map (fun e => e.key.v) := by
  unfold lookup
  simp

theorem lookup_erase (es : List Entry) (hwf : WF es) (k : Datum) (x : Value) :
    lookup (es.eraseP (keyMatch jen little k)) x = if x = k.v then none else lookup es x := by
  rw [keyMatch_eq]
  induction es with
  | nil => simp [lookup]
  | cons e es ih =>
    unfold WF at hwf
    rw [List.map_cons, List.nodup_cons] at hwf
    by_cases he : e.key.v = k.v
    · rw [List.eraseP_cons_of_pos (by simpa using he)]
      by_cases hx : x = k.v
      · rw [if_pos hx, lookup_none_iff, hx, ← he]; exact hwf.1
      · rw [if_neg hx]
        have : ¬ e.key.v = x := fun h => hx (by rw [← h, he])
        simp [lookup, this]
    · rw [List.eraseP_cons_of_neg (by simpa using he)]
      by_cases hx : e.key.v = x
      · have : ¬ x = k.v := fun h => he (by rw [hx, h])
        rw [if_neg this]
        simp [lookup, hx]
      · have ih' := ih hwf.2
        have h1 : ∀ l, lookup (e :: l) x = lookup l x := by
          intro l; simp [lookup, hx]
        rw [h1, h1, ih']

theorem wf_erase (es : List Entry) (hwf : WF es) (p : Entry → Bool) : WF (es.eraseP p) := by
  unfold WF at *
  exact List.Nodup.sublist ((List.eraseP_sublist).map _) hwf

theorem wf_append (es : List Entry) (hwf : WF es) (e : Entry) (h : lookup es e.key.v = none) :
    WF (es ++ [e]) := by
  rw [lookup_none_iff] at h
  unfold WF at *
  rw [List.map_append, List.nodup_append]
  refine ⟨hwf, by simp, ?_⟩
  intro a ha b hb hab
  simp at hb
  subst hb hab
  exact h ha

@[simp] theorem storedDatum_v (d : Datum) : (storedDatum d).v = d.v := by
  unfold storedDatum; split <;> simp_all

@[simp] theorem holds_stored (h : BitVec 64) (d : Datum) : holds h (storedDatum d) = holds h d := by
  unfold storedDatum
  split
  · rename_i s hs
    simp [holds, hs]
  · rfl

/-! ### Reference counts of one datum -/

theorem release_ret {r r' : Refs} {d : Datum} {c : Option Err} (hc : releaseDatum r d = .ret c r')
    (h : BitVec 64) (h0 : h ≠ 0#64) : r' h + holds h d = r h := by
  unfold releaseDatum at hc
  split at hc
  · rename_i x hx
    by_cases hid : d.id = true
    · rw [if_pos hid] at hc
      cases hc
      simp [holds, hid]
    · rw [if_neg hid] at hc
      unfold release at hc
      by_cases hz : x = 0#64
      · rw [if_pos hz] at hc
        cases hc
        have : ¬ x = h := fun e => h0 (by rw [← e, hz])
        simp [holds, hx, this]
      · rw [if_neg hz] at hc
        by_cases hr : r x = 0
        · rw [if_pos hr] at hc; cases hc
        · rw [if_neg hr] at hc
          cases hc
          by_cases hxh : h = x
          · subst hxh
            have hd : d.id = false := by simpa using hid
            simp only [holds, hx, hd, and_self, if_true]; omega
          · have : ¬ x = h := fun e => hxh e.symm
            simp [holds, hx, hxh, this]
  · rename_i hx
    cases hc
    have : ¬ d.v = .obj h := fun e => hx h e
    simp [holds, this]

theorem release_defined {r : Refs} {d : Datum} (hr : ∀ h, h ≠ 0#64 → holds h d ≤ r h) :
    releaseDatum r d ≠ .ub := by
  unfold releaseDatum
  split
  · rename_i x hx
    by_cases hid : d.id = true
    · rw [if_pos hid]; simp
    · rw [if_neg hid]
      unfold release
      by_cases hz : x = 0#64
      · rw [if_pos hz]; simp
      · rw [if_neg hz]
        have := hr x hz
        have hd : d.id = false := by simpa using hid
        simp only [holds, hx, hd, and_self, if_true] at this
        rw [if_neg (by omega)]; simp
  · simp

theorem check_ret {r r' : Refs} {d : Datum} {c : Option Err} (hc : checkDatum r d = .ret c r')
    (h : BitVec 64) (h0 : h ≠ 0#64) :
    r' h = r h + (if c = none then holds h d else 0) := by
  unfold checkDatum at hc
  split at hc
  · rename_i x hx
    by_cases hid : d.id = true
    · rw [if_pos hid] at hc
      cases hc
      simp [holds, hid]
    · rw [if_neg hid] at hc
      unfold retain at hc
      by_cases hz : x = 0#64
      · rw [if_pos hz] at hc
        cases hc
        simp
      · rw [if_neg hz] at hc
        by_cases hr : r x = 0
        · rw [if_pos hr] at hc; cases hc
        · rw [if_neg hr] at hc
          cases hc
          by_cases hxh : h = x
          · subst hxh
            have hd : d.id = false := by simpa using hid
            simp [holds, hx, hd]
          · have : ¬ x = h := fun e => hxh e.symm
            simp [holds, hx, hxh, this]
  · rename_i hx
    cases hc
    have : ¬ d.v = .obj h := fun e => hx h e
    simp [holds, this]

theorem check_defined {r : Refs} {d : Datum} (hr : ∀ h, h ≠ 0#64 → holds h d ≤ r h) :
    checkDatum r d ≠ .ub := by
  unfold checkDatum
  split
  · rename_i x hx
    by_cases hid : d.id = true
    · rw [if_pos hid]; simp
    · rw [if_neg hid]
      unfold retain
      by_cases hz : x = 0#64
      · rw [if_pos hz]; simp
      · rw [if_neg hz]
        have := hr x hz
        have hd : d.id = false := by simpa using hid
        simp only [holds, hx, hd, and_self, if_true] at this
        rw [if_neg (by omega)]; simp
  · simp

/-- Only a NULL object is refused. -/
theorem check_err {r r' : Refs} {d : Datum} {e : Err} (hc : checkDatum r d = .ret (some e) r') :
    e = .invalidObject ∧ d.v = .obj 0#64 ∧ d.id = false ∧ r' = r := by
  unfold checkDatum at hc
  split at hc
  · rename_i x hx
    by_cases hid : d.id = true
    · rw [if_pos hid] at hc; cases hc
    · rw [if_neg hid] at hc
      unfold retain at hc
      by_cases hz : x = 0#64
      · rw [if_pos hz] at hc
        cases hc
        exact ⟨rfl, by rw [hx, hz], by simpa using hid, rfl⟩
      · rw [if_neg hz] at hc
        split at hc <;> cases hc
  · cases hc

/-! ### Entries -/

theorem occurrences_append (h : BitVec 64) (es : List Entry) (e : Entry) :
    occurrences h (es ++ [e]) = occurrences h es + (holds h e.key + holds h e.value) := by
  induction es with
  | nil => simp [occurrences]
  | cons a es ih => simp only [List.cons_append, occurrences, ih]; omega

theorem occurrences_erase (h : BitVec 64) (es : List Entry) (p : Entry → Bool) (e : Entry)
    (he : es.find? p = some e) :
    occurrences h (es.eraseP p) + (holds h e.key + holds h e.value) = occurrences h es := by
  induction es with
  | nil => simp at he
  | cons a es ih =>
    by_cases ha : p a = true
    · rw [List.find?_cons_of_pos ha] at he
      cases he
      rw [List.eraseP_cons_of_pos ha]
      simp only [occurrences]; omega
    · rw [List.find?_cons_of_neg ha] at he
      rw [List.eraseP_cons_of_neg ha]
      have := ih he
      simp only [occurrences]; omega

/-- Removal: entries and counts. -/
theorem remove_ret {m m' : MapState} {k : Datum} {e : Entry} {c : Option Err}
    (hf : mapFind jen little m.entries k = some e)
    (hc : mapRemove jen little m k e = .ret c m') :
    c = none ∧ m'.entries = m.entries.eraseP (keyMatch jen little k) ∧
    ∀ h, h ≠ 0#64 → m'.refs h + occurrences h m.entries = m.refs h + occurrences h m'.entries := by
  unfold mapRemove at hc
  have aux : ∀ r, (∀ h, h ≠ 0#64 → r h + holds h e.key = m.refs h) →
      mapRemove.rest jen little m k e r = .ret c m' →
      c = none ∧ m'.entries = m.entries.eraseP (keyMatch jen little k) ∧
      ∀ h, h ≠ 0#64 → m'.refs h + occurrences h m.entries = m.refs h + occurrences h m'.entries := by
    intro r hr hc
    unfold mapRemove.rest at hc
    cases hv : releaseDatum r e.value with
    | ub => rw [hv] at hc; cases hc
    | ret c2 r2 =>
      rw [hv] at hc
      have h2 : ∀ h, h ≠ 0#64 → r2 h + occurrences h m.entries =
          m.refs h + occurrences h (m.entries.eraseP (keyMatch jen little k)) := by
        intro h h0
        have a1 := release_ret hv h h0
        have a2 := hr h h0
        have a3 := occurrences_erase h m.entries _ e hf
        omega
      cases c2 <;> (cases hc; exact ⟨rfl, rfl, h2⟩)
  cases hk : releaseDatum m.refs e.key with
  | ub => rw [hk] at hc; cases hc
  | ret c1 r1 =>
    rw [hk] at hc
    have h1 := fun h h0 => release_ret hk h h0
    cases c1 <;> exact aux r1 h1 hc

theorem holds_le_find (h : BitVec 64) (es : List Entry) (p : Entry → Bool) (e : Entry)
    (he : es.find? p = some e) : holds h e.key + holds h e.value ≤ occurrences h es := by
  have := occurrences_erase h es p e he
  omega

theorem remove_defined {m : MapState} {k : Datum} {e : Entry}
    (hf : mapFind jen little m.entries k = some e)
    (hr : ∀ h, h ≠ 0#64 → occurrences h m.entries ≤ m.refs h) :
    mapRemove jen little m k e ≠ .ub := by
  have hle := fun h => holds_le_find h m.entries _ e hf
  unfold mapRemove
  have aux : ∀ r, (∀ h, h ≠ 0#64 → holds h e.value ≤ r h) → mapRemove.rest jen little m k e r ≠ .ub := by
    intro r hr
    unfold mapRemove.rest
    cases hv : releaseDatum r e.value with
    | ub => exact absurd hv (release_defined hr)
    | ret c2 r2 => cases c2 <;> simp
  cases hk : releaseDatum m.refs e.key with
  | ub =>
    refine absurd hk (release_defined fun h h0 => ?_)
    have := hle h; have := hr h h0; omega
  | ret c1 r1 =>
    have : ∀ h, h ≠ 0#64 → holds h e.value ≤ r1 h := by
      intro h h0
      have a1 := release_ret hk h h0
      have := hle h; have := hr h h0; omega
    cases c1 <;> exact aux r1 this

/-- The entries left by `mapReplace`, and the counts. -/
theorem replace_ret {m m' : MapState} {k v : Datum} {c : Option Err} {old : Option Entry}
    (hf : mapFind jen little m.entries k = old)
    (hc : mapReplace jen little m old k v = .ret c m') :
    ((c = none ∧ m'.entries = (match old with
        | some _ => m.entries.eraseP (keyMatch jen little k)
        | none => m.entries) ++ [⟨storedDatum k, storedDatum v⟩]) ∨
     (c = some .invalidObject ∧ m'.entries = m.entries ∧
        ((k.v = .obj 0#64 ∧ k.id = false) ∨ (v.v = .obj 0#64 ∧ v.id = false)))) ∧
    ∀ h, h ≠ 0#64 → m'.refs h + occurrences h m.entries = m.refs h + occurrences h m'.entries := by
  unfold mapReplace at hc
  cases hk : checkDatum m.refs k with
  | ub => rw [hk] at hc; cases hc
  | ret c1 r1 =>
    rw [hk] at hc
    have h1 := fun h h0 => check_ret hk h h0
    cases c1 with
    | some e =>
      cases hc
      have he := check_err hk
      refine ⟨Or.inr ⟨by rw [he.1], rfl, Or.inl ⟨he.2.1, he.2.2.1⟩⟩, fun h h0 => ?_⟩
      have := h1 h h0
      simp at this
      simp only [this]
    | none =>
      simp only [Call.next_ok] at hc
      simp only [if_true] at h1
      cases hv : checkDatum r1 v with
      | ub => rw [hv] at hc; cases hc
      | ret c2 r2 =>
        rw [hv] at hc
        have h2 := fun h h0 => check_ret hv h h0
        cases c2 with
        | some e =>
          simp only [Call.next_err] at hc
          have he := check_err hv
          cases hrel : releaseDatum r2 k with
          | ub => rw [hrel] at hc; cases hc
          | ret c3 r3 =>
            rw [hrel] at hc
            have h3 := fun h h0 => release_ret hrel h h0
            have hb : ∀ h, h ≠ 0#64 → r3 h = m.refs h := by
              intro h h0
              have a1 := h1 h h0; have a2 := h2 h h0; have a3 := h3 h h0
              simp at a2; omega
            cases c3 <;>
            · cases hc
              refine ⟨Or.inr ⟨by rw [he.1], rfl, Or.inr ⟨he.2.1, he.2.2.1⟩⟩, fun h h0 => ?_⟩
              simp only [hb h h0]
        | none =>
          simp only [Call.next_ok] at hc
          simp only [if_true] at h2
          cases old with
          | none =>
            simp only [mapAppend] at hc
            cases hc
            refine ⟨Or.inl ⟨rfl, rfl⟩, fun h h0 => ?_⟩
            have a1 := h1 h h0; have a2 := h2 h h0
            simp only [occurrences_append, holds_stored]; omega
          | some e =>
            simp only at hc
            cases hrem : mapRemove jen little ⟨m.entries, r2⟩ k e with
            | ub => rw [hrem] at hc; cases hc
            | ret c3 m3 =>
              rw [hrem] at hc
              have h3 := remove_ret (m := ⟨m.entries, r2⟩) hf hrem
              obtain ⟨rfl, h3, h4⟩ := h3
              simp only [Call.next_ok, mapAppend] at hc
              cases hc
              refine ⟨Or.inl ⟨rfl, by rw [h3]⟩, fun h h0 => ?_⟩
              have a1 := h1 h h0; have a2 := h2 h h0; have a4 := h4 h h0
              simp only [occurrences_append, holds_stored] at *; omega

theorem replace_defined {m : MapState} {k v : Datum} {old : Option Entry}
    (hf : mapFind jen little m.entries k = old)
    (hr : ∀ h, h ≠ 0#64 → occurrences h m.entries ≤ m.refs h)
    (hk : ∀ h, h ≠ 0#64 → holds h k ≤ m.refs h) (hv : ∀ h, h ≠ 0#64 → holds h v ≤ m.refs h) :
    mapReplace jen little m old k v ≠ .ub := by
  unfold mapReplace
  cases hck : checkDatum m.refs k with
  | ub => exact absurd hck (check_defined hk)
  | ret c1 r1 =>
    have h1 := fun h h0 => check_ret hck h h0
    cases c1 with
    | some e => simp
    | none =>
      simp only [Call.next_ok]
      simp only [if_true] at h1
      cases hcv : checkDatum r1 v with
      | ub =>
        refine absurd hcv (check_defined fun h h0 => ?_)
        have := h1 h h0; have := hv h h0; omega
      | ret c2 r2 =>
        have h2 := fun h h0 => check_ret hcv h h0
        cases c2 with
        | some e =>
          simp only [Call.next_err]
          cases hrel : releaseDatum r2 k with
          | ub =>
            refine absurd hrel (release_defined fun h h0 => ?_)
            have := h1 h h0; have := h2 h h0; simp at this; omega
          | ret c3 r3 => cases c3 <;> simp
        | none =>
          simp only [Call.next_ok]
          simp only [if_true] at h2
          cases old with
          | none => simp [mapAppend]
          | some e =>
            simp only
            cases hrem : mapRemove jen little ⟨m.entries, r2⟩ k e with
            | ub =>
              refine absurd hrem (remove_defined (m := ⟨m.entries, r2⟩) hf fun h h0 => ?_)
              have := h1 h h0; have := h2 h h0; have := hr h h0; simp only; omega
            | ret c3 m3 => cases c3 <;> simp [mapAppend]

theorem clear_ret {r : Refs} {es : List Entry} {c : Option Err} {m' : MapState}
    (hc : mapClearLoop r es = .ret c m') :
    c = none ∧ m'.entries = [] ∧ ∀ h, h ≠ 0#64 → m'.refs h + occurrences h es = r h := by
  induction es generalizing r with
  | nil => cases hc; exact ⟨rfl, rfl, fun h _ => by simp [occurrences]⟩
  | cons e es ih =>
    unfold mapClearLoop at hc
    cases hk : releaseDatum r e.key with
    | ub => rw [hk] at hc; cases hc
    | ret c1 r1 =>
      rw [hk] at hc
      have h1 := fun h h0 => release_ret hk h h0
      have hc' : ((releaseDatum r1 e.value).next (fun r => mapClearLoop r es)
          (fun _ r => mapClearLoop r es)) = .ret c m' := by cases c1 <;> exact hc
      cases hv : releaseDatum r1 e.value with
      | ub => rw [hv] at hc'; cases hc'
      | ret c2 r2 =>
        rw [hv] at hc'
        have h2 := fun h h0 => release_ret hv h h0
        have hc'' : mapClearLoop r2 es = .ret c m' := by cases c2 <;> exact hc'
        obtain ⟨a, b, d⟩ := ih hc''
        refine ⟨a, b, fun h h0 => ?_⟩
        have a1 := h1 h h0; have a2 := h2 h h0; have a3 := d h h0
        simp only [occurrences]; omega

theorem clear_defined {r : Refs} {es : List Entry}
    (hr : ∀ h, h ≠ 0#64 → occurrences h es ≤ r h) : mapClearLoop r es ≠ .ub := by
  induction es generalizing r with
  | nil => simp [mapClearLoop]
  | cons e es ih =>
    unfold mapClearLoop
    simp only [occurrences] at hr
    cases hk : releaseDatum r e.key with
    | ub =>
      refine absurd hk (release_defined fun h h0 => ?_)
      have := hr h h0; omega
    | ret c1 r1 =>
      have h1 := fun h h0 => release_ret hk h h0
      have key : ((releaseDatum r1 e.value).next (fun r => mapClearLoop r es)
          (fun _ r => mapClearLoop r es)) ≠ .ub := by
        cases hv : releaseDatum r1 e.value with
        | ub =>
          refine absurd hv (release_defined fun h h0 => ?_)
          have := hr h h0; have := h1 h h0; omega
        | ret c2 r2 =>
          have h2 := fun h h0 => release_ret hv h h0
          have : mapClearLoop r2 es ≠ .ub := ih fun h h0 => by
            have := hr h h0; have := h1 h h0; have := h2 h h0; omega
          cases c2 <;> exact this
      cases c1 <;> exact key

/-! ### One call -/

theorem set_cases {m m' : MapState} {k v : Datum} {c : Option Err}
    (hc : mapSet jen little m k v = .ret c m') :
    (c = none ∧ m' = m ∧ lookup m.entries k.v = some v.v) ∨
    mapReplace jen little m (mapFind jen little m.entries k) k v = .ret c m' := by
  unfold mapSet at hc
  cases hf : mapFind jen little m.entries k with
  | none => rw [hf] at hc; exact Or.inr hc
  | some e =>
    rw [hf] at hc
    simp only at hc
    by_cases hv : datumCmp little v.v e.value.v = .eq
    · rw [if_pos hv] at hc
      cases hc
      left
      refine ⟨rfl, rfl, ?_⟩
      rw [← mapFind_lookup (jen := jen) (little := little), hf, (datumCmp_eq_iff _ _ _).1 hv]
      rfl
    · rw [if_neg hv] at hc
      exact Or.inr hc

theorem step_balance {m m' : MapState} {op : MapOp} {c : Option Err}
    (hc : mapStep jen little m op = .ret c m') (h : BitVec 64) (h0 : h ≠ 0#64) :
    m'.refs h + occurrences h m.entries = m.refs h + occurrences h m'.entries := by
  cases op with
  | set k v =>
    rcases set_cases hc with ⟨-, rfl, -⟩ | hc
    · rfl
    · exact (replace_ret rfl hc).2 h h0
  | del k =>
    have hc : mapDel jen little m k = .ret c m' := hc
    unfold mapDel at hc
    cases hf : mapFind jen little m.entries k with
    | none => rw [hf] at hc; cases hc; rfl
    | some e => rw [hf] at hc; exact (remove_ret hf hc).2.2 h h0
  | clear =>
    have := clear_ret hc
    have h3 := this.2.2 h h0
    rw [this.2.1]; simp only [occurrences] at *; omega

theorem step_lookup {m m' : MapState} {op : MapOp} {c : Option Err} (hwf : WF m.entries)
    (hc : mapStep jen little m op = .ret c m') :
    WF m'.entries ∧ lookup m'.entries = FMap.apply (lookup m.entries) op c := by
  cases op with
  | set k v =>
    rcases set_cases hc with ⟨rfl, rfl, hl⟩ | hc
    · refine ⟨hwf, ?_⟩
      funext x
      simp only [FMap.apply]
      by_cases hx : x = k.v
      · rw [if_pos hx, hx, hl]
      · rw [if_neg hx]
    · rcases (replace_ret rfl hc).1 with ⟨rfl, he⟩ | ⟨rfl, he, -⟩
      · cases hf : mapFind jen little m.entries k with
        | none =>
          rw [hf] at he
          simp only at he
          have hl : lookup m.entries k.v = none := by
            rw [← mapFind_lookup (jen := jen) (little := little), hf]; rfl
          rw [he]
          refine ⟨wf_append _ hwf _ (by simpa using hl), ?_⟩
          funext x
          rw [lookup_append]
          simp only [FMap.apply, storedDatum_v]
          by_cases hx : x = k.v
          · rw [if_pos hx, if_pos hx, hx, hl]; rfl
          · rw [if_neg hx, if_neg hx, Option.or_none]
        | some e =>
          rw [hf] at he
          simp only at he
          rw [he]
          have hwf' := wf_erase m.entries hwf (keyMatch jen little k)
          refine ⟨wf_append _ hwf' _ ?_, ?_⟩
          · rw [lookup_erase _ hwf]; simp
          · funext x
            rw [lookup_append, lookup_erase _ hwf]
            simp only [FMap.apply, storedDatum_v]
            by_cases hx : x = k.v
            · rw [if_pos hx, if_pos hx, if_pos hx]; rfl
            · rw [if_neg hx, if_neg hx, if_neg hx, Option.or_none]
      · rw [he]; exact ⟨hwf, rfl⟩
  | del k =>
    have hc : mapDel jen little m k = .ret c m' := hc
    unfold mapDel at hc
    cases hf : mapFind jen little m.entries k with
    | none => rw [hf] at hc; cases hc; exact ⟨hwf, rfl⟩
    | some e =>
      rw [hf] at hc
      obtain ⟨rfl, he, -⟩ := remove_ret hf hc
      rw [he]
      refine ⟨wf_erase _ hwf _, ?_⟩
      funext x
      rw [lookup_erase _ hwf]; rfl
  | clear =>
    obtain ⟨rfl, he, -⟩ := clear_ret hc
    rw [he]
    exact ⟨by simp [WF], rfl⟩

theorem run_lookup {m m' : MapState} {ops : List MapOp} {cs : List (Option Err)}
    (hwf : WF m.entries) (hr : Call.run (mapStep jen little) m ops = some (cs, m')) :
    WF m'.entries ∧ lookup m'.entries = FMap.history (lookup m.entries) (ops.zip cs) := by
  induction ops generalizing m cs with
  | nil => cases hr; exact ⟨hwf, rfl⟩
  | cons op ops ih =>
    unfold Call.run at hr
    cases hs : mapStep jen little m op with
    | ub => rw [hs] at hr; cases hr
    | ret c m1 =>
      rw [hs] at hr
      simp only at hr
      cases hr' : Call.run (mapStep jen little) m1 ops with
      | none => rw [hr'] at hr; cases hr
      | some p =>
        rw [hr'] at hr
        cases hr
        obtain ⟨w, l⟩ := step_lookup hwf hs
        have := ih w hr'
        rw [l] at this
        exact this

theorem run_balance {m m' : MapState} {ops : List MapOp} {cs : List (Option Err)}
    (hr : Call.run (mapStep jen little) m ops = some (cs, m')) (h : BitVec 64) (h0 : h ≠ 0#64) :
    m'.refs h + occurrences h m.entries = m.refs h + occurrences h m'.entries := by
  induction ops generalizing m cs with
  | nil => cases hr; rfl
  | cons op ops ih =>
    unfold Call.run at hr
    cases hs : mapStep jen little m op with
    | ub => rw [hs] at hr; cases hr
    | ret c m1 =>
      rw [hs] at hr
      simp only at hr
      cases hr' : Call.run (mapStep jen little) m1 ops with
      | none => rw [hr'] at hr; cases hr
      | some p =>
        rw [hr'] at hr
        cases hr
        have a1 := step_balance hs h h0
        have a2 := ih hr'
        omega

theorem step_defined {m : MapState} {op : MapOp}
    (hr : ∀ h, h ≠ 0#64 → occurrences h m.entries ≤ m.refs h)
    (ha : ∀ d ∈ MapOp.args op, ∀ h, h ≠ 0#64 → holds h d ≤ m.refs h) :
    mapStep jen little m op ≠ .ub := by
  cases op with
  | set k v =>
    have hk := ha k (by simp [MapOp.args])
    have hv := ha v (by simp [MapOp.args])
    show mapSet jen little m k v ≠ .ub
    unfold mapSet
    cases hf : mapFind jen little m.entries k with
    | none => exact replace_defined hf hr hk hv
    | some e =>
      simp only
      split
      · simp
      · exact replace_defined hf hr hk hv
  | del k =>
    show mapDel jen little m k ≠ .ub
    unfold mapDel
    cases hf : mapFind jen little m.entries k with
    | none => simp
    | some e => exact remove_defined hf hr
  | clear => exact clear_defined hr

end

/-! ### Serialization -/

theorem plain_writable {v : Value} (h : Plain v) : v.Writable := by
  cases v with
  | str s => obtain ⟨t, rfl, h'⟩ := h.1 s rfl; exact h'
  | _ => trivial

theorem readBack_v {v : Value} (h : Plain v) : (readBack v).v = v := by
  cases v with
  | bool i => exact congrArg Value.bool (h.2 i rfl)
  | _ => rfl

theorem decodes_pair (little : Bool) {a b : Value} (ha : Plain a) (hb : Plain b) :
    Decodes (dePair little) (datumBytes a ++ datumBytes b) (readBack a, readBack b) :=
  decodes_bind (decodes_datum little a (plain_writable ha))
    (decodes_bind_pure (decodes_datum little b (plain_writable hb)) rfl)

theorem readBack_obj_id (v : Value) (h : BitVec 64) : holds h (readBack v) = 0 := by
  cases v <;> simp [readBack, holds]

/-- Filling a map with new keys appends them in order and does not touch reference counts. -/
theorem fill_new (jen : Bytes → BitVec 32) (little : Bool) (es : List Entry) (m : MapState)
    (hp : ∀ e ∈ es, Plain e.key.v ∧ Plain e.value.v) (hwf : WF (m.entries ++ es)) :
    ∃ m', mapFill jen little m (es.map fun e => (readBack e.key.v, readBack e.value.v)) = .ok m' ∧
      m'.refs = m.refs ∧ m'.entries.map assoc = m.entries.map assoc ++ es.map assoc := by
  induction es generalizing m with
  | nil => exact ⟨m, rfl, rfl, by simp⟩
  | cons e es ih =>
    have hk := (hp e (by simp)).1
    have hv := (hp e (by simp)).2
    have hset : mapSet jen little m (readBack e.key.v) (readBack e.value.v) =
        .ret none ⟨m.entries ++ [⟨storedDatum (readBack e.key.v), storedDatum (readBack e.value.v)⟩],
          m.refs⟩ := by
      have hf : mapFind jen little m.entries (readBack e.key.v) = none := by
        rw [mapFind, keyMatch_eq, List.find?_eq_none]
        intro x hx
        rw [readBack_v hk, decide_eq_true_iff]
        intro he
        unfold WF at hwf
        rw [List.map_append, List.nodup_append] at hwf
        exact hwf.2.2 _ (List.mem_map_of_mem hx) _ (List.mem_map_of_mem (List.mem_cons_self)) he
      have hck : ∀ (r : Refs) (v : Value), checkDatum r (readBack v) = .ret none r := by
        intro r v
        cases v <;> simp [readBack, checkDatum]
      rw [mapSet, hf]
      simp only [mapReplace, hck, Call.next_ok, mapAppend]
    have hwf' : WF ((m.entries ++ [⟨storedDatum (readBack e.key.v), storedDatum (readBack e.value.v)⟩])
        ++ es) := by
      unfold WF at *
      simpa [readBack_v hk] using hwf
    obtain ⟨m', h1, h2, h3⟩ := ih ⟨_, m.refs⟩ (fun x hx => hp x (List.mem_cons_of_mem _ hx)) hwf'
    refine ⟨m', ?_, h2, ?_⟩
    · rw [List.map_cons, mapFill, hset]
      exact h1
    · rw [h3]
      simp [assoc, readBack_v hk, readBack_v hv]

theorem length_entries : ∀ es : List Entry, (∀ e ∈ es, Plain e.key.v ∧ Plain e.value.v) →
    szEntries es = .ok (es.flatMap fun e => datumBytes e.key.v ++ datumBytes e.value.v).length := by
  intro es
  induction es with
  | nil => intro _; rfl
  | cons e es ih =>
    intro hp
    have h1 := length_datum _ (plain_writable (hp e (by simp)).1)
    have h2 := length_datum _ (plain_writable (hp e (by simp)).2)
    have h3 := ih (fun x hx => hp x (List.mem_cons_of_mem _ hx))
    rw [szEntries, szEntry, h1, h2, h3, List.flatMap_cons, List.length_append, List.length_append]
    rfl

end CCS
