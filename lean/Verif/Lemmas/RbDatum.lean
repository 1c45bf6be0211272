/-
Lemmas for values and maps from Ruby.
-/
import Verif.Spec.RbDatum
import Verif.Lemmas.Map
import Verif.Props.Map

namespace CCS.Rb
open CCS CCS.Spec CCS.Rb.Spec

theorem takeWhile_nul {s : Bytes} (h : 0#8 ∉ s) : s.takeWhile (· ≠ 0#8) = s := by
  induction s with
  | nil => rfl
  | cons x s ih =>
    simp only [List.mem_cons, not_or] at h
    rw [List.takeWhile_cons_of_pos (by simpa using Ne.symm h.1), ih h.2]

theorem takeWhile_stop {a b : Bytes} (h : 0#8 ∉ a) : (a ++ 0#8 :: b).takeWhile (· ≠ 0#8) = a := by
  induction a with
  | nil => rfl
  | cons x s ih =>
    simp only [List.mem_cons, not_or] at h
    rw [List.cons_append, List.takeWhile_cons_of_pos (by simpa using Ne.symm h.1), ih h.2]

theorem toInt_fits {i : Int} (h : -2 ^ 63 ≤ i ∧ i < 2 ^ 63) : (BitVec.ofInt 64 i).toInt = i := by
  rw [BitVec.toInt_ofInt, Int.bmod_def]
  split <;> omega

/-- What the library has of a value. -/
def image : Val → Value
  | .nil => .none
  | .bool b => .bool (if b then 1#64 else 0#64)
  | .int i => .int (BitVec.ofInt 64 i)
  | .float f => .float f
  | .str s _ => .str (some (s.takeWhile (· ≠ 0#8)))
  | .inactive => .inactive
  | .obj h => .obj h
  | .ident h => .obj h
  | .other => .none

theorem toDatum_ok {v : Val} (h : Representable v) : ∃ d, toDatum v = .ok d ∧ d.v = image v ∧ d.id = false := by
  cases v with
  | other => cases h
  | ident h' => cases h
  | int i => exact ⟨_, by show int64 i >>= _ = _; rw [int64, if_pos (show -2 ^ 63 ≤ i ∧ i < 2 ^ 63 from h)]; rfl, rfl, rfl⟩
  | str s b => exact ⟨_, rfl, rfl, rfl⟩
  | obj o => exact ⟨_, rfl, rfl, rfl⟩
  | _ => exact ⟨_, rfl, rfl, rfl⟩

theorem same_iff {x y : Val} (hx : Representable x) (hy : Representable y) : same x y = true ↔ image x = image y := by
  have key : ∀ a : Val, image a = image y → Representable a → same a y = true := by
    intro a h ha
    cases a <;> cases y <;>
      first
      | (cases ha; done)
      | (cases hy; done)
      | (exfalso; clear hx hy ha; cases h; done)
      | rfl
      | skip
    case bool.bool a b => cases a <;> cases b <;> first | rfl | (exfalso; revert h; decide)
    case int.int a b =>
      have := congrArg BitVec.toInt (Value.int.inj h)
      rw [toInt_fits ha, toInt_fits hy] at this
      rw [this]
      exact decide_eq_true rfl
    case float.float a b => cases h; exact decide_eq_true rfl
    case str.str a b c d =>
      have : a = c := by
        have := Option.some.inj (Value.str.inj h)
        rwa [takeWhile_nul ha.1, takeWhile_nul hy.1] at this
      exact decide_eq_true ⟨this, Or.inr ha.2⟩
    case obj.obj a b => cases h; exact decide_eq_true rfl
  refine ⟨fun h => ?_, fun h => key x h hx⟩
  by_cases hs : ∃ s b s' b', x = .str s b ∧ y = .str s' b'
  · obtain ⟨s, b, s', b', rfl, rfl⟩ := hs
    have := (of_decide_eq_true (show decide (s = s' ∧ (b = b' ∨ Ascii s)) = true from h)).1
    rw [this]
    rfl
  · have : x = y := by
      cases x <;> first
        | exact of_decide_eq_true h
        | (cases y <;> first | exact of_decide_eq_true h | exact absurd ⟨_, _, _, _, rfl, rfl⟩ hs)
    rw [this]

theorem image_not_null {v : Val} (h : Representable v) : image v ≠ .obj 0#64 := by
  cases v with
  | obj o => exact fun h1 => h (Value.obj.inj h1)
  | ident o => cases h
  | _ => nofun

/-- The value of a datum that holds the image of a value. -/
theorem fromDatum_image {v : Val} (h : Representable v) {r r0 : Refs} (hr : ∀ o, r0 o ≤ r o) (hh : Held r0 v) {d : Datum}
    (hd : d.v = image v) : ∃ w r', fromDatum r d = .ok (w, r') ∧ same w v = true ∧ ∀ o, r o ≤ r' o := by
  unfold fromDatum
  rw [hd]
  cases v with
  | nil => exact ⟨_, _, rfl, rfl, fun _ => Nat.le_refl _⟩
  | bool b => exact ⟨_, _, rfl, by cases b <;> rfl, fun _ => Nat.le_refl _⟩
  | int i => exact ⟨_, _, rfl, decide_eq_true (by rw [toInt_fits h]), fun _ => Nat.le_refl _⟩
  | float f => exact ⟨_, _, rfl, by simp [same], fun _ => Nat.le_refl _⟩
  | str s b =>
    refine ⟨_, _, rfl, ?_, fun _ => Nat.le_refl _⟩
    rw [takeWhile_nul h.1]
    exact decide_eq_true ⟨rfl, Or.inr h.2⟩
  | inactive => exact ⟨_, _, rfl, rfl, fun _ => Nat.le_refl _⟩
  | obj o =>
    have h0 : o ≠ 0#64 := h
    have h1 : ¬ r o = 0 := by
      have := hr o
      have : 0 < r0 o := hh
      omega
    refine ⟨.obj o, fun x => if x = o then r x + 1 else r x, ?_, by simp [same], fun x => ?_⟩
    · show fromHandle r o = _
      rw [fromHandle, if_neg h0, retain, if_neg h0, if_neg h1]
    · show r x ≤ if x = o then r x + 1 else r x
      split <;> omega
  | ident o => cases h
  | other => cases h

/-! ### Association lists -/

theorem eraseP_filter (x : Value) : ∀ (es : List CCS.Entry), WF es →
    es.eraseP (fun e => decide (e.key.v = x)) = es.filter (fun e => !decide (e.key.v = x))
  | [], _ => rfl
  | e :: es, h => by
    have h' : e.key.v ∉ es.map (fun e => e.key.v) ∧ WF es := List.nodup_cons.1 h
    by_cases hx : e.key.v = x
    · rw [List.eraseP_cons_of_pos (by simpa using hx), List.filter_cons_of_neg (by simpa using hx), List.filter_eq_self.2]
      intro e' he'
      have : e'.key.v ≠ x := by
        intro h2
        exact h'.1 (List.mem_map.2 ⟨e', he', by rw [h2, hx]⟩)
      simpa using this
    · rw [List.eraseP_cons_of_neg (by simpa using hx), List.filter_cons_of_pos (by simpa using hx), eraseP_filter x es h'.2]

theorem perm_moved (x y : Value) : ∀ (l : List (Value × Value)), (l.map (·.1)).Nodup → (x, y) ∈ l →
    l.Perm (l.filter (fun p => !decide (p.1 = x)) ++ [(x, y)])
  | [], _, h => by cases h
  | p :: l, hn, h => by
    have hn' := List.nodup_cons.1 (show (p.1 :: l.map (·.1)).Nodup from hn)
    by_cases hx : p.1 = x
    · have hp : p = (x, y) := by
        rcases List.mem_cons.1 h with h1 | h1
        · exact h1.symm
        · exact absurd (List.mem_map.2 ⟨_, h1, hx.symm⟩) hn'.1
      have hl : l.filter (fun p => !decide (p.1 = x)) = l := List.filter_eq_self.2 fun q hq => by
        have : q.1 ≠ x := fun h2 => hn'.1 (List.mem_map.2 ⟨q, hq, by rw [h2, hx]⟩)
        simpa using this
      rw [List.filter_cons_of_neg (by simpa using hx), hl, hp]
      exact (List.perm_append_singleton _ _).symm
    · rw [List.filter_cons_of_pos (by simpa using hx)]
      have h1 : (x, y) ∈ l := by
        rcases List.mem_cons.1 h with h1 | h1
        · exact absurd (by rw [← h1]) hx
        · exact h1
      exact (perm_moved x y l hn'.2 h1).cons p

theorem keys_eq (es : List CCS.Entry) : (es.map assoc).map (·.1) = es.map (fun e => e.key.v) := by
  rw [List.map_map]; rfl

theorem lookup_iff {es : List CCS.Entry} (h : WF es) (x y : Value) : lookup es x = some y ↔ (x, y) ∈ es.map assoc := by
  induction es with
  | nil => simp [lookup]
  | cons e es ih =>
    have h' : e.key.v ∉ es.map (fun e => e.key.v) ∧ WF es := List.nodup_cons.1 h
    by_cases hx : e.key.v = x
    · have h1 : lookup (e :: es) x = some e.value.v := by
        rw [lookup, List.find?_cons_of_pos (by simpa using hx)]; rfl
      rw [h1, List.map_cons, List.mem_cons]
      constructor
      · intro h2
        cases h2
        exact Or.inl (by rw [assoc, hx])
      · rintro (h2 | h2)
        · rw [assoc] at h2
          cases h2
          rfl
        · obtain ⟨e', he', h3⟩ := List.mem_map.1 h2
          exact absurd (List.mem_map.2 ⟨e', he', by rw [hx]; exact congrArg Prod.fst h3⟩) h'.1
    · have h1 : lookup (e :: es) x = lookup es x := by
        rw [lookup, List.find?_cons_of_neg (by simpa using hx)]; rfl
      rw [h1, ih h'.2, List.map_cons, List.mem_cons]
      refine ⟨Or.inr, ?_⟩
      rintro (h2 | h2)
      · exact absurd (congrArg Prod.fst h2).symm hx
      · exact h2

section
variable {jen : Bytes → BitVec 32} {little : Bool}

/-- The associations after a set that succeeds. -/
theorem set_assocs {m m' : MapState} {k v : Datum} (hw : WF m.entries) (hs : mapSet jen little m k v = .ret none m') :
    (m'.entries.map assoc).Perm ((m.entries.map assoc).filter (fun p => !decide (p.1 = k.v)) ++ [(k.v, v.v)]) := by
  rcases set_cases (c := none) hs with ⟨-, rfl, hl⟩ | hc
  · exact perm_moved _ _ _ (by rw [keys_eq]; exact hw) ((lookup_iff hw _ _).1 hl)
  · rcases (replace_ret rfl hc).1 with ⟨-, he⟩ | ⟨h, -⟩
    · have key : m'.entries = m.entries.filter (fun e => !decide (e.key.v = k.v)) ++ [⟨storedDatum k, storedDatum v⟩] := by
        rw [he]
        cases hf : mapFind jen little m.entries k with
        | some e =>
          rw [keyMatch_eq]
          simp only [eraseP_filter _ _ hw]
        | none =>
          rw [mapFind, keyMatch_eq, List.find?_eq_none] at hf
          rw [List.filter_eq_self.2 fun e he => by simpa using hf e he]
      rw [key, List.map_append, List.filter_map]
      simp only [assoc, storedDatum_v, List.map_cons, List.map_nil]
      exact List.Perm.refl _
    · cases h

/-- The map holds the dictionary, and the references of the program. -/
structure Mirrors (r : Refs) (m : MapState) (f : Dict) : Prop where
  wf : WF m.entries
  perm : (m.entries.map assoc).Perm (f.map fun p => (image p.1, image p.2))
  good : ∀ p ∈ f, Representable p.1 ∧ Representable p.2 ∧ Held r p.2
  refs : ∀ o, o ≠ 0#64 → r o + occurrences o m.entries ≤ m.refs o

theorem find_lookup {r : Refs} {m : MapState} {f : Dict} (h : Mirrors r m f) {k : Val} (hk : Representable k) :
    lookup m.entries (image k) = (f.find k).map image ∧ ∀ v, f.find k = some v → Representable v ∧ Held r v := by
  unfold Dict.find
  cases hf : List.find? (fun p => same p.1 k) f with
  | none =>
    refine ⟨?_, nofun⟩
    cases hl : lookup m.entries (image k) with
    | none => rfl
    | some y =>
      have := h.perm.mem_iff.1 ((lookup_iff h.wf _ _).1 hl)
      obtain ⟨p, hp, he⟩ := List.mem_map.1 this
      have h1 := (same_iff (h.good p hp).1 hk).2 (congrArg Prod.fst he)
      exact absurd h1 (List.find?_eq_none.1 hf p hp)
  | some p =>
    have hp := List.mem_of_find?_eq_some hf
    have hs := List.find?_some hf
    refine ⟨?_, fun v hv => by cases hv; exact (h.good p hp).2⟩
    refine (lookup_iff h.wf _ _).2 ?_
    exact h.perm.mem_iff.2 (List.mem_map.2 ⟨p, hp, by rw [(same_iff (h.good p hp).1 hk).1 hs]⟩)

theorem filter_images {r : Refs} {m : MapState} {f : Dict} (h : Mirrors r m f) {k : Val} (hk : Representable k) :
    (f.map fun p => (image p.1, image p.2)).filter (fun p => !decide (p.1 = image k)) =
      (f.filter fun p => !same p.1 k).map fun p => (image p.1, image p.2) := by
  rw [List.filter_map]
  refine congrArg _ (List.filter_congr fun p hp => ?_)
  have := same_iff (h.good p hp).1 hk
  show (!decide (image p.1 = image k)) = !same p.1 k
  cases hs : same p.1 k with
  | true => simp [this.1 hs]
  | false =>
    have : image p.1 ≠ image k := fun h1 => by rw [this.2 h1] at hs; cases hs
    simp [this]

/-- One operation. -/
theorem use_spec {r : Refs} {m : MapState} {f : Dict} (h : Mirrors r m f) {u : Use}
    (hu : ∀ v ∈ Spec.Use.values u, Representable v ∧ Held r v) :
    ∃ m' a, use jen little m u = .ok (m', a) ∧ sameAnswer a (f.answer u) = true ∧ Mirrors r m' (f.after u) := by
  have le : ∀ o, o ≠ 0#64 → r o ≤ m.refs o := fun o ho => by have := h.refs o ho; omega
  cases u with
  | set k v =>
    obtain ⟨hk, hhk⟩ := hu k (.head _)
    obtain ⟨hv, hhv⟩ := hu v (.tail _ (.head _))
    obtain ⟨dk, k1, k2, k3⟩ := toDatum_ok hk
    obtain ⟨dv, v1, v2, v3⟩ := toDatum_ok hv
    have held : ∀ {x : Val} {d : Datum}, Held r x → d.v = image x → Representable x → ∀ o, o ≠ 0#64 → holds o d ≤ m.refs o := by
      intro x d hx hd hrx o ho
      unfold holds
      split
      · rename_i hc
        rw [hc.1] at hd
        cases x <;> simp only [image, reduceCtorEq] at hd
        · cases hd
          have : 0 < r o := hx
          have := le o ho
          omega
        · cases hrx
      · omega
    have hd : mapStep jen little m (.set dk dv) ≠ .ub := by
      apply step_defined
      · intro o ho; have := h.refs o ho; omega
      · intro d hd o ho
        simp only [MapOp.args, List.mem_cons, List.not_mem_nil, or_false] at hd
        rcases hd with rfl | rfl
        · exact held hhk k2 hk o ho
        · exact held hhv v2 hv o ho
    cases hs : mapStep jen little m (.set dk dv) with
    | ub => exact absurd hs hd
    | ret c m' =>
      have hc : c = none := by
        cases c with
        | none => rfl
        | some e =>
          obtain ⟨-, -, h1 | h1⟩ := CCS.Props.C24_set_refused_only_null jen little m _ _ _ _ hs nofun
          · exact absurd (k2 ▸ h1.1) (image_not_null hk)
          · exact absurd (v2 ▸ h1.1) (image_not_null hv)
      subst hc
      have hs' : mapSet jen little m dk dv = .ret none m' := hs
      refine ⟨m', .done, ?_, rfl, (step_lookup h.wf hs).1, ?_, ?_, ?_⟩
      · simp only [use, k1, v1]
        show (match mapSet jen little m dk dv with
          | .ret none m' => Out.ok (m', Answer.done)
          | .ret (some e) _ => .err e
          | .ub => .ub) = _
        rw [hs']
      · refine (set_assocs h.wf hs').trans ?_
        rw [k2, v2]
        show List.Perm _ (List.map _ (List.filter (fun p => !same p.1 k) f ++ [(k, v)]))
        rw [List.map_append, ← filter_images h hk]
        exact (h.perm.filter _).append_right _
      · intro p hp
        rcases List.mem_append.1 (show p ∈ List.filter (fun p => !same p.1 k) f ++ [(k, v)] from hp) with h1 | h1
        · exact h.good p (List.mem_filter.1 h1).1
        · rw [List.mem_singleton.1 h1]
          exact ⟨hk, hv, hhv⟩
      · intro o ho
        have := step_balance hs o ho
        have := h.refs o ho
        omega
  | get k =>
    obtain ⟨hk, -⟩ := hu k (.head _)
    obtain ⟨dk, k1, k2, -⟩ := toDatum_ok hk
    obtain ⟨f1, f2⟩ := find_lookup h hk
    rw [← k2, ← mapFind_lookup (jen := jen) (little := little)] at f1
    have key : ∃ v, (f.find k).getD .nil = v ∧ Representable v ∧ Held r v ∧ (mapGet jen little m dk).v = image v := by
      unfold mapGet
      cases hf : f.find k with
      | none =>
        rw [hf] at f1
        refine ⟨.nil, rfl, trivial, trivial, ?_⟩
        cases hm : mapFind jen little m.entries dk with
        | none => rfl
        | some e => rw [hm] at f1; cases f1
      | some v =>
        rw [hf] at f1
        refine ⟨v, rfl, (f2 v hf).1, (f2 v hf).2, ?_⟩
        cases hm : mapFind jen little m.entries dk with
        | none => rw [hm] at f1; cases f1
        | some e => rw [hm] at f1; exact Option.some.inj f1
    obtain ⟨v, e1, e2, e3, e4⟩ := key
    obtain ⟨w, r', g1, g2, g3⟩ := fromDatum_image (r := m.refs)
      (r0 := fun o => if o = 0#64 then 0 else r o) e2 (fun o => by
        show (if o = 0#64 then 0 else r o) ≤ _
        split
        · omega
        · exact le o (by assumption)) (by
        cases v <;> first | trivial | skip
        rename_i o
        show 0 < if o = 0#64 then 0 else r o
        rw [if_neg (show o ≠ 0#64 from e2)]
        exact e3) e4
    refine ⟨{ m with refs := r' }, .value w, ?_, ?_, h.wf, h.perm, h.good, fun o ho => ?_⟩
    · simp only [use, k1]
      show (fromDatum m.refs (mapGet jen little m dk) >>= fun x => Out.ok (({ m with refs := x.2 } : MapState), Answer.value x.1)) = _
      rw [g1]
      rfl
    · show same w ((f.find k).getD .nil) = true
      rw [e1, g2]
    · have := h.refs o ho
      have := g3 o
      show r o + occurrences o m.entries ≤ r' o
      omega
  | has k =>
    obtain ⟨hk, -⟩ := hu k (.head _)
    obtain ⟨dk, k1, k2, -⟩ := toDatum_ok hk
    obtain ⟨f1, -⟩ := find_lookup h hk
    rw [← k2, ← mapFind_lookup (jen := jen) (little := little)] at f1
    refine ⟨m, .flag (mapExist jen little m dk), by simp only [use, k1]; rfl, ?_, h⟩
    have := congrArg Option.isSome f1
    simp only [Option.isSome_map] at this
    exact decide_eq_true (by rw [mapExist, this]; rfl)
  | size =>
    refine ⟨m, _, rfl, ?_, h⟩
    have := h.perm.length_eq
    simp only [List.length_map] at this
    exact decide_eq_true (by rw [this]; rfl)

/-- A program. -/
theorem uses_spec {r : Refs} : ∀ {us : List Use} {m : MapState} {f : Dict}, Mirrors r m f →
    (∀ u ∈ us, ∀ v ∈ Spec.Use.values u, Representable v ∧ Held r v) →
    ∃ m' as, uses jen little m us = .ok (m', as) ∧ SameAnswers as (f.answers us)
  | [], m, f, _, _ => ⟨m, [], rfl, trivial⟩
  | u :: us, m, f, h, hu => by
    obtain ⟨m1, a, h1, h2, h3⟩ := use_spec h (hu u (.head _))
    obtain ⟨m2, as, h4, h5⟩ := uses_spec h3 fun x hx => hu x (.tail _ hx)
    refine ⟨m2, a :: as, ?_, h2, h5⟩
    rw [uses, h1]
    show (uses jen little m1 us >>= fun y => Out.ok (y.1, a :: y.2)) = _
    rw [h4]
    rfl

end

end CCS.Rb
