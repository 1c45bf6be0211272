/-
C132: values and maps from Python.
-/
import Verif.Spec.PyDatum
import Verif.Props.Map

namespace CCS.Props
open CCS CCS.Py CCS.Py.Spec

private theorem takeWhile_all {s : Bytes} (h : 0#8 ∉ s) : s.takeWhile (· ≠ 0#8) = s := by
  induction s with
  | nil => rfl
  | cons x s ih =>
    simp only [List.mem_cons, not_or] at h
    rw [List.takeWhile_cons_of_pos (by simpa using Ne.symm h.1), ih h.2]

private theorem takeWhile_cut {a b : Bytes} (h : 0#8 ∉ a) : (a ++ 0#8 :: b).takeWhile (· ≠ 0#8) = a := by
  induction a with
  | nil => rfl
  | cons x s ih =>
    simp only [List.mem_cons, not_or] at h
    rw [List.cons_append, List.takeWhile_cons_of_pos (by simpa using Ne.symm h.1), ih h.2]

private theorem toInt_range {i : Int} (h : -2 ^ 63 ≤ i ∧ i < 2 ^ 63) : (BitVec.ofInt 64 i).toInt = i := by
  rw [BitVec.toInt_ofInt, Int.bmod_def]
  split <;> omega

/-- **C132** (partial) A value given to the library from Python comes back the same.
Missing: integers that do not fit 64 bits, strings with a NUL, see `C132_int_wraps` and `C132_string_cut`. -/
theorem C132_value_partial {v : Val} (h : Representable v) : (toDatum v >>= fromDatum) = .ok v := by
  cases v with
  | none => rfl
  | bool b => cases b <;> rfl
  | int i => exact congrArg (Out.ok ∘ Val.int) (toInt_range h)
  | float f => rfl
  | str s => exact congrArg (Out.ok ∘ Val.str) (takeWhile_all h)
  | inactive => rfl
  | other => cases h

/-- **C132** fails for other integers: they are silently replaced by one that is different, the one of 64 bits equal to it modulo
2^64. -/
theorem C132_int_wraps {i : Int} (h : ¬ (-2 ^ 63 ≤ i ∧ i < 2 ^ 63)) : ∃ j, (toDatum (.int i) >>= fromDatum) = .ok (.int j) ∧
    j ≠ i ∧ -2 ^ 63 ≤ j ∧ j < 2 ^ 63 ∧ j % 2 ^ 64 = i % 2 ^ 64 := by
  refine ⟨(BitVec.ofInt 64 i).toInt, rfl, ?_⟩
  rw [BitVec.toInt_ofInt, Int.bmod_def]
  split <;> omega

/-- **C132** fails for strings with a NUL: they are silently cut there. -/
theorem C132_string_cut {a b : Bytes} (h : 0#8 ∉ a) : (toDatum (.str (a ++ 0#8 :: b)) >>= fromDatum) = .ok (.str a) := by
  exact congrArg (Out.ok ∘ Val.str) (takeWhile_cut h)

/-- **C132** The library copies every string that Python gives it, whose bytes belong to an object that Python may free: the value is flagged as
transient (see C135 for what the library does then). No other flag is set. -/
theorem C132_strings_copied {v : Val} {d : Datum} (h : toDatum v = .ok d) :
    (∀ s, d.v = .str s → d.transient = true) ∧ d.unpooled = false ∧ d.id = false := by
  cases v <;> cases h <;> exact ⟨(by intro s hs; first | rfl | cases hs), rfl, rfl⟩

example : ∃ d s, toDatum (.str [65#8, 66#8]) = .ok d ∧ d.v = .str s := ⟨_, _, rfl, rfl⟩

/-! ### Maps -/

private def image (v : Val) : Value :=
  match toDatum v with
  | .ok d => d.v
  | _ => .none

private theorem toDatum_ok {v : Val} (h : Representable v) : ∃ d, toDatum v = .ok d ∧ d.v = image v ∧
    (∀ o, d.v ≠ .obj o) := by
  cases v with
  | other => cases h
  | _ => exact ⟨_, rfl, rfl, fun o => by nofun⟩

private theorem image_inj {v w : Val} (hv : Representable v) (hw : Representable w) (h : image v = image w) : v = w := by
  have key : ∀ {v : Val}, Representable v → fromDatum { v := image v } = .ok v := by
    intro v hv
    have := C132_value_partial hv
    obtain ⟨d, h1, h2, -⟩ := toDatum_ok hv
    rw [h1] at this
    have t : fromDatum d = .ok v := this
    unfold fromDatum at t ⊢
    rw [← h2]
    exact t
  have h1 := key hv
  rw [h, key hw] at h1
  cases h1
  rfl

section
variable (jen : Bytes → BitVec 32) (little : Bool)

/-- The call of the library that a use of a map makes. -/
private def lowered : MapUse → MapOp
  | .set k v => .set (get (toDatum k)) (get (toDatum v))
  | .del k => .del (get (toDatum k))
where
  get : Out Datum → Datum
    | .ok d => d
    | _ => { v := .none }

private theorem step_lowered {op : MapUse} (h : Fits op) (m : MapState) :
    pyStep jen little m op = mapStep jen little m (lowered op) := by
  cases op with
  | set k v =>
    obtain ⟨dk, h1, -⟩ := toDatum_ok h.1
    obtain ⟨dv, h2, -⟩ := toDatum_ok h.2
    simp only [pyStep, lowered, lowered.get, h1, h2]
    rfl
  | del k =>
    obtain ⟨dk, h1, -⟩ := toDatum_ok h
    simp only [pyStep, lowered, lowered.get, h1]
    rfl

private theorem run_lowered : ∀ (ops : List MapUse) (m : MapState), (∀ op ∈ ops, Fits op) →
    Call.run (pyStep jen little) m ops = Call.run (mapStep jen little) m (ops.map lowered)
  | [], _, _ => rfl
  | op :: ops, m, h => by
    rw [List.map_cons, Call.run, Call.run, step_lowered jen little (h op (by simp)) m]
    cases mapStep jen little m (lowered op) with
    | ub => rfl
    | ret c m' => simp only [run_lowered ops m' fun o ho => h o (by simp [ho])]

/-- The map holds the dictionary. -/
private def Mirrors (m : MapState) (f : Dict) : Prop :=
  WF m.entries ∧ ∀ k, Representable k → (∀ v, f k = some v → Representable v) ∧ lookup m.entries (image k) = (f k).map image

private theorem get_lowered {k : Val} (h : Representable k) : (lowered.get (toDatum k)).v = image k ∧
    ∀ o, (lowered.get (toDatum k)).v ≠ .obj o := by
  obtain ⟨d, h1, h2, h3⟩ := toDatum_ok h
  rw [h1]
  exact ⟨h2, h3⟩

private theorem step_mirrors {op : MapUse} (h : Fits op) {m m' : MapState} {f : Dict} (hm : Mirrors m f) {c : Option Err}
    (hs : mapStep jen little m (lowered op) = .ret c m') :
    Mirrors m' (f.after op) ∧ (c = none ↔ ∀ k, op = .del k → f k ≠ none) := by
  obtain ⟨w, l⟩ := step_lookup hm.1 hs
  cases op with
  | set k v =>
    obtain ⟨hk, hv⟩ := h
    have hc : c = none := by
      cases c with
      | none => rfl
      | some e =>
        obtain ⟨-, -, h1 | h1⟩ := C24_set_refused_only_null jen little m _ _ _ _ hs nofun
        · exact absurd h1.1 ((get_lowered hk).2 _)
        · exact absurd h1.1 ((get_lowered hv).2 _)
    refine ⟨⟨w, fun x hx => ?_⟩, iff_of_true hc fun _ hh => nomatch hh⟩
    rw [l, hc]
    show (∀ y, (if x = k then some v else f x) = some y → Representable y) ∧
      (if image x = (lowered.get (toDatum k)).v then some (lowered.get (toDatum v)).v else lookup m.entries (image x)) =
        Option.map image (if x = k then some v else f x)
    rw [(get_lowered hk).1, (get_lowered hv).1]
    by_cases e : x = k
    · rw [if_pos e, if_pos (by rw [e])]
      exact ⟨fun y hy => by cases hy; exact hv, rfl⟩
    · rw [if_neg e, if_neg fun he => e (image_inj hx hk he)]
      exact hm.2 x hx
  | del k =>
    have hk : Representable k := h
    have hx := C24_delete_refused_iff_absent jen little m _ c m' hs
    have he : mapExist jen little m (lowered.get (toDatum k)) = (f k).isSome := by
      unfold mapExist
      have h1 := mapFind_lookup (jen := jen) (little := little) m.entries (lowered.get (toDatum k))
      rw [(get_lowered hk).1, (hm.2 k hk).2] at h1
      have := congrArg Option.isSome h1
      simpa using this
    rw [he] at hx
    have hcn : c = none ↔ f k ≠ none := by
      cases hfk : f k with
      | none =>
        rw [hfk] at hx
        have h1 := hx.1.2 rfl
        exact ⟨fun h2 => absurd h2 h1, fun h2 => absurd rfl h2⟩
      | some y =>
        rw [hfk] at hx
        refine ⟨fun _ => nofun, fun _ => ?_⟩
        cases c with
        | none => rfl
        | some e => exact absurd (hx.1.1 nofun) nofun
    refine ⟨⟨w, fun x hx => ?_⟩, hcn.trans ⟨fun h1 k' hk' => by cases hk'; exact h1, fun h1 => h1 k rfl⟩⟩
    rw [l]
    show (∀ y, (if x = k then none else f x) = some y → Representable y) ∧ _ = Option.map image (if x = k then none else f x)
    cases hcc : c with
    | none =>
      show _ ∧ (if image x = (lowered.get (toDatum k)).v then none else lookup m.entries (image x)) = _
      rw [(get_lowered hk).1]
      by_cases e : x = k
      · rw [if_pos e, if_pos (by rw [e])]
        exact ⟨nofun, rfl⟩
      · rw [if_neg e, if_neg fun he => e (image_inj hx hk he)]
        exact hm.2 x hx
    | some er =>
      show _ ∧ lookup m.entries (image x) = _
      have hfk : f k = none := by
        cases hfk : f k with
        | none => rfl
        | some y => rw [hcn.2 (by rw [hfk]; nofun)] at hcc; cases hcc
      by_cases e : x = k
      · rw [if_pos e, e, (hm.2 k hk).2, hfk]
        exact ⟨nofun, rfl⟩
      · rw [if_neg e]
        exact hm.2 x hx

private theorem run_mirrors : ∀ (ops : List MapUse) {m m' : MapState} {f : Dict} {cs : List (Option Err)}, (∀ op ∈ ops, Fits op) →
    Mirrors m f → Call.run (mapStep jen little) m (ops.map lowered) = some (cs, m') →
    Mirrors m' (ops.foldl Dict.after f)
  | [], m, m', f, cs, _, hm, hr => by cases hr; exact hm
  | op :: ops, m, m', f, cs, h, hm, hr => by
    rw [List.map_cons, Call.run] at hr
    cases hs : mapStep jen little m (lowered op) with
    | ub => rw [hs] at hr; cases hr
    | ret c m1 =>
      rw [hs] at hr
      simp only at hr
      cases hr' : Call.run (mapStep jen little) m1 (ops.map lowered) with
      | none => rw [hr'] at hr; cases hr
      | some p =>
        obtain ⟨cs', m2⟩ := p
        rw [hr'] at hr
        cases hr
        exact run_mirrors ops (fun o ho => h o (by simp [ho])) (step_mirrors jen little (h op (by simp)) hm hs).1 hr'

private theorem run_append {σ ι : Type} (step : σ → ι → Call σ) : ∀ (xs ys : List ι) {s s' : σ} {cs : List (Option Err)},
    Call.run step s xs = some (cs, s') → Call.run step s (xs ++ ys) = (Call.run step s' ys).map fun p => (cs ++ p.1, p.2)
  | [], ys, s, s', cs, h => by cases h; simp
  | x :: xs, ys, s, s', cs, h => by
    rw [Call.run] at h
    rw [List.cons_append, Call.run]
    cases hs : step s x with
    | ub => rw [hs] at h; cases h
    | ret c s1 =>
      rw [hs] at h
      simp only at h ⊢
      cases hr : Call.run step s1 xs with
      | none => rw [hr] at h; cases h
      | some p =>
        rw [hr] at h
        cases h
        rw [run_append step xs ys (s' := p.2) (cs := p.1) hr]
        cases Call.run step p.2 ys <;> rfl

private theorem history (r : Refs) {ops : List MapUse} (h : ∀ op ∈ ops, Fits op) :
    ∃ codes m, Call.run (pyStep jen little) (newMap r) ops = some (codes, m) ∧
      Call.run (mapStep jen little) (newMap r) (ops.map lowered) = some (codes, m) ∧
      Mirrors m (ops.foldl Dict.after fun _ => none) := by
  have hown : ∀ op ∈ ops.map lowered, ∀ d ∈ Spec.MapOp.args op, ∀ o, d.v = .obj o → o ≠ 0#64 → 1 ≤ r o := by
    intro op hop d hd o ho
    exfalso
    obtain ⟨u, hu, rfl⟩ := List.mem_map.1 hop
    have hf := h u hu
    cases u with
    | set a b =>
      have hd' : d ∈ [lowered.get (toDatum a), lowered.get (toDatum b)] := hd
      simp only [List.mem_cons, List.not_mem_nil, or_false] at hd'
      rcases hd' with rfl | rfl
      · exact (get_lowered hf.1).2 o ho
      · exact (get_lowered hf.2).2 o ho
    | del a =>
      have hd' : d ∈ [lowered.get (toDatum a)] := hd
      simp only [List.mem_cons, List.not_mem_nil, or_false] at hd'
      subst hd'
      exact (get_lowered hf).2 o ho
  obtain ⟨codes, m, hr⟩ := C26_histories_defined jen little r _ hown
  exact ⟨codes, m, by rw [run_lowered jen little ops _ h]; exact hr, hr,
    run_mirrors jen little ops h ⟨by simp [WF, newMap], fun k _ => ⟨nofun, rfl⟩⟩ hr⟩

/-- **C132** (partial) A map used from Python is a dictionary: after any history of assignments and deletions, `m[k]` is the value last
assigned to `k`, and `None` when there is none.
Missing: values that cannot be represented, see `C132_keys_collide`; `has_key`, see `C132_has_key_fails`; `keys`, see C25. -/
theorem C132_map_partial (r : Refs) {ops : List MapUse} (h : ∀ op ∈ ops, Fits op) {k : Val} (hk : Representable k) :
    ∃ codes m, Call.run (pyStep jen little) (newMap r) ops = some (codes, m) ∧
      pyGet jen little m k = .ok (((ops.foldl Dict.after fun _ => none) k).getD .none) := by
  obtain ⟨codes, m, hp, -, -, hm⟩ := history jen little r h
  refine ⟨codes, m, hp, ?_⟩
  obtain ⟨hv, hl⟩ := hm k hk
  obtain ⟨d, h1, h2, -⟩ := toDatum_ok hk
  unfold pyGet
  rw [h1]
  show fromDatum (mapGet jen little m d) = _
  have h3 := mapFind_lookup (jen := jen) (little := little) m.entries d
  rw [h2, hl] at h3
  unfold mapGet
  cases hf : mapFind jen little m.entries d with
  | none =>
    rw [hf] at h3
    have : (ops.foldl Dict.after fun _ => none) k = none := by
      cases hq : (ops.foldl Dict.after fun _ => none) k with
      | none => rfl
      | some y => rw [hq] at h3; cases h3
    rw [this]
    rfl
  | some e =>
    rw [hf] at h3
    cases hq : (ops.foldl Dict.after fun _ => none) k with
    | none => rw [hq] at h3; cases h3
    | some y =>
      rw [hq] at h3
      have h4 : e.value.v = image y := Option.some.inj h3
      have hy := hv y hq
      have h5 := C132_value_partial hy
      obtain ⟨dy, g1, g2, -⟩ := toDatum_ok hy
      rw [g1] at h5
      have h6 : fromDatum dy = .ok y := h5
      show fromDatum e.value = .ok y
      unfold fromDatum at h6 ⊢
      rw [h4, ← g2]
      exact h6

example : (∀ op ∈ [MapUse.set (.int 1) (.str [97#8]), .set (.bool true) .inactive, .del (.int 1)], Fits op) ∧
    ([MapUse.set (.int 1) (.str [97#8]), .set (.bool true) .inactive, .del (.int 1)].foldl Dict.after fun _ => none) (.bool true) =
      some .inactive := by
  refine ⟨?_, by decide⟩
  simp [Fits, Representable]

/-- **C132** (partial) After any such history an assignment is never refused, and a deletion is refused exactly when the key is not in
the dictionary.  An operation on a value of another type is refused and leaves the map as it is. -/
theorem C132_refusals_partial (r : Refs) {ops : List MapUse} (h : ∀ op ∈ ops, Fits op) {codes : List (Option Err)} {m : MapState}
    (hr : Call.run (pyStep jen little) (newMap r) ops = some (codes, m)) :
    (∀ k v, Representable k → Representable v → ∃ m', pyStep jen little m (.set k v) = .ret none m') ∧
    (∀ k, Representable k → ∃ c m', pyStep jen little m (.del k) = .ret c m' ∧
      (c = none ↔ ((ops.foldl Dict.after fun _ => none) k).isSome)) ∧
    ∀ v, pyStep jen little m (.set .other v) = .ret (some .invalidValue) m ∧
      pyStep jen little m (.set v .other) = .ret (some .invalidValue) m ∧
      pyStep jen little m (.del .other) = .ret (some .invalidValue) m := by
  have key : ∀ op, Fits op → ∃ c m', pyStep jen little m op = .ret c m' ∧
      (c = none ↔ ∀ k, op = .del k → (ops.foldl Dict.after fun _ => none) k ≠ none) := by
    intro op hop
    obtain ⟨codes1, m1, h1, h2, h3⟩ := history jen little r h
    rw [hr] at h1
    cases h1
    obtain ⟨codes2, m2, h4, h5, -⟩ := history jen little r (ops := ops ++ [op]) (by
      intro o ho
      rcases List.mem_append.1 ho with ho | ho
      · exact h o ho
      · rw [List.mem_singleton.1 ho]; exact hop)
    have h6 : ∃ c m', pyStep jen little m op = .ret c m' := by
      cases hs : pyStep jen little m op with
      | ret c m' => exact ⟨c, m', rfl⟩
      | ub => rw [run_append _ ops [op] hr, Call.run, hs] at h4; cases h4
    obtain ⟨c, m', h7⟩ := h6
    refine ⟨c, m', h7, ?_⟩
    rw [step_lowered jen little hop] at h7
    exact (step_mirrors jen little hop h3 h7).2
  refine ⟨fun k v hk hv => ?_, fun k hk => ?_, fun v => ⟨?_, ?_, rfl⟩⟩
  · obtain ⟨c, m', h1, h2⟩ := key (.set k v) ⟨hk, hv⟩
    exact ⟨m', by rw [h1, h2.2 fun _ hh => nomatch hh]⟩
  · obtain ⟨c, m', h1, h2⟩ := key (.del k) hk
    refine ⟨c, m', h1, h2.trans ?_⟩
    rw [Option.isSome_iff_ne_none]
    exact ⟨fun h3 => h3 k rfl, fun h3 k' hk' => by cases hk'; exact h3⟩
  · cases v <;> rfl
  · cases v <;> rfl

/-- **C132** fails otherwise: after `m[2**64 + i] = v` alone, `m[i]` is `v`, and after `m["a\0b"] = v` alone, `m["a"]` is `v`. -/
theorem C132_keys_collide (r : Refs) {v : Val} (hv : Representable v) :
    (∀ i : Int, -2 ^ 63 ≤ i ∧ i < 2 ^ 63 → ∃ codes m,
      Call.run (pyStep jen little) (newMap r) [.set (.int (2 ^ 64 + i)) v] = some (codes, m) ∧ pyGet jen little m (.int i) = .ok v) ∧
    ∀ a b : Bytes, 0#8 ∉ a → ∃ codes m,
      Call.run (pyStep jen little) (newMap r) [.set (.str (a ++ 0#8 :: b)) v] = some (codes, m) ∧
        pyGet jen little m (.str a) = .ok v := by
  have key : ∀ {x y : Val}, toDatum x = toDatum y → Representable y → ∃ codes m,
      Call.run (pyStep jen little) (newMap r) [.set x v] = some (codes, m) ∧ pyGet jen little m y = .ok v := by
    intro x y hxy hy
    obtain ⟨codes, m, h1, h2⟩ := C132_map_partial jen little r (ops := [.set y v])
      (by intro op hop; simp only [List.mem_cons, List.not_mem_nil, or_false] at hop; subst hop; exact ⟨hy, hv⟩) hy
    refine ⟨codes, m, ?_, ?_⟩
    · rw [← h1]
      simp only [Call.run, pyStep, hxy]
    · rw [h2]
      simp [Dict.after]
  refine ⟨fun i hi => key ?_ hi, fun a b ha => key ?_ ha⟩
  · show Out.ok _ = Out.ok _
    have : BitVec.ofInt 64 (2 ^ 64 + i) = BitVec.ofInt 64 i := by
      apply BitVec.eq_of_toInt_eq
      rw [BitVec.toInt_ofInt, BitVec.toInt_ofInt, Int.bmod_def, Int.bmod_def]
      split <;> split <;> omega
    rw [this]
  · show Out.ok _ = Out.ok _
    rw [takeWhile_cut ha, takeWhile_all ha]

/-- **C132** fails for `has_key`: it never answers. -/
theorem C132_has_key_fails (m : MapState) (k : Val) (b : Bool) : pyHasKey jen little m k ≠ .ok b := by
  unfold pyHasKey
  cases toDatum k <;> nofun

end

end CCS.Props
