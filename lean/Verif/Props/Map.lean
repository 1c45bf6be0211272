import Verif.Lemmas.Map

/-! # C14, C24–C26: maps

`Spec.FMap.history` is the finite map obtained by applying the successful calls of a history in
order; `Spec.occurrences h es` counts the keys and values that are the object `h`
(`Verif/Spec/Map.lean`).  `Call.run` runs a history of calls on the model and returns the result
codes and the final state, or `none` on undefined behaviour.  `jen` is the byte hash function and
`little` the byte order: the theorems hold for all of them. -/

namespace CCS.Props

open CCS Spec

section
variable (jen : Bytes → BitVec 32) (little : Bool)

/-- A new map (`ccs_create_map`). -/
def newMap (r : Refs) : MapState := ⟨[], r⟩

/-! ## C24 -/

/-- **C24** After any history on a new map, looking up a key gives the value last set for an equal
key, or NONE; the existence test agrees. -/
theorem C24_lookup_after_any_history (r : Refs) (ops : List MapOp) (codes : List (Option Err))
    (m : MapState) (h : Call.run (mapStep jen little) (newMap r) ops = some (codes, m)) (k : Datum) :
    (mapGet jen little m k).v =
      (FMap.history (fun _ => none) (ops.zip codes) k.v).getD .none ∧
    (mapExist jen little m k = true ↔
      ∃ v, FMap.history (fun _ => none) (ops.zip codes) k.v = some v) := by
  have hl := (run_lookup (by simp [WF, newMap]) h).2
  have : lookup (newMap r).entries = fun _ => none := rfl
  rw [this] at hl
  rw [← hl, ← mapFind_lookup (jen := jen) (little := little), mapGet, mapExist]
  cases mapFind jen little m.entries k <;> simp

/-- **C24** Deleting is refused exactly when the key is absent, and then changes nothing. -/
theorem C24_delete_refused_iff_absent (m : MapState) (k : Datum) (c : Option Err) (m' : MapState)
    (h : mapDel jen little m k = .ret c m') :
    (c ≠ none ↔ mapExist jen little m k = false) ∧
    (c ≠ none → c = some .invalidValue ∧ m' = m) := by
  unfold mapDel at h
  unfold mapExist
  cases hf : mapFind jen little m.entries k with
  | none => rw [hf] at h; cases h; simp
  | some e =>
    rw [hf] at h
    obtain ⟨rfl, -⟩ := remove_ret hf h
    simp

/-- **C24** Setting succeeds unless the key or the value is a NULL object, and a refused set leaves
the associations as they were. -/
theorem C24_set_refused_only_null (m : MapState) (k v : Datum) (c : Option Err) (m' : MapState)
    (h : mapSet jen little m k v = .ret c m') (hc : c ≠ none) :
    c = some .invalidObject ∧ m'.entries = m.entries ∧
    ((k.v = .obj 0#64 ∧ k.id = false) ∨ (v.v = .obj 0#64 ∧ v.id = false)) := by
  rcases set_cases h with ⟨rfl, -⟩ | h
  · exact absurd rfl hc
  · rcases (replace_ret rfl h).1 with ⟨rfl, -⟩ | h
    · exact absurd rfl hc
    · exact h

/-- **C24** Clearing always succeeds and leaves nothing. -/
theorem C24_clear (m : MapState) (c : Option Err) (m' : MapState)
    (h : mapClear m = .ret c m') : c = none ∧ m'.entries = [] :=
  ⟨(clear_ret h).1, (clear_ret h).2.1⟩

/-- The hypotheses are met by a history with an overwrite, a deletion and a refused deletion. -/
example : ∃ m, Call.run (mapStep (fun _ => 0#32) true) (newMap (fun _ => 0))
    [.set { v := .int 1#64 } { v := .int 2#64 }, .set { v := .int 1#64 } { v := .int 3#64 },
     .del { v := .int 7#64 }, .set { v := .str (some [65#8]), transient := true } { v := .none },
     .del { v := .str (some [65#8]) }] =
    some ([none, none, some .invalidValue, none, none], m) ∧
    (mapGet (fun _ => 0#32) true m { v := .int 1#64 }).v = .int 3#64 :=
  ⟨⟨[⟨{ v := .int 1#64 }, { v := .int 3#64 }⟩], fun _ => 0⟩, rfl, by decide⟩

/-! ## C25 -/

/-- **C25** fails for `ccs_map_get_keys`: it returns the values instead of the keys. -/
theorem C25_get_keys_returns_values :
    ∃ ops codes m ks n, Call.run (mapStep (fun _ => 0#32) true) (newMap (fun _ => 0)) ops =
        some (codes, m) ∧ mapGetKeys m.entries 1 = .ok (ks, n) ∧
      mapExist (fun _ => 0#32) true m { v := .int 1#64 } = true ∧
      { v := .int 1#64 } ∉ ks ∧
      ∃ d ∈ ks, mapExist (fun _ => 0#32) true m d = false := by
  refine ⟨[.set { v := .int 1#64 } { v := .int 2#64 }], [none],
    ⟨[⟨{ v := .int 1#64 }, { v := .int 2#64 }⟩], fun _ => 0⟩, [{ v := .int 2#64 }], 1, rfl, ?_⟩
  refine ⟨by decide, by decide, by decide, ⟨{ v := .int 2#64 }, by decide, by decide⟩⟩

/-- **C25** (partial) Enumerating pairs and values, after any history.  With `num` at least the
number of entries, the first `count` keys are pairwise different, they are exactly the live keys,
the value at the same place is the one a lookup returns, the values alone are the same list, the
rest is NONE; with less room the calls are refused.
Missing for the full claim: `ccs_map_get_keys`, which is wrong (above). -/
theorem C25_enumeration_partial (r : Refs) (ops : List MapOp) (codes : List (Option Err))
    (m : MapState) (h : Call.run (mapStep jen little) (newMap r) ops = some (codes, m)) (num : Nat) :
    (num < m.entries.length → mapGetPairs m.entries num = .err .invalidValue ∧
      mapGetValues m.entries num = .err .invalidValue) ∧
    (m.entries.length ≤ num → ∃ keys values,
      mapGetPairs m.entries num = .ok ((keys, values), m.entries.length) ∧
      mapGetValues m.entries num = .ok (values, m.entries.length) ∧
      keys.length = num ∧ values.length = num ∧
      ((keys.take m.entries.length).map Datum.v).Nodup ∧
      (∀ k : Datum, mapExist jen little m k = true ↔
        k.v ∈ (keys.take m.entries.length).map Datum.v) ∧
      (∀ i (hi : i < m.entries.length) k v, keys[i]? = some k → values[i]? = some v →
        mapGet jen little m k = v) ∧
      (∀ i, m.entries.length ≤ i → i < num →
        keys[i]? = some { v := .none } ∧ values[i]? = some { v := .none })) := by
  have hwf := (run_lookup (by simp [WF, newMap]) h).1
  constructor
  · intro hn
    simp [mapGetPairs, mapGetValues, hn]
  · intro hn
    have hn' : ¬ num < m.entries.length := by omega
    refine ⟨padNone (m.entries.map (·.key)) num, padNone (m.entries.map (·.value)) num, ?_, ?_, ?_, ?_,
      ?_, ?_, ?_, ?_⟩
    · simp [mapGetPairs, hn']
    · simp [mapGetValues, hn']
    · simp [padNone]; omega
    · simp [padNone]; omega
    · have : (padNone (m.entries.map (·.key)) num).take m.entries.length = m.entries.map (·.key) := by
        simp [padNone]
      rw [this, List.map_map]
      exact hwf
    · intro k
      have : (padNone (m.entries.map (·.key)) num).take m.entries.length = m.entries.map (·.key) := by
        simp [padNone]
      rw [this, List.map_map]
      have hl := lookup_none_iff m.entries k.v
      rw [← mapFind_lookup (jen := jen) (little := little)] at hl
      unfold mapExist
      rw [Option.isSome_iff_ne_none]
      simp only [Option.map_eq_none_iff] at hl
      constructor
      · intro h1
        exact Classical.not_not.1 (fun h2 => h1 (hl.2 h2))
      · intro h1 h2
        exact hl.1 h2 h1
    · intro i hi k v hk hv
      have hk' : k = m.entries[i].key := by
        simp only [padNone] at hk
        rw [List.getElem?_append_left (by simpa using hi)] at hk
        simp [hi] at hk
        exact hk.symm
      have hv' : v = m.entries[i].value := by
        simp only [padNone] at hv
        rw [List.getElem?_append_left (by simpa using hi)] at hv
        simp [hi] at hv
        exact hv.symm
      have hfind : mapFind jen little m.entries k = some m.entries[i] := by
        rw [mapFind, keyMatch_eq, List.find?_eq_some_iff_getElem]
        refine ⟨by simp [hk'], i, hi, rfl, fun j hj => ?_⟩
        simp only [Bool.not_eq_eq_eq_not, Bool.not_true, decide_eq_false_iff_not]
        intro he
        have := List.pairwise_iff_getElem.1 hwf j i (by simp; omega) (by simpa using hi) hj
        simp [he, hk'] at this
      rw [mapGet, hfind, hv']
    · intro i h1 h2
      simp only [padNone]
      rw [List.getElem?_append_right (by simpa using h1), List.getElem?_append_right (by simpa using h1)]
      simp only [List.length_map, List.getElem?_replicate]
      rw [if_pos (by omega)]
      exact ⟨rfl, rfl⟩

/-! ## C26 -/

/-- **C26** Along any history, the number of references on an object changes exactly as the number of
entries' keys and values that are this object. -/
theorem C26_references_match_occurrences (m : MapState) (ops : List MapOp)
    (codes : List (Option Err)) (m' : MapState)
    (h : Call.run (mapStep jen little) m ops = some (codes, m')) (o : BitVec 64) (ho : o ≠ 0#64) :
    m'.refs o + occurrences o m.entries = m.refs o + occurrences o m'.entries :=
  run_balance h o ho

/-- **C26** From a new map: the count is what the rest of the program holds plus one per
occurrence. -/
theorem C26_new_map (r : Refs) (ops : List MapOp) (codes : List (Option Err)) (m : MapState)
    (h : Call.run (mapStep jen little) (newMap r) ops = some (codes, m)) (o : BitVec 64)
    (ho : o ≠ 0#64) : m.refs o = r o + occurrences o m.entries := by
  have := run_balance h o ho
  simpa [newMap, occurrences] using this

/-- **C26** Destroying the map releases them all: the counts are back to what the rest of the
program holds. -/
theorem C26_destroy_releases_all (r : Refs) (ops : List MapOp) (codes : List (Option Err))
    (m : MapState) (h : Call.run (mapStep jen little) (newMap r) ops = some (codes, m)) :
    ∃ m', mapClear m = .ret none m' ∧ ∀ o, o ≠ 0#64 → m'.refs o = r o := by
  have hb := C26_new_map jen little r ops codes m h
  cases hc : mapClear m with
  | ub =>
    exact absurd hc (clear_defined fun o ho => by rw [hb o ho]; omega)
  | ret c m' =>
    obtain ⟨rfl, -, h3⟩ := clear_ret hc
    refine ⟨m', rfl, fun o ho => ?_⟩
    have := h3 o ho
    have := hb o ho
    omega

/-- **C26** No call is ever undefined when the program owns a reference to each (non-NULL) object it
passes. -/
theorem C26_histories_defined (r : Refs) (ops : List MapOp)
    (hown : ∀ op ∈ ops, ∀ d ∈ MapOp.args op, ∀ o, d.v = .obj o → o ≠ 0#64 → 1 ≤ r o) :
    ∃ codes m, Call.run (mapStep jen little) (newMap r) ops = some (codes, m) := by
  have key : ∀ (ops : List MapOp) (m : MapState),
      (∀ o, o ≠ 0#64 → m.refs o = r o + occurrences o m.entries) →
      (∀ op ∈ ops, ∀ d ∈ MapOp.args op, ∀ o, d.v = .obj o → o ≠ 0#64 → 1 ≤ r o) →
      ∃ codes m', Call.run (mapStep jen little) m ops = some (codes, m') := by
    intro ops
    induction ops with
    | nil => intro m _ _; exact ⟨[], m, rfl⟩
    | cons op ops ih =>
      intro m hm hown
      have hd : mapStep jen little m op ≠ .ub := by
        apply step_defined
        · intro o ho; have := hm o ho; omega
        · intro d hd o ho
          have := hm o ho
          unfold holds
          split
          · rename_i hc
            have := hown op (by simp) d hd o hc.1 ho
            omega
          · omega
      cases hs : mapStep jen little m op with
      | ub => exact absurd hs hd
      | ret c m1 =>
        have hm1 : ∀ o, o ≠ 0#64 → m1.refs o = r o + occurrences o m1.entries := by
          intro o ho
          have := step_balance hs o ho
          have := hm o ho
          omega
        obtain ⟨codes, m', hr⟩ := ih m1 hm1 (fun op h => hown op (List.mem_cons_of_mem _ h))
        refine ⟨c :: codes, m', ?_⟩
        rw [Call.run, hs]
        simp only [hr]
  exact key ops (newMap r) (fun o ho => by simp [newMap, occurrences]) hown

end

example : ∃ m, Call.run (mapStep (fun _ => 0#32) true) (newMap (fun o => if o = 5#64 then 1 else 0))
    [.set { v := .int 1#64 } { v := .obj 5#64 }, .set { v := .obj 5#64 } { v := .obj 5#64 }] =
    some ([none, none], m) ∧ m.refs 5#64 = 4 ∧ occurrences 5#64 m.entries = 3 := by
  refine ⟨⟨[⟨{ v := .int 1#64 }, { v := .obj 5#64 }⟩, ⟨{ v := .obj 5#64 }, { v := .obj 5#64 }⟩], _⟩,
    rfl, ?_⟩
  decide

/-! ## C14 -/

/-- **C14** A map built by any history, whose strings are real C strings, written by one host and read
by another: the announced size is exact and the new map has the same associations in the same
order, with the user data; no reference count changes. -/
theorem C14_map_round_trip (jen jen' : Bytes → BitVec 32) (hostW hostR : Bool) (r r' : Refs)
    (ops : List MapOp) (codes : List (Option Err)) (m : MapState)
    (h : Call.run (mapStep jen hostW) (newMap r) ops = some (codes, m))
    (hp : ∀ e ∈ m.entries, Plain e.key.v ∧ Plain e.value.v)
    (hn : m.entries.length < 2 ^ 59) (handle : BitVec 64) (ud : Bytes) (hud : ud.length < 2 ^ 64) :
    ∃ n m', szMap handle m.entries ud = .ok n ∧ m'.entries.map assoc = m.entries.map assoc ∧
      m'.refs = r' ∧
      RoundTrips (serMap hostW handle m.entries ud) n (deMap jen' hostR r') (m', handle, ud) := by
  have hwf := (run_lookup (by simp [WF, newMap]) h).1
  obtain ⟨m', hfill, hrefs, hassoc⟩ := fill_new jen' hostR m.entries ⟨[], r'⟩ hp (by simpa using hwf)
  refine ⟨szObj mapType handle + szSize m.entries.length + (m.entries.flatMap fun e =>
    datumBytes e.key.v ++ datumBytes e.value.v).length + szUserData ud, m', ?_, by simpa using hassoc,
    hrefs, ?_⟩
  · rw [szMap, length_entries _ hp]; rfl
  · refine ⟨objBytes mapType handle ++ (lebBytes (BitVec.ofNat 64 m.entries.length) ++
      ((m.entries.flatMap fun e => datumBytes e.key.v ++ datumBytes e.value.v) ++ blobBytes ud)),
      ?_, ?_, ?_⟩
    · refine writes_seq (writes_obj _ _) (writes_seq (writes_size _) (writes_seq
        (writes_all _ fun e he => ?_) (writes_userData _)))
      exact writes_seq (writes_datum _ _ (plain_writable (hp e he).1))
        (writes_datum _ _ (plain_writable (hp e he).2))
    · simp only [List.length_append, length_obj, length_size, length_userData]; omega
    · refine reads_bind (decodes_obj _ _).1 ?_
      have e1 : ∀ (X : Rd (MapState × BitVec 64 × Bytes)),
          (do Rd.lift (refute (mapType ≠ mapType) .invalidType); X) = X := by
        intro X; funext bs; rfl
      simp only [e1]
      refine reads_bind (decodes_size (by omega)).1 ?_
      rw [fill_room _ _ (by omega)]
      have e2 : (m.entries.flatMap fun e => datumBytes e.key.v ++ datumBytes e.value.v) =
          (m.entries.map fun e => (readBack e.key.v, readBack e.value.v)).flatMap
            (fun p => datumBytes p.1.v ++ datumBytes p.2.v) := by
        rw [List.flatMap_map]
        rw [List.flatMap_def, List.flatMap_def]
        congr 1
        apply List.map_congr_left
        intro e he
        rw [readBack_v (hp e he).1, readBack_v (hp e he).2]
      have e3 := decodes_times (r := dePair hostR)
        (g := fun p : Datum × Datum => datumBytes p.1.v ++ datumBytes p.2.v)
        (m.entries.map fun e => (readBack e.key.v, readBack e.value.v)) (by
          intro p hpm
          rw [List.mem_map] at hpm
          obtain ⟨e, he, rfl⟩ := hpm
          simp only [readBack_v (hp e he).1, readBack_v (hp e he).2]
          exact decodes_pair hostR (hp e he).1 (hp e he).2)
      rw [List.length_map] at e3
      rw [e2]
      refine reads_bind e3.1 ?_
      have e4 : ReadsBack (Rd.lift (mapFill jen' hostR ⟨[], r'⟩
          (m.entries.map fun e => (readBack e.key.v, readBack e.value.v)))) [] m' := by
        intro tail; rw [hfill]; rfl
      have := reads_bind (f := fun mm => (do let ud ← deUserData; pure (mm, handle, ud) :
        Rd (MapState × BitVec 64 × Bytes))) e4
        (reads_bind_pure (reads_userData hud) (by rfl))
      simpa using this

/-- **C14** The hypothesis on strings is needed: a NULL string can be stored, and serializing the map
is then undefined. -/
theorem C14_null_string_undefined (jen : Bytes → BitVec 32) (little : Bool) (r : Refs) :
    ∃ ops codes m, Call.run (mapStep jen little) (newMap r) ops = some (codes, m) ∧
      szMap 1#64 m.entries [] = .ub := by
  refine ⟨[.set { v := .int 1#64 } { v := .str none }], [none],
    ⟨[⟨{ v := .int 1#64 }, { v := .str none }⟩], r⟩, rfl, rfl⟩

/-! ## C09 -/

/-- **C09** fails for maps: a map announced with `2^59 + k` pairs gets a block for `k` of them, because the size of the block
wraps around, and the next one is written past its end. -/
theorem C09_map_overflow (jen : Bytes → BitVec 32) (little : Bool) (r : Refs) {k : Nat} (hk : k < 2 ^ 59)
    {pairs : List (Value × Value)} (hp : ∀ p ∈ pairs, Plain p.1 ∧ Plain p.2) (hl : pairs.length = k + 1) (handle : BitVec 64)
    (tail : Bytes) :
    deMap jen little r (objBytes mapType handle ++ (lebBytes (BitVec.ofNat 64 (2 ^ 59 + k)) ++
      ((pairs.flatMap fun p => datumBytes p.1 ++ datumBytes p.2) ++ tail))) = .ub := by
  unfold deMap
  rw [Rd.bind_eq, (decodes_obj _ _).1, Out.bind_ok]
  simp only
  rw [refute_false (by simp), Rd.bind_eq, Rd.lift_ok, Out.bind_ok, Rd.bind_eq,
    (decodes_size (n := 2 ^ 59 + k) (by omega)).1, Out.bind_ok]
  simp only
  rw [Rd.bind_eq, fill_ub (f := fun p => (readBack p.1, readBack p.2)) pairs (2 ^ 59 + k) 0
    (fun p h => (decodes_pair little (hp p h).1 (hp p h).2).1) (by omega) (by omega) (by omega)]
  rfl

/-- The hypotheses are met: one pair announced as `2^59`. -/
example : ∀ p ∈ [(Value.int 1#64, Value.int 2#64)], Plain p.1 ∧ Plain p.2 := by
  intro p hp
  simp at hp
  subst hp
  exact ⟨⟨(fun s hs => by cases hs), fun i hi => by cases hi⟩, ⟨(fun s hs => by cases hs), fun i hi => by cases hi⟩⟩

example : Plain (.str (some [65#8])) := by
  refine ⟨fun s hs => ?_, fun i hi => by cases hi⟩
  cases hs; exact ⟨_, rfl, by decide, by decide⟩
example : Plain (Value.ofBool true) :=
  ⟨fun s hs => by simp [Value.ofBool] at hs, fun i hi => by
    simp only [Value.ofBool, if_true, Value.bool.injEq] at hi; subst hi; decide⟩

end CCS.Props
