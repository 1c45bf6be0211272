import Verif.Lemmas.SpaceClause

/-!
# C48, C54, C55: the structure of a configuration space

`Spec.Reachable s` says that `s` was made by some list of calls, successful or not.  `mem` tells which
parameter lies at an address and `mk` what the default distribution of a parameter is.
-/

namespace CCS.Props

open CCS Spec

section
variable (ops : FloatOps) (jen : Bytes → BitVec 32) (little : Bool) (mem : BitVec 64 → Param)
  (mk : Nat → Param → Out Dist)

theorem modify_set {α : Type} {l : List α} {i : Nat} {x : α} (f : α → α) (h : l[i]? = some x) :
    l.modify i f = l.set i (f x) := by
  apply List.ext_getElem?
  intro j
  rw [List.getElem?_modify, List.getElem?_set]
  by_cases hij : i = j
  · subst hij
    rw [h]
    simp [(List.getElem?_eq_some_iff.1 h).1]
  · simp [hij]

theorem effect_handles {ops : FloatOps} {jen : Bytes → BitVec 32} {little : Bool} {mem : BitVec 64 → Param}
    {s s' : Space} {op : SpaceOp} (heff : Effect ops jen little mem s s' op)
    (hop : ∀ h d, op ≠ .addParameter h d) : s'.handles = s.handles := by
  cases heff with
  | same h => exact h.handles
  | fresh h => exact h.handles
  | refused h => exact h.handles
  | pushed h => exact absurd rfl (hop _ _)
  | claused h => rw [h]; rfl
  | conditioned _ _ h => rw [h.handles, withCondition_handles]
  | redistributed hl _ _ _ _ hpar =>
    apply List.ext_getElem?
    intro i
    simp only [Space.handles, List.getElem?_map]
    cases hwi : s.params[i]? with
    | none =>
      have : s.params.length ≤ i := List.getElem?_eq_none_iff.1 hwi
      rw [List.getElem?_eq_none (by omega)]
    | some w =>
      obtain ⟨w', hw', hsp⟩ := hpar i w hwi
      rw [hw']
      simp [hsp.1]

/-! ## C48 -/

/-- **C48** A condition is accepted exactly when its parameters are in the space and no parameter then depends
on itself. -/
theorem C48_accepted_exactly (hmk : OneDimensional mk) {s : Space} (hr : Reachable ops jen little mem mk s)
    (hsize : s.numParameters ≤ 4294967296) {index : Nat} {h : BitVec 64}
    (hi : (Spec.conditions s)[index]? = some (h, none)) {e : Expr} (hb : Built e) :
    (setCondition s index e).2 = .ok () ↔
      Known (Spec.conditions s) e ∧ Acyclic ((Spec.conditions s).set index (h, some e)) := by
  have hg := reachable_good hmk hr
  obtain ⟨w, hw, hwh, hwc⟩ := conditions_some hi
  have hlt := (List.getElem?_eq_some_iff.1 hw).1
  have hidx : toUint index = index := Nat.mod_eq_of_lt (Nat.lt_of_lt_of_le hlt hsize)
  have hmod : ((Spec.conditions s).modify index fun x => (x.1, some e)) = (Spec.conditions s).set index (h, some e) := by
    rw [modify_set _ hi]
  rcases setCondition_outcomes hg.tables hg.graph index hb with ⟨hn, -⟩ | ⟨w', c, hw', hc, -⟩ | ⟨w', s', r, -, -, he, hr⟩
  · rw [hidx, hw] at hn; cases hn
  · rw [hidx, hw] at hw'; cases hw'; rw [hwc] at hc; cases hc
  · rw [hidx, hmod] at hr
    rw [he]
    rcases hr with ⟨rfl, hk, ha, -⟩ | ⟨rfl, -, hna, -⟩ | ⟨rfl, hnk, -⟩
    · exact ⟨fun _ => ⟨hk, ha⟩, fun _ => rfl⟩
    · exact ⟨fun h => (by cases h), fun h => absurd h.2 hna⟩
    · exact ⟨fun h => (by cases h), fun h => absurd h.1 hnk⟩

/-- **C48** The reason of a refusal is reported, and no outcome is undefined: a position out of the space, a
parameter that has a condition, an unknown parameter, or a cycle. -/
theorem C48_refusals (hmk : OneDimensional mk) {s : Space} (hr : Reachable ops jen little mem mk s)
    (index : Nat) {e : Expr} (hb : Built e) :
    ((setCondition s index e).2 = .ok ()) ∨
    ((setCondition s index e).2 = .err .outOfBounds ∧ s.numParameters ≤ toUint index) ∨
    ((setCondition s index e).2 = .err .invalidParameter ∧
      ((∃ h c, (Spec.conditions s)[toUint index]? = some (h, some c)) ∨ ¬ Known (Spec.conditions s) e)) ∨
    ((setCondition s index e).2 = .err .invalidGraph ∧ Known (Spec.conditions s) e ∧
      ∃ h, (Spec.conditions s)[toUint index]? = some (h, none) ∧
        ¬ Acyclic ((Spec.conditions s).set (toUint index) (h, some e))) := by
  have hg := reachable_good hmk hr
  rcases setCondition_outcomes hg.tables hg.graph index hb with ⟨hn, he⟩ | ⟨w', c, hw', hc, he⟩ | ⟨w', s', r, hw', hc, he, hr⟩
  · exact .inr (.inl ⟨by rw [he], List.getElem?_eq_none_iff.1 hn⟩)
  · exact .inr (.inr (.inl ⟨by rw [he], .inl ⟨_, c, by rw [conditions_get hw', hc]⟩⟩))
  · have hi : (Spec.conditions s)[toUint index]? = some (w'.handle, none) := by rw [conditions_get hw', hc]
    have hmod : ((Spec.conditions s).modify (toUint index) fun x => (x.1, some e)) =
        (Spec.conditions s).set (toUint index) (w'.handle, some e) := by
      rw [modify_set _ hi]
    rw [hmod] at hr
    rw [he]
    rcases hr with ⟨rfl, hk, ha, -⟩ | ⟨rfl, hk, hna, -⟩ | ⟨rfl, hnk, -⟩
    · exact .inl rfl
    · exact .inr (.inr (.inr ⟨rfl, hk, _, hi, hna⟩))
    · exact .inr (.inr (.inl ⟨rfl, .inr hnk⟩))

/-- **C48** An accepted condition is recorded, the others are kept, and the order computed contains every
parameter once, after the parameters its condition mentions. -/
theorem C48_order_after_acceptance (hmk : OneDimensional mk) {s s' : Space}
    (hr : Reachable ops jen little mem mk s) {index : Nat} {e : Expr} (hb : Built e)
    (h : setCondition s index e = (s', .ok ())) :
    (∃ a, (Spec.conditions s)[toUint index]? = some (a, none) ∧
      Spec.conditions s' = (Spec.conditions s).set (toUint index) (a, some e)) ∧
    EvalOrder (Spec.conditions s') s'.sorted := by
  have hg := reachable_good hmk hr
  rcases setCondition_outcomes hg.tables hg.graph index hb with ⟨hn, he⟩ | ⟨w', c, hw', hc, he⟩ | ⟨w', s'', r, hw', hc, he, hr⟩
  · rw [he] at h; cases h
  · rw [he] at h; cases h
  · rw [he] at h
    cases h
    have hi : (Spec.conditions s)[toUint index]? = some (w'.handle, none) := by rw [conditions_get hw', hc]
    rcases hr with ⟨-, -, -, hs, -, hgr, hok⟩ | ⟨h, -⟩ | ⟨h, -⟩
    · refine ⟨⟨_, hi, ?_⟩, hgr.full hok⟩
      rw [hs.conditions, withCondition_conditions, modify_set _ hi]
    · cases h
    · cases h

/-- **C48** In every space, whatever was refused, no parameter depends on itself and conditions only mention
parameters of the space. -/
theorem C48_always_acyclic (hmk : OneDimensional mk) {s : Space} (hr : Reachable ops jen little mem mk s) :
    Acyclic (Spec.conditions s) ∧
    ∀ (i : Nat) h e, (Spec.conditions s)[i]? = some (h, some e) → Known (Spec.conditions s) e := by
  have hg := reachable_good hmk hr
  refine ⟨hg.graph.acyclic, fun i h e hi => ?_⟩
  obtain ⟨w, hw, -, hc⟩ := conditions_some hi
  exact hg.graph.known w (List.mem_of_getElem? hw) e hc

/-- **C48** The order used for default configurations is complete and right in every settled space, including
after parameters were added. -/
theorem C48_order_settled (hmk : OneDimensional mk) {history : List SpaceOp} (hw : ∀ op ∈ history, WellCalled op)
    (hset : Settled ops jen little mem mk Space.empty True history) :
    EvalOrder (Spec.conditions (Space.empty.run ops jen little mem mk history))
      (Space.empty.run ops jen little mem mk history).sorted :=
  (spaceRun_good hmk history _ (good_empty mem) hw).graph.full
    (run_settled hmk history _ True (good_empty mem) hw (fun _ => rfl) hset)

/-! ## C55 -/

theorem name_get {s : Space} {i : Nat} {w : PWrap} (hw : s.params[i]? = some w) :
    (s.params.map (·.param.name))[i]? = some w.param.name := by simp [hw]

theorem find_name {s : Space} (ht : Tables mem s) {i : Nat} {w : PWrap} (hw : s.params[i]? = some w) :
    s.entries.find? (fun e => decide (e.name = w.param.name)) = some ⟨w.handle, w.param.name, i⟩ := by
  cases hf : s.entries.find? (fun e => decide (e.name = w.param.name)) with
  | none =>
    have := List.find?_eq_none.1 hf _ (List.mem_of_getElem? (ht.indexed.entry hw))
    simp at this
  | some e =>
    have he := List.find?_some hf
    obtain ⟨j, hlt, hej⟩ := List.mem_iff_getElem.1 (List.mem_of_find?_eq_some hf)
    obtain ⟨w', hw', hee⟩ := ht.indexed.2 j e (List.getElem?_eq_some_iff.2 ⟨hlt, hej⟩)
    rw [hee] at he
    simp at he
    have hij : j = i := by
      refine nodup_get ht.names (name_get hw') ?_
      rw [name_get hw, he]
    subst hij
    rw [hw] at hw'
    cases hw'
    rw [hee]

/-- **C55** The parameter at a position is the one found by its name and by its address, and conversely
whatever is found is at the position reported. -/
theorem C55_lookups_agree (hmk : OneDimensional mk) {s : Space} (hr : Reachable ops jen little mem mk s)
    (hsize : s.numParameters ≤ 4294967296) :
    (∀ index, index < s.numParameters → ∃ h, s.getParameter index = .ok h ∧ s.getIndex h = .ok index ∧
      s.getParameterByName (mem h).name = .ok h ∧ s.getIndexByName (mem h).name = .ok index) ∧
    (∀ h index, s.getIndex h = .ok index → index < s.numParameters ∧ s.getParameter index = .ok h) ∧
    (∀ name h, s.getParameterByName name = .ok h → (mem h).name = name ∧ ∃ index, s.getIndex h = .ok index) ∧
    (∀ name index, s.getIndexByName name = .ok index → ∃ h, s.getParameter index = .ok h ∧ (mem h).name = name) ∧
    (∀ name, (∃ h, s.getParameterByName name = .ok h) ↔ ∃ index, s.getIndexByName name = .ok index) := by
  have ht := (reachable_good hmk hr).tables
  have hu : ∀ i, i < s.params.length → toUint i = i := fun i hi => Nat.mod_eq_of_lt (Nat.lt_of_lt_of_le hi hsize)
  have hget : ∀ {i : Nat} {w : PWrap}, s.params[i]? = some w → s.getParameter i = .ok w.handle := by
    intro i w hw
    unfold Space.getParameter
    rw [hu i (List.getElem?_eq_some_iff.1 hw).1, hw]
  have hidx : ∀ {i : Nat} {w : PWrap}, s.params[i]? = some w → s.getIndex w.handle = .ok i := by
    intro i w hw
    rcases entryIndex_spec ht.indexed w.handle with ⟨j, w', hw', hh, he⟩ | ⟨hno, -⟩
    · have : j = i := nodup_get ht.handles (handles_get hw') (by rw [handles_get hw, hh])
      rw [this] at he
      exact he
    · exact absurd rfl (hno w (List.mem_of_getElem? hw))
  have hmem : ∀ {i : Nat} {w : PWrap}, s.params[i]? = some w → (mem w.handle).name = w.param.name := by
    intro i w hw
    rw [(ht.mem w (List.mem_of_getElem? hw)).1]
  have hname : ∀ name e, s.entries.find? (fun e => decide (e.name = name)) = some e →
      ∃ i w, s.params[i]? = some w ∧ e = ⟨w.handle, w.param.name, i⟩ ∧ w.param.name = name := by
    intro name e hf
    have he := List.find?_some hf
    obtain ⟨j, hlt, hej⟩ := List.mem_iff_getElem.1 (List.mem_of_find?_eq_some hf)
    obtain ⟨w, hw, hee⟩ := ht.indexed.2 j e (List.getElem?_eq_some_iff.2 ⟨hlt, hej⟩)
    rw [hee] at he
    exact ⟨j, w, hw, hee, by simpa using he⟩
  refine ⟨fun i hi => ?_, fun h i hi => ?_, fun name h hn => ?_, fun name i hn => ?_, fun name => ?_⟩
  · have hi2 : i < s.params.length := hi
    have hw : s.params[i]? = some s.params[i] := List.getElem?_eq_getElem hi2
    refine ⟨_, hget hw, hidx hw, ?_, ?_⟩
    · unfold Space.getParameterByName
      rw [hmem hw, find_name mem ht hw]
    · unfold Space.getIndexByName
      rw [hmem hw, find_name mem ht hw]
  · rcases entryIndex_spec ht.indexed h with ⟨j, w', hw', hh, he⟩ | ⟨hno, he⟩
    · unfold Space.getIndex at hi
      rw [he] at hi
      cases hi
      exact ⟨(List.getElem?_eq_some_iff.1 hw').1, by rw [hget hw', hh]⟩
    · unfold Space.getIndex at hi
      rw [he] at hi
      cases hi
  · unfold Space.getParameterByName at hn
    cases hf : s.entries.find? (fun e => decide (e.name = name)) with
    | none => rw [hf] at hn; cases hn
    | some e =>
      rw [hf] at hn
      cases hn
      obtain ⟨i, w, hw, rfl, hnm⟩ := hname name e hf
      exact ⟨(hmem hw).trans hnm, i, hidx hw⟩
  · unfold Space.getIndexByName at hn
    cases hf : s.entries.find? (fun e => decide (e.name = name)) with
    | none => rw [hf] at hn; cases hn
    | some e =>
      rw [hf] at hn
      cases hn
      obtain ⟨i, w, hw, rfl, hnm⟩ := hname name e hf
      exact ⟨w.handle, hget hw, (hmem hw).trans hnm⟩
  · unfold Space.getParameterByName Space.getIndexByName
    cases s.entries.find? (fun e => decide (e.name = name)) <;> simp

/-- **C55** Names are unique, and no parameter appears twice. -/
theorem C55_names_unique (hmk : OneDimensional mk) {s : Space} (hr : Reachable ops jen little mem mk s) :
    (s.params.map (·.param.name)).Nodup ∧ s.handles.Nodup :=
  ⟨(reachable_good hmk hr).tables.names, (reachable_good hmk hr).tables.handles⟩

/-- **C55** Indexes are stable: a call never changes the positions of the parameters already there, and adds at
most one. -/
theorem C55_indexes_stable (hmk : OneDimensional mk) {s : Space} (hr : Reachable ops jen little mem mk s)
    {op : SpaceOp} (hw : WellCalled op) :
    (Space.step ops jen little mem mk s op).1.handles = s.handles ∨
    ∃ h d, op = .addParameter h d ∧ (Space.step ops jen little mem mk s op).2 = .ok () ∧
      (Space.step ops jen little mem mk s op).1.handles = s.handles ++ [h] := by
  have hg := reachable_good hmk hr
  obtain ⟨-, heff⟩ := step_good (ops := ops) (jen := jen) (little := little) hmk hg hw
  cases op with
  | addParameter h d =>
    simp only [Space.step]
    rcases addParameter_outcomes hmk hg h d with ⟨e, he⟩ | ⟨he, -⟩ | ⟨d', he, -⟩
    · rw [he]; exact .inl rfl
    · rw [he]; exact .inl rfl
    · rw [he]; exact .inr ⟨h, d, rfl, rfl, push_handles _ _ _ _⟩
  | _ =>
    exact .inl (effect_handles heff (by simp))

/-- **C55** A parameter is accepted exactly when it is not a string, no parameter of that name is there, and it
has a one-dimensional distribution; a refusal changes nothing. -/
theorem C55_addition_exact (hmk : OneDimensional mk) {s : Space} (hr : Reachable ops jen little mem mk s)
    (h : BitVec 64) (d : Option Dist) :
    ((addParameter mem mk s h d).2 = .ok () ↔ (mem h).isString = false ∧
      (∀ h', s.getParameterByName (mem h).name ≠ .ok h') ∧ ∃ d', chooseDistribution mk s.nextId (mem h) d = .ok d') ∧
    ((addParameter mem mk s h d).2 ≠ .ok () → (addParameter mem mk s h d).1 = s) := by
  have hg := reachable_good hmk hr
  have hfind : (∀ h', s.getParameterByName (mem h).name ≠ .ok h') ↔
      s.entries.any (fun e => decide (e.name = (mem h).name)) = false := by
    unfold Space.getParameterByName
    rw [List.any_eq_false]
    cases hf : s.entries.find? (fun e => decide (e.name = (mem h).name)) with
    | none =>
      have := List.find?_eq_none.1 hf
      simpa using this
    | some e =>
      constructor
      · intro hh; exact absurd rfl (hh e.handle)
      · intro hh
        exact absurd (List.find?_some hf) (hh e (List.mem_of_find?_eq_some hf))
  constructor
  · rw [hfind]
    unfold addParameter
    simp only
    by_cases hs : (mem h).isString
    · rw [if_pos hs]; simp [hs]
    rw [if_neg hs]
    by_cases hn : s.entries.any (fun e => decide (e.name = (mem h).name))
    · rw [if_pos hn, hn]; simp
    rw [if_neg hn]
    have hs' : (mem h).isString = false := by simpa using hs
    have hn' : s.entries.any (fun e => decide (e.name = (mem h).name)) = false := Bool.eq_false_iff.2 hn
    cases hc : chooseDistribution mk s.nextId (mem h) d with
    | ok d' => simp only [true_iff]; exact ⟨hs', hn', d', rfl⟩
    | err e => simp
    | ub => simp
  · intro hne
    rcases addParameter_outcomes hmk hg h d with ⟨e, he⟩ | ⟨he, -⟩ | ⟨d', he, -⟩
    · rw [he]
    · rw [he]
    · rw [he] at hne; exact absurd rfl hne

/-- **C55** Positions at or beyond the number of parameters, below `2^32`, are refused. -/
theorem C55_out_of_bounds {s : Space} {index : Nat} (h : s.numParameters ≤ index) (h32 : index < 4294967296) :
    s.getParameter index = .err .outOfBounds := by
  unfold Space.getParameter
  rw [show toUint index = index from Nat.mod_eq_of_lt h32, List.getElem?_eq_none h]

/-- **C55, violated** Positions are reduced modulo `2^32`: the position `2^32 + i` designates the parameter at
position `i` instead of being refused. -/
theorem C55_index_wraps (s : Space) (index : Nat) (h : BitVec 64) (hi : s.getParameter index = .ok h) :
    s.getParameter (4294967296 + index) = .ok h := by
  unfold Space.getParameter at *
  rw [show toUint (4294967296 + index) = toUint index from Nat.add_mod_left _ _]
  exact hi

/-! ## C54 -/

theorem flatMap_at {ds : List DWrap} (hn : (ds.flatMap (·.indexes)).Nodup) : ∀ {k k' j j' : Nat} {d d' : DWrap} {i : Nat},
    ds[k]? = some d → d.indexes[j]? = some i → ds[k']? = some d' → d'.indexes[j']? = some i → k = k' ∧ j = j' := by
  induction ds with
  | nil => intro k k' j j' d d' i h; simp at h
  | cons x ds ih =>
    rw [List.flatMap_cons, List.nodup_append] at hn
    intro k k' j j' d d' i hk hj hk' hj'
    have hmem : ∀ {q : Nat} {y : DWrap} {jj : Nat}, ds[q]? = some y → y.indexes[jj]? = some i → i ∈ ds.flatMap (·.indexes) :=
      fun hq hjj => List.mem_flatMap.2 ⟨_, List.mem_of_getElem? hq, List.mem_of_getElem? hjj⟩
    cases k with
    | zero =>
      simp at hk
      subst hk
      cases k' with
      | zero =>
        simp at hk'
        subst hk'
        exact ⟨rfl, nodup_get hn.1 hj hj'⟩
      | succ k' =>
        exact absurd rfl (hn.2.2 i (List.mem_of_getElem? hj) i (hmem (by simpa using hk') hj'))
    | succ k =>
      cases k' with
      | zero =>
        simp at hk'
        subst hk'
        exact absurd rfl (hn.2.2 i (List.mem_of_getElem? hj') i (hmem (by simpa using hk) hj))
      | succ k' =>
        obtain ⟨h1, h2⟩ := ih hn.2.1 (k := k) (k' := k') (by simpa using hk) hj (by simpa using hk') hj'
        exact ⟨by omega, h2⟩

theorem find_dist {s : Space} (hp : Parts s) {d : DWrap} (hd : d ∈ s.dists) :
    s.dists.find? (fun x => decide (x.id = d.id)) = some d := by
  cases hf : s.dists.find? (fun x => decide (x.id = d.id)) with
  | none =>
    have := List.find?_eq_none.1 hf d hd
    simp at this
  | some x =>
    have hx := List.find?_some hf
    simp at hx
    obtain ⟨k, hk, hkx⟩ := List.mem_iff_getElem.1 (List.mem_of_find?_eq_some hf)
    obtain ⟨k', hk', hkd⟩ := List.mem_iff_getElem.1 hd
    have h1 : (s.dists.map (·.id))[k]? = some d.id := by simp [hk, hkx, hx]
    have h2 : (s.dists.map (·.id))[k']? = some d.id := by simp [hk', hkd]
    have := nodup_get hp.ids h1 h2
    subst this
    rw [← hkx, ← hkd]

/-- What the lookup answers, in a space whose wrappers share out the parameters. -/
theorem lookup_owner {s : Space} (hp : Parts s) (hsize : s.numParameters ≤ 4294967296) {d : DWrap} (hd : d ∈ s.dists)
    {j i : Nat} (hj : d.indexes[j]? = some i) : s.getParameterDistribution i = .ok (d.dist, j) := by
  obtain ⟨w, hw, hid, hji⟩ := hp.link d hd j i hj
  have hi := (List.getElem?_eq_some_iff.1 hw).1
  unfold Space.getParameterDistribution
  rw [show toUint i = i from Nat.mod_eq_of_lt (Nat.lt_of_lt_of_le hi hsize), hw]
  simp only
  rw [hid, find_dist hp hd, hji]

/-- **C54** Every parameter is governed by exactly one component of one distribution of the space, every
component of every distribution governs one parameter, and the lookup reports it. -/
theorem C54_partition (hmk : OneDimensional mk) {s : Space} (hr : Reachable ops jen little mem mk s)
    (hsize : s.numParameters ≤ 4294967296) :
    (∀ i, i < s.numParameters → ∃ (k j : Nat) (d : DWrap), s.dists[k]? = some d ∧ d.indexes[j]? = some i ∧
      s.getParameterDistribution i = .ok (d.dist, j) ∧
      ∀ (k' j' : Nat) (d' : DWrap), s.dists[k']? = some d' → d'.indexes[j']? = some i → k' = k ∧ j' = j) ∧
    (∀ d ∈ s.dists, d.dist.dim = d.indexes.length ∧ ∀ i ∈ d.indexes, i < s.numParameters) := by
  have hp := (reachable_good hmk hr).parts
  refine ⟨fun i hi => ?_, fun d hd => ⟨hp.dim d hd, fun i hi => hp.bound hd hi⟩⟩
  have hm : i ∈ s.dists.flatMap (·.indexes) := hp.cover.mem_iff.2 (List.mem_range.2 hi)
  obtain ⟨d, hd, hid⟩ := List.mem_flatMap.1 hm
  obtain ⟨k, hk, hkd⟩ := List.mem_iff_getElem.1 hd
  obtain ⟨j, hj, hji⟩ := List.mem_iff_getElem.1 hid
  have hk' : s.dists[k]? = some d := List.getElem?_eq_some_iff.2 ⟨hk, hkd⟩
  have hj' : d.indexes[j]? = some i := List.getElem?_eq_some_iff.2 ⟨hj, hji⟩
  exact ⟨k, j, d, hk', hj', lookup_owner hp hsize hd hj', fun k2 j2 d2 hk2 hj2 => flatMap_at hp.nodup hk2 hj2 hk' hj'⟩

/-- **C54** A redistribution over distinct positions of the space governs the parameters listed, component by
component, keeps the parameters themselves, and gives each parameter left alone either the same component
as before or its default distribution. -/
theorem C54_redistribution (hmk : OneDimensional mk) {s s' : Space} (hr : Reachable ops jen little mem mk s)
    (hsize : s.numParameters ≤ 4294967296) {d : Dist} {indexes : List Nat} (h0 : 0 < d.dim)
    (hlen : d.dim ≤ indexes.length) (h : setDistribution mk s d indexes = (s', .ok ())) :
    (∀ (j i : Nat), j < d.dim → indexes[j]? = some i → s'.getParameterDistribution i = .ok (d, j)) ∧
    s'.handles = s.handles ∧ Spec.conditions s' = Spec.conditions s ∧ s'.clauses = s.clauses ∧
    (∀ i, i < s.numParameters → i ∉ indexes.take d.dim →
      s'.getParameterDistribution i = s.getParameterDistribution i ∨
      ∃ id w d', s.params[i]? = some w ∧ mk id w.param = .ok d' ∧ s'.getParameterDistribution i = .ok (d', 0)) := by
  have hg := reachable_good hmk hr
  rcases setDistribution_spec hmk hg.parts h0 hlen with
    ⟨s1, he, hp', hbnd, hnd, hl, hent, hcl, hgo, hso, hw', ⟨dw, hdw, hdd, hdi⟩, hall⟩ | ⟨he, -⟩ | ⟨e, is', he, -⟩ | ⟨is', he, -⟩
  · rw [he] at h
    cases h
    have hsize' : s'.numParameters ≤ 4294967296 := by
      show s'.params.length ≤ _; rw [hl]; exact hsize
    obtain ⟨-, hc⟩ := redistributed_tables hg.tables hl hent hw'
    refine ⟨fun j i hj hi => ?_, ?_, hc, hcl, fun i hi hni => ?_⟩
    · have := lookup_owner hp' hsize' hdw (j := j) (i := i) (by rw [hdi, List.getElem?_take_of_lt hj]; exact hi)
      rw [this, hdd]
    · have := congrArg (List.map Prod.fst) hc
      simpa [Spec.conditions, Space.handles, Function.comp_def] using this
    · have hi' : i < s'.params.length := by rw [hl]; exact hi
      have hm : i ∈ s'.dists.flatMap (·.indexes) := hp'.cover.mem_iff.2 (List.mem_range.2 hi')
      obtain ⟨x, hx, hix⟩ := List.mem_flatMap.1 hm
      obtain ⟨j, hj, hji⟩ := List.mem_iff_getElem.1 hix
      have hj' : x.indexes[j]? = some i := List.getElem?_eq_some_iff.2 ⟨hj, hji⟩
      rw [lookup_owner hp' hsize' hx hj']
      rcases hall x hx with hold | ⟨-, hxi⟩ | ⟨i', w, hxi, hwi, hmkx⟩
      · exact .inl (lookup_owner hg.parts hsize hold hj').symm
      · rw [hxi] at hix; exact absurd hix hni
      · rw [hxi] at hix hj'
        simp at hix
        subst hix
        refine .inr ⟨x.id, w, x.dist, hwi, hmkx, ?_⟩
        have hj0 : j = 0 := by
          have := (List.getElem?_eq_some_iff.1 hj').1
          simp at this
          exact this
        rw [hj0]
  all_goals rw [he] at h; cases h

/-- **C54** A redistribution is refused with INVALID_VALUE, changing nothing, exactly when a position is out of
the space or repeated; otherwise it fails only if a default distribution cannot be made, and then changes
nothing either. -/
theorem C54_refusal (hmk : OneDimensional mk) (hdef : ∀ id p, mk id p ≠ .ub) {s : Space}
    (hr : Reachable ops jen little mem mk s) {d : Dist} {indexes : List Nat} (h0 : 0 < d.dim)
    (hlen : d.dim ≤ indexes.length) :
    (((∃ i ∈ indexes.take d.dim, s.numParameters ≤ i) ∨ ¬ (indexes.take d.dim).Nodup) →
      setDistribution mk s d indexes = (s, .err .invalidValue)) ∧
    (¬ ((∃ i ∈ indexes.take d.dim, s.numParameters ≤ i) ∨ ¬ (indexes.take d.dim).Nodup) →
      (setDistribution mk s d indexes).2 = .ok () ∨
      ∃ e id w, w ∈ s.params ∧ mk id w.param = .err e ∧ setDistribution mk s d indexes = (s, .err e)) := by
  have hg := reachable_good hmk hr
  rcases setDistribution_spec hmk hg.parts h0 hlen with
    ⟨s1, he, hp', hbnd, hnd, -⟩ | ⟨he, hbad⟩ | ⟨e, is', he, hdw⟩ | ⟨is', he, hbi, hdw⟩
  · refine ⟨fun hbad => ?_, fun _ => .inl (by rw [he])⟩
    rcases hbad with ⟨i, hi, hge⟩ | hnn
    · exact absurd (hbnd i hi) (by have : s.params.length ≤ i := hge; omega)
    · exact absurd hnd hnn
  · exact ⟨fun _ => he, fun hn => absurd hbad hn⟩
  · have hmkerr : ∀ (is : List Nat) (id : Nat), defaultWrappers mk s.params id is = .err e →
        ∃ id w, w ∈ s.params ∧ mk id w.param = .err e := by
      intro is
      induction is with
      | nil => intro id h; cases h
      | cons i is ih =>
        intro id h
        unfold defaultWrappers at h
        cases hw : s.params[i]? with
        | none => rw [hw] at h; cases h
        | some w =>
          rw [hw] at h
          simp only at h
          cases hm : mk id w.param with
          | err x =>
            rw [hm] at h
            cases h
            exact ⟨id, w, List.mem_of_getElem? hw, hm⟩
          | ub => rw [hm] at h; cases h
          | ok d =>
            rw [hm, Out.bind_ok] at h
            cases hr : defaultWrappers mk s.params (id + 1) is with
            | ok l => rw [hr] at h; cases h
            | ub => rw [hr] at h; cases h
            | err x => rw [hr] at h; cases h; exact ih _ hr
    obtain ⟨id, w, hw, hm⟩ := hmkerr _ _ hdw
    refine ⟨fun hbad => ?_, fun _ => .inr ⟨e, id, w, hw, hm, he⟩⟩
    unfold setDistribution
    rw [if_neg (by omega), if_pos]
    rw [← Bool.not_eq_false, badIndexes_false]
    rintro ⟨h1, h2⟩
    rcases hbad with ⟨i, hi, hge⟩ | hnn
    · exact absurd (h1 i hi) (by have : s.params.length ≤ i := hge; omega)
    · exact hnn h2
  · exact absurd hdw (defaultWrappers_defined hdef _ _ hbi)

end

/-! An instance: parameters `a` and `b` over `[0, 10)`; `b` is active when `a = 1`; `b = 5` is forbidden. -/

/-- Parameter `a`, at address 1. -/
def parA : Param := ⟨[0x61#8], .int 0#64, .numerical ⟨.int, 0#64, 10#64, 1#32, 0#32⟩ 0#64⟩
/-- Parameter `b`, at address 2. -/
def parB : Param := ⟨[0x62#8], .int 5#64, .numerical ⟨.int, 0#64, 10#64, 1#32, 0#32⟩ 0#64⟩

/-- The parameters of the examples. -/
def exMem (h : BitVec 64) : Param := if h = 1#64 then parA else parB

/-- Default distributions of the examples. -/
def exMk (id : Nat) (_ : Param) : Out Dist :=
  .ok ⟨BitVec.ofNat 64 id, 1, [⟨.int, 0#64, 10#64, 1#32, 0#32⟩],
    fun t k n => .ok [(List.range n).map fun i => BitVec.ofNat 64 ((t + 3 * k + i) % 10)]⟩

/-- `parameter at h = v`. -/
def isValue (h : BitVec 64) (p : Param) (v : BitVec 64) : Expr :=
  .node anObj .equal [.var anObj h p, .literal anObj (.int v)]

theorem isValue_built {h : BitVec 64} (hh : h ≠ 0#64) (p : Param) (v : BitVec 64) : Built (isValue h p v) :=
  .expression (o := anObj) (os := [anObj, anObj]) (type := 2) (nodes := [.param h p, .value (.int v)])
    (by simp [createExpression, Op.ofCode, arityMismatch, Op.arity, Node.refusal, Value.tag, hh, makeNodes, isValue,
      createVariable, createLiteral]) (by simp)

/-- The calls of the example. -/
def exHistory : List SpaceOp :=
  [.addParameter 1#64 none, .addParameter 2#64 none, .setCondition 1 (isValue 1#64 parA 1#64),
   .addClause (isValue 2#64 parB 5#64)]

theorem exMk_one : OneDimensional exMk := by
  intro id p d h
  cases h
  rfl

theorem exHistory_called : ∀ op ∈ exHistory, WellCalled op := by
  intro op h
  simp only [exHistory, List.mem_cons, List.not_mem_nil, or_false] at h
  rcases h with rfl | rfl | rfl | rfl
  · trivial
  · trivial
  · exact isValue_built (by decide) _ _
  · exact isValue_built (by decide) _ _

/-- Float operations and hash function of the examples. -/
def exOps : FloatOps := ⟨fun _ _ => 0#64, fun _ _ => 0#64, fun _ _ => 0#64, fun _ _ => 0#64, fun _ _ => 0#64⟩
def exJen : Bytes → BitVec 32 := fun _ => 0#32

/-- A space of the examples, after some calls. -/
def exRun (history : List SpaceOp) : Space := Space.empty.run exOps exJen true exMem exMk history

theorem exHistory_reachable : Reachable exOps exJen true exMem exMk (exRun exHistory) :=
  ⟨exHistory, exHistory_called, rfl⟩

example : Settled exOps exJen true exMem exMk Space.empty True exHistory := by
  show True
  trivial

example : (exRun exHistory).numParameters = 2 ∧
    (exRun exHistory).sorted = [0, 1] ∧ (exRun exHistory).clauses.length = 1 ∧
    (exRun exHistory).getParameterByName [0x62#8] = .ok 2#64 ∧
    (exRun exHistory).getParameter 1 = .ok 2#64 ∧ (exRun exHistory).getParameter 4294967297 = .ok 2#64 ∧
    (setCondition (exRun (exHistory.take 2)) 1 (isValue 1#64 parA 1#64)).2 = .ok () ∧
    (setCondition (exRun exHistory) 0 (isValue 2#64 parB 1#64)).2 = .err .invalidGraph ∧
    (setCondition (exRun exHistory) 0 (isValue 3#64 parB 1#64)).2 = .err .invalidParameter ∧
    (setCondition (exRun exHistory) 2 (isValue 2#64 parB 1#64)).2 = .err .outOfBounds := by decide +kernel

/-- One distribution over both parameters, then over the second one only: the first gets its default back. -/
example :
    (setDistribution exMk (exRun exHistory) jointDist [1, 0]).2 = .ok () ∧
    (setDistribution exMk (exRun exHistory) jointDist [1, 0]).1.dists.map (·.indexes) = [[1, 0]] ∧
    (setDistribution exMk (setDistribution exMk (exRun exHistory) jointDist [1, 0]).1 { jointDist with dim := 1 } [1]).1.dists.map
      (·.indexes) = [[1], [0]] ∧
    (setDistribution exMk (exRun exHistory) jointDist [1, 1]).2 = .err .invalidValue := by decide +kernel

end CCS.Props
