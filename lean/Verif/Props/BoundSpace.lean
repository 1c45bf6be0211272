/-
C147: configuration spaces described and questioned from Python and Ruby.
-/
import Verif.Spec.BoundSpace
import Verif.Props.BoundValues
import Verif.Props.Getters
import Verif.Props.Space

namespace CCS.Props
open CCS CCS.Spec

theorem space_index {mem : BitVec 64 → Param} {s : Space} (hg : Good mem s) {i : Nat} {h : BitVec 64} {p : Param}
    (hp : Holds s.ctx i h p) : s.getIndex h = .ok i ∧ s.getIndexByName p.name = .ok i := by
  have ht := good_ctx hg
  constructor
  · rcases ht.index h with ⟨j, q, hq, hj⟩ | ⟨hno, -⟩
    · rw [ht.handle_inj hp hq]; exact hj
    · exact absurd hp (hno _ _)
  · rcases ht.indexByName p.name with ⟨j, h', q, hq, hn, hj⟩ | ⟨hno, -⟩
    · rw [ht.name_inj hp hq hn.symm]; exact hj
    · exact absurd rfl (hno _ _ _ hp)

theorem conditions_whole (s : Space) :
    s.getConditions ⟨s.params.length, some (List.replicate s.params.length none), false⟩ =
      .ok (some (s.params.map (·.condition)), none) := by
  have h := overwrite_all (List.replicate s.params.length none) (s.params.map (·.condition)) (by simp)
  unfold Space.getConditions giveList
  simp [h]

theorem clauses_count (s : Space) : s.getForbiddenClauses ⟨0, none, true⟩ = .ok (none, some s.clauses.length) := by
  unfold Space.getForbiddenClauses giveList
  simp

theorem clauses_whole (s : Space) :
    s.getForbiddenClauses ⟨s.clauses.length, some (List.replicate s.clauses.length none), false⟩ =
      .ok (some (s.clauses.map some), none) := by
  have h := overwrite_all (List.replicate s.clauses.length none) (s.clauses.map some) (by simp)
  unfold Space.getForbiddenClauses giveList
  simp [h]

theorem parameters_whole (s : Space) : s.getParameters (some s.params.length) = .ok (some s.handles, s.params.length) := by
  unfold Space.getParameters
  simp

theorem marked_lists (wanted : Bool) : ∀ (ws : List PWrap), (ws.map (·.handle)).Nodup →
    (marked wanted (ws.map (·.handle)) (ws.map (·.condition))).Sublist (ws.map (·.handle)) ∧
    ∀ w ∈ ws, (w.handle ∈ marked wanted (ws.map (·.handle)) (ws.map (·.condition)) ↔ w.condition.isSome = wanted)
  | [], _ => ⟨by simp [marked], by simp⟩
  | w :: ws, hn => by
    simp only [List.map_cons, List.nodup_cons] at hn
    obtain ⟨h1, h2⟩ := marked_lists wanted ws hn.2
    have hout : w.handle ∉ marked wanted (ws.map (·.handle)) (ws.map (·.condition)) := fun h => hn.1 (h1.subset h)
    by_cases hw : w.condition.isSome = wanted
    · have he : marked wanted ((w :: ws).map (·.handle)) ((w :: ws).map (·.condition)) =
          w.handle :: marked wanted (ws.map (·.handle)) (ws.map (·.condition)) := by
        simp [marked, hw]
      rw [he]
      refine ⟨h1.cons_cons _, fun x hx => ?_⟩
      rcases List.mem_cons.1 hx with rfl | hx
      · simp [hw]
      · rw [List.mem_cons]
        constructor
        · rintro (h | h)
          · exact absurd (h ▸ List.mem_map_of_mem hx) hn.1
          · exact (h2 x hx).1 h
        · exact fun h => .inr ((h2 x hx).2 h)
    · have he : marked wanted ((w :: ws).map (·.handle)) ((w :: ws).map (·.condition)) =
          marked wanted (ws.map (·.handle)) (ws.map (·.condition)) := by
        simp [marked, hw]
      rw [he]
      refine ⟨h1.trans (List.sublist_cons_self _ _), fun x hx => ?_⟩
      rcases List.mem_cons.1 hx with rfl | hx
      · exact ⟨fun h => absurd h hout, fun h => absurd h hw⟩
      · exact h2 x hx

theorem marked_spec {mem : BitVec 64 → Param} {s : Space} (hg : Good mem s) (wanted : Bool) :
    ListsThose s wanted (marked wanted s.handles (s.params.map (·.condition))) := by
  have hn : (s.params.map (·.handle)).Nodup := by
    have := (good_ctx hg).handles
    simpa [Space.ctx, Function.comp_def] using this
  obtain ⟨h1, h2⟩ := marked_lists wanted s.params hn
  refine ⟨h1, fun i h c hi => ?_⟩
  obtain ⟨w, hw, rfl, rfl⟩ := conditions_some hi
  exact h2 w (List.mem_of_getElem? hw)

theorem addParameterList_until {ops : FloatOps} {jen : Bytes → BitVec 32} {little : Bool} {mem : BitVec 64 → Param}
    {mk : Nat → Param → Out Dist} : ∀ (l : List (BitVec 64 × Option Dist)) (s : Space),
    addParameterList mem mk s l = runUntil ops jen little mem mk s (l.map fun x => .addParameter x.1 x.2)
  | [], s => rfl
  | (h, d) :: l, s => by
    show (match addParameter mem mk s h d with | (s', .ok ()) => addParameterList mem mk s' l | r => r) =
      (match addParameter mem mk s h d with
        | (s', .ok ()) => runUntil ops jen little mem mk s' (l.map fun x => .addParameter x.1 x.2) | r => r)
    rcases addParameter mem mk s h d with ⟨s', r⟩
    cases r with
    | ok u => exact addParameterList_until l s'
    | err e => rfl
    | ub => rfl

theorem additions_none (hs : List (BitVec 64)) :
    (hs.map fun h => (h, (none : Option Dist))).map (fun x => SpaceOp.addParameter x.1 x.2) = additions hs fun _ => none := by
  unfold additions
  apply List.ext_getElem?
  intro i
  simp only [List.getElem?_map, List.map_map]
  by_cases hi : i < hs.length
  · simp [hi, List.getD_eq_getElem?_getD]
  · simp [hi]

theorem additions_zip {hs : List (BitVec 64)} {ds : List (Option Dist)} (hl : hs.length = ds.length) :
    (hs.zip ds).map (fun x => SpaceOp.addParameter x.1 x.2) = additions hs fun i => ds.getD i none := by
  unfold additions
  apply List.ext_getElem?
  intro i
  simp only [List.getElem?_map]
  by_cases hi : i < hs.length
  · have hi' : i < ds.length := hl ▸ hi
    simp [hi, hi', List.getD_eq_getElem?_getD, List.getElem?_zip_eq_some]
  · simp [hi]; omega

section
variable {ops : FloatOps} {jen : Bytes → BitVec 32} {little : Bool} {mem : BitVec 64 → Param} {mk : Nat → Param → Out Dist}

/-! ### Python -/

theorem python_positionOf {mem : BitVec 64 → Param} {s : Space} (hg : Good mem s) {i : Nat} (hi : i < 4294967296) {k : Py.Key}
    (hk : Py.Spec.Names s.ctx i k) : Py.positionOf s k = .ok i := by
  cases k with
  | parameter h => obtain ⟨p, hp⟩ := hk; exact (space_index hg hp).1
  | name n =>
    obtain ⟨h0, h, p, hp, rfl⟩ := hk
    show s.getIndexByName _ = _
    rw [Py.nul_free h0]; exact (space_index hg hp).2
  | position j =>
    show Out.ok (BitVec.ofInt 64 j).toNat = _
    rw [show j = (i : Int) from hk, Py.position_fits hi]
  | other => exact hk.elim

theorem python_ctx_size {s : Space} {j : Nat} {h : BitVec 64} {c : Option Expr} (hsize : s.numParameters ≤ 4294967296)
    (hc : (Spec.conditions s)[j]? = some (h, c)) : j < 4294967296 := by
  obtain ⟨w, hw, -, -⟩ := conditions_some hc
  exact Nat.lt_of_lt_of_le (List.getElem?_eq_some_iff.1 hw).1 hsize

/-- **C147** A condition given from Python to a parameter, named by the object, by its name or by its position, is given to that
parameter as the library does it; once accepted, it is the one read back by any key of that parameter, and the others keep theirs. -/
theorem C147_python_condition (hmk : OneDimensional mk) {s : Space} (hr : Reachable ops jen little mem mk s)
    (hsize : s.numParameters ≤ 4294967296) {i : Nat} (hi : i < s.numParameters) {k : Py.Key} (hk : Py.Spec.Names s.ctx i k)
    {e : Expr} (hb : Built e) :
    Py.setCondition s k e = setCondition s i e ∧
    ∀ s', Py.setCondition s k e = (s', .ok ()) → s'.handles = s.handles ∧ Py.condition s k = .ok none ∧
      ∀ (j : Nat) h c k', (Spec.conditions s)[j]? = some (h, c) → Py.Spec.Names s'.ctx j k' →
        Py.condition s' k' = .ok (if j = i then some e else c) := by
  have hg := reachable_good hmk hr
  have hi' : i < 4294967296 := Nat.lt_of_lt_of_le hi hsize
  have hu : ∀ j, j < 4294967296 → toUint j = j := fun j hj => Nat.mod_eq_of_lt hj
  have hpos := python_positionOf hg hi' hk
  have heq : Py.setCondition s k e = setCondition s i e := by
    unfold Py.setCondition withOut; rw [hpos]
  refine ⟨heq, fun s' hs' => ?_⟩
  rw [heq] at hs'
  obtain ⟨⟨a, ha, hc⟩, -⟩ := C48_order_after_acceptance ops jen little mem mk hmk hr hb hs'
  rw [hu i hi'] at ha hc
  have hr' : Reachable ops jen little mem mk s' := by
    have := reachable_step hr (op := .setCondition i e) hb
    rwa [show Space.step ops jen little mem mk s (.setCondition i e) = setCondition s i e from rfl, hs'] at this
  refine ⟨?_, ?_, fun j h c k' hj hk' => ?_⟩
  · have h1 : ∀ t : Space, t.handles = (Spec.conditions t).map (·.1) := fun t => by
      simp [Spec.conditions, Space.handles]
    rw [h1, h1, hc]
    apply List.ext_getElem?
    intro n
    simp only [List.getElem?_map, List.getElem?_set]
    by_cases hn : i = n
    · subst hn
      obtain ⟨hlt, hat⟩ := List.getElem?_eq_some_iff.1 ha
      simp [hlt, hat]
    · simp [hn]
  · obtain ⟨w, hw, -, hwc⟩ := conditions_some ha
    unfold Py.condition
    rw [hpos]
    show s.getCondition i = _
    unfold Space.getCondition
    rw [hu i hi', hw, ← hwc]
  · have hj4 := python_ctx_size hsize hj
    unfold Py.condition
    rw [python_positionOf (reachable_good hmk hr') hj4 hk']
    show s'.getCondition j = _
    have hj' : (Spec.conditions s')[j]? = some (if j = i then (a, some e) else (h, c)) := by
      rw [hc, List.getElem?_set]
      by_cases hji : i = j
      · subst hji
        simp [(List.getElem?_eq_some_iff.1 ha).1]
      · simp [hji, Ne.symm hji, hj]
    obtain ⟨w, hw, -, hwc⟩ := conditions_some (show (Spec.conditions s')[j]? = some ((if j = i then a else h),
      (if j = i then some e else c)) by rw [hj']; split <;> rfl)
    unfold Space.getCondition
    rw [hu j hj4, hw]
    exact congrArg _ hwc

/-- **C147** The conditions, the forbidden clauses and the parameters read from Python are those of the space, in order, and the
parameters said to be conditional (or not) are exactly those that have a condition (or have none). -/
theorem C147_python_lists (hmk : OneDimensional mk) {s : Space} (hr : Reachable ops jen little mem mk s) :
    Py.conditionsOf s = .ok ((Spec.conditions s).map (·.2)) ∧ Py.clausesOf s = .ok (s.clauses.map some) ∧
    Py.spaceParameters s = .ok s.handles ∧
    ∀ wanted, ∃ hs, Py.parametersWith wanted s = .ok hs ∧ ListsThose s wanted hs := by
  have hc : Py.conditionsOf s = .ok (s.params.map (·.condition)) := by
    unfold Py.conditionsOf
    split
    · rename_i h0; rw [List.length_eq_zero_iff.1 h0]; rfl
    · rw [conditions_whole]; rfl
  have hp : Py.spaceParameters s = .ok s.handles := by
    unfold Py.spaceParameters
    split
    · rename_i h0
      unfold Space.handles
      rw [List.length_eq_zero_iff.1 h0]; rfl
    · rw [parameters_whole]; rfl
  refine ⟨by rw [hc]; simp [Spec.conditions], ?_, hp, fun wanted => ⟨_, ?_, marked_spec (reachable_good hmk hr) wanted⟩⟩
  · unfold Py.clausesOf
    rw [clauses_count]
    show (if s.clauses.length = 0 then Out.ok [] else s.getForbiddenClauses ⟨s.clauses.length, some (List.replicate s.clauses.length none), false⟩ >>=
      fun r => Out.ok (r.1.getD [])) = _
    split
    · rename_i h0; rw [List.length_eq_zero_iff.1 h0]; rfl
    · rw [clauses_whole]; rfl
  · unfold Py.parametersWith
    rw [hp, hc]; rfl

theorem python_names_read (hmk : OneDimensional mk) {s s' : Space} (hr : Reachable ops jen little mem mk s)
    (hsize : s.numParameters ≤ 4294967296) {d : Dist} {is : List Nat} (h0 : 0 < d.dim) (hl : d.dim = is.length)
    (hb : ∀ i ∈ is, i < 4294967296) (hs' : setDistribution mk s d is = (s', .ok ())) :
    s'.handles = s.handles ∧ Spec.conditions s' = Spec.conditions s ∧
    ∀ (j i : Nat) k', is[j]? = some i → Py.Spec.Names s'.ctx i k' → Py.distributionOf s' k' = .ok (d, j) := by
  obtain ⟨h1, h2, h3, -⟩ := C54_redistribution ops jen little mem mk hmk hr hsize h0 (Nat.le_of_eq hl) hs'
  have hr' : Reachable ops jen little mem mk s' := by
    have := reachable_step hr (op := .setDistribution d is) ⟨h0, Nat.le_of_eq hl⟩
    rwa [show Space.step ops jen little mem mk s (.setDistribution d is) = setDistribution mk s d is from rfl, hs'] at this
  refine ⟨h2, h3, fun j i k' hj hk' => ?_⟩
  unfold Py.distributionOf
  rw [python_positionOf (reachable_good hmk hr') (hb i (List.mem_of_getElem? hj)) hk']
  exact h1 j i (by rw [hl]; exact (List.getElem?_eq_some_iff.1 hj).1) hj

/-- **C147** A distribution given from Python with a list of parameters that has not as many elements as it has dimensions is refused
with INVALID_VALUE, and nothing changes. -/
theorem C147_python_distribution_count (mk : Nat → Param → Out Dist) (s : Space) (d : Dist) (ks : List Py.Key) (h : ks.length ≠ d.dim) :
    Py.setDistribution mk s d ks = (s, .err .invalidValue) := if_pos (Ne.symm h)

theorem python_positionsOf {s : Space} (hg : Good mem s) : ∀ {ks : List Py.Key} {is : List Nat}, (∀ i ∈ is, i < 4294967296) →
    Py.Spec.NameAll s.ctx ks is → Py.positionsOf s ks = .ok is
  | [], [], _, _ => rfl
  | [], _ :: _, _, h => absurd h.1 (by simp)
  | _ :: _, [], _, h => absurd h.1 (by simp)
  | k :: ks, i :: is, hb, h => by
    unfold Py.positionsOf
    rw [python_positionOf hg (hb i (by simp)) (h.2 0 k i rfl rfl),
      python_positionsOf hg (fun x hx => hb x (List.mem_cons_of_mem _ hx))
        ⟨by simpa using h.1, fun j k i hk hi => h.2 (j + 1) k i (by simpa using hk) (by simpa using hi)⟩]
    rfl

/-- **C147** A distribution given from Python to parameters named by the objects, by their names or by their positions is given to them in
this order, as the library does it; once accepted, it is what is read back by any key of each of them, with the place of the parameter
in the list. -/
theorem C147_python_distribution (hmk : OneDimensional mk) {s : Space} (hr : Reachable ops jen little mem mk s)
    (hsize : s.numParameters ≤ 4294967296) {d : Dist} (h0 : 0 < d.dim) {ks : List Py.Key} {is : List Nat}
    (hd : d.dim = ks.length) (hb : ∀ i ∈ is, i < s.numParameters) (hk : Py.Spec.NameAll s.ctx ks is) :
    Py.setDistribution mk s d ks = setDistribution mk s d is ∧
    ∀ s', Py.setDistribution mk s d ks = (s', .ok ()) → s'.handles = s.handles ∧ Spec.conditions s' = Spec.conditions s ∧
      ∀ (j i : Nat) k', is[j]? = some i → Py.Spec.Names s'.ctx i k' → Py.distributionOf s' k' = .ok (d, j) := by
  have hb' : ∀ i ∈ is, i < 4294967296 := fun i hi => Nat.lt_of_lt_of_le (hb i hi) hsize
  have heq : Py.setDistribution mk s d ks = setDistribution mk s d is := by
    unfold Py.setDistribution withOut
    rw [if_neg (by simpa using hd), python_positionsOf (reachable_good hmk hr) hb' hk]
  exact ⟨heq, fun s' hs' => python_names_read hmk hr hsize h0 (hd.trans hk.1) hb' (heq ▸ hs')⟩

/-- **C147** Parameters added together from Python are added as they would be one by one, each with its distribution or with the default
one, until one is refused; with a list of distributions of another length nothing is added.  An empty list of distributions is not
covered: see `C147_python_no_distributions`. -/
theorem C147_python_additions_partial (s : Space) (hs : List (BitVec 64)) :
    Py.addParameters mem mk s hs none = runUntil ops jen little mem mk s (additions hs fun _ => none) ∧
    ∀ ds, ds ≠ [] → hs ≠ [] →
      (hs.length = ds.length → Py.addParameters mem mk s hs (some ds) =
        runUntil ops jen little mem mk s (additions hs fun i => ds.getD i none)) ∧
      (hs.length ≠ ds.length → Py.addParameters mem mk s hs (some ds) = (s, .err .invalidValue)) := by
  constructor
  · unfold Py.addParameters
    split
    · rename_i h; rw [List.length_eq_zero_iff.1 h]; rfl
    · show addParameterList mem mk s _ = _
      rw [addParameterList_until (ops := ops) (jen := jen) (little := little), additions_none]
  · intro ds hd hn
    obtain ⟨x, ds, rfl⟩ := List.exists_cons_of_ne_nil hd
    have h0 : hs.length ≠ 0 := fun h => hn (List.length_eq_zero_iff.1 h)
    constructor
    · intro hl
      unfold Py.addParameters
      rw [if_neg h0]
      show (if _ then _ else _) = _
      rw [if_neg (by simpa using hl), addParameterList_until (ops := ops) (jen := jen) (little := little), additions_zip hl]
    · intro hl
      unfold Py.addParameters
      rw [if_neg h0]
      exact if_pos hl

/-- **C147, violated** An empty list of distributions, which has not the length of a list of parameters, is not refused from Python: the
parameters get default distributions. -/
theorem C147_python_no_distributions (s : Space) (hs : List (BitVec 64)) :
    Py.addParameters mem mk s hs (some []) = Py.addParameters mem mk s hs none := by
  unfold Py.addParameters
  split <;> rfl

/-! ### Ruby -/

theorem ruby_positionOf {mem : BitVec 64 → Param} {s : Space} (hg : Good mem s) {i : Nat} (_hi : i < 4294967296) {k : Rb.Key}
    (hk : Rb.Spec.Names s.ctx i k) : Rb.positionOf s k = .ok i := by
  cases k with
  | parameter h => obtain ⟨p, hp⟩ := hk; exact (space_index hg hp).1
  | name n =>
    obtain ⟨h0, h, p, hp, rfl⟩ := hk
    show Rb.cText _ >>= s.getIndexByName = _
    rw [Rb.cText_free h0]; exact (space_index hg hp).2
  | symbol n =>
    obtain ⟨h0, h, p, hp, rfl⟩ := hk
    show Rb.cText _ >>= s.getIndexByName = _
    rw [Rb.cText_free h0]; exact (space_index hg hp).2
  | position j => exact congrArg Out.ok hk
  | other => exact hk.elim

theorem ruby_ctx_size {s : Space} {j : Nat} {h : BitVec 64} {c : Option Expr} (hsize : s.numParameters ≤ 4294967296)
    (hc : (Spec.conditions s)[j]? = some (h, c)) : j < 4294967296 := by
  obtain ⟨w, hw, -, -⟩ := conditions_some hc
  exact Nat.lt_of_lt_of_le (List.getElem?_eq_some_iff.1 hw).1 hsize

/-- **C147** A condition given from Ruby to a parameter, named by the object, by its name or by its position, is given to that
parameter as the library does it; once accepted, it is the one read back by any key of that parameter, and the others keep theirs. -/
theorem C147_ruby_condition (hmk : OneDimensional mk) {s : Space} (hr : Reachable ops jen little mem mk s)
    (hsize : s.numParameters ≤ 4294967296) {i : Nat} (hi : i < s.numParameters) {k : Rb.Key} (hk : Rb.Spec.Names s.ctx i k)
    {e : Expr} (hb : Built e) :
    Rb.setCondition s k e = setCondition s i e ∧
    ∀ s', Rb.setCondition s k e = (s', .ok ()) → s'.handles = s.handles ∧ Rb.condition s k = .ok none ∧
      ∀ (j : Nat) h c k', (Spec.conditions s)[j]? = some (h, c) → Rb.Spec.Names s'.ctx j k' →
        Rb.condition s' k' = .ok (if j = i then some e else c) := by
  have hg := reachable_good hmk hr
  have hi' : i < 4294967296 := Nat.lt_of_lt_of_le hi hsize
  have hu : ∀ j, j < 4294967296 → toUint j = j := fun j hj => Nat.mod_eq_of_lt hj
  have hpos := ruby_positionOf hg hi' hk
  have heq : Rb.setCondition s k e = setCondition s i e := by
    unfold Rb.setCondition withOut; rw [hpos]
  refine ⟨heq, fun s' hs' => ?_⟩
  rw [heq] at hs'
  obtain ⟨⟨a, ha, hc⟩, -⟩ := C48_order_after_acceptance ops jen little mem mk hmk hr hb hs'
  rw [hu i hi'] at ha hc
  have hr' : Reachable ops jen little mem mk s' := by
    have := reachable_step hr (op := .setCondition i e) hb
    rwa [show Space.step ops jen little mem mk s (.setCondition i e) = setCondition s i e from rfl, hs'] at this
  refine ⟨?_, ?_, fun j h c k' hj hk' => ?_⟩
  · have h1 : ∀ t : Space, t.handles = (Spec.conditions t).map (·.1) := fun t => by
      simp [Spec.conditions, Space.handles]
    rw [h1, h1, hc]
    apply List.ext_getElem?
    intro n
    simp only [List.getElem?_map, List.getElem?_set]
    by_cases hn : i = n
    · subst hn
      obtain ⟨hlt, hat⟩ := List.getElem?_eq_some_iff.1 ha
      simp [hlt, hat]
    · simp [hn]
  · obtain ⟨w, hw, -, hwc⟩ := conditions_some ha
    unfold Rb.condition
    rw [hpos]
    show s.getCondition i = _
    unfold Space.getCondition
    rw [hu i hi', hw, ← hwc]
  · have hj4 := ruby_ctx_size hsize hj
    unfold Rb.condition
    rw [ruby_positionOf (reachable_good hmk hr') hj4 hk']
    show s'.getCondition j = _
    have hj' : (Spec.conditions s')[j]? = some (if j = i then (a, some e) else (h, c)) := by
      rw [hc, List.getElem?_set]
      by_cases hji : i = j
      · subst hji
        simp [(List.getElem?_eq_some_iff.1 ha).1]
      · simp [hji, Ne.symm hji, hj]
    obtain ⟨w, hw, -, hwc⟩ := conditions_some (show (Spec.conditions s')[j]? = some ((if j = i then a else h),
      (if j = i then some e else c)) by rw [hj']; split <;> rfl)
    unfold Space.getCondition
    rw [hu j hj4, hw]
    exact congrArg _ hwc

/-- **C147** The conditions, the forbidden clauses and the parameters read from Ruby are those of the space, in order, and the
parameters said to be conditional (or not) are exactly those that have a condition (or have none). -/
theorem C147_ruby_lists (hmk : OneDimensional mk) {s : Space} (hr : Reachable ops jen little mem mk s) :
    Rb.conditionsOf s = .ok ((Spec.conditions s).map (·.2)) ∧ Rb.clausesOf s = .ok (s.clauses.map some) ∧
    Rb.spaceParameters s = .ok s.handles ∧
    ∀ wanted, ∃ hs, Rb.parametersWith wanted s = .ok hs ∧ ListsThose s wanted hs := by
  have hc : Rb.conditionsOf s = .ok (s.params.map (·.condition)) := by
    unfold Rb.conditionsOf
    rw [conditions_whole]; rfl
  have hp : Rb.spaceParameters s = .ok s.handles := by
    unfold Rb.spaceParameters
    split
    · rename_i h0
      unfold Space.handles
      rw [List.length_eq_zero_iff.1 h0]; rfl
    · rw [parameters_whole]; rfl
  refine ⟨by rw [hc]; simp [Spec.conditions], ?_, hp, fun wanted => ⟨_, ?_, marked_spec (reachable_good hmk hr) wanted⟩⟩
  · unfold Rb.clausesOf
    rw [clauses_count]
    show (s.getForbiddenClauses ⟨s.clauses.length, some (List.replicate s.clauses.length none), false⟩ >>=
      fun r => Out.ok (r.1.getD [])) = _
    rw [clauses_whole]; rfl
  · unfold Rb.parametersWith
    rw [hp, hc]; rfl

theorem ruby_names_read (hmk : OneDimensional mk) {s s' : Space} (hr : Reachable ops jen little mem mk s)
    (hsize : s.numParameters ≤ 4294967296) {d : Dist} {is : List Nat} (h0 : 0 < d.dim) (hl : d.dim = is.length)
    (hb : ∀ i ∈ is, i < 4294967296) (hs' : setDistribution mk s d is = (s', .ok ())) :
    s'.handles = s.handles ∧ Spec.conditions s' = Spec.conditions s ∧
    ∀ (j i : Nat) k', is[j]? = some i → Rb.Spec.Names s'.ctx i k' → Rb.distributionOf s' k' = .ok (d, j) := by
  obtain ⟨h1, h2, h3, -⟩ := C54_redistribution ops jen little mem mk hmk hr hsize h0 (Nat.le_of_eq hl) hs'
  have hr' : Reachable ops jen little mem mk s' := by
    have := reachable_step hr (op := .setDistribution d is) ⟨h0, Nat.le_of_eq hl⟩
    rwa [show Space.step ops jen little mem mk s (.setDistribution d is) = setDistribution mk s d is from rfl, hs'] at this
  refine ⟨h2, h3, fun j i k' hj hk' => ?_⟩
  unfold Rb.distributionOf
  rw [ruby_positionOf (reachable_good hmk hr') (hb i (List.mem_of_getElem? hj)) hk']
  exact h1 j i (by rw [hl]; exact (List.getElem?_eq_some_iff.1 hj).1) hj

/-- **C147** A distribution given from Ruby with a list of parameters that has not as many elements as it has dimensions is refused
with INVALID_VALUE, and nothing changes. -/
theorem C147_ruby_distribution_count (mk : Nat → Param → Out Dist) (s : Space) (d : Dist) (ks : List Rb.Key) (h : ks.length ≠ d.dim) :
    Rb.setDistribution mk s d ks = (s, .err .invalidValue) := if_pos (Ne.symm h)

theorem ruby_positionsOf {s : Space} (hg : Good mem s) : ∀ {ks : List Rb.Key} {is : List Nat}, (∀ i ∈ is, i < 4294967296) →
    (∀ k ∈ ks, ¬ Rb.Spec.IsName k) → Rb.Spec.NameAll s.ctx ks is → Rb.positionsOf s ks = .ok is
  | [], [], _, _, _ => rfl
  | [], _ :: _, _, _, h => absurd h.1 (by simp)
  | _ :: _, [], _, _, h => absurd h.1 (by simp)
  | k :: ks, i :: is, hb, hn, h => by
    have hl : Rb.listedPosition s k = .ok i := by
      have h1 := ruby_positionOf hg (hb i (by simp)) (h.2 0 k i rfl rfl)
      have h2 := hn k (by simp)
      cases k with
      | parameter h => exact h1
      | name n => exact absurd trivial h2
      | symbol n => exact absurd trivial h2
      | position j => exact h1
      | other => exact h1
    unfold Rb.positionsOf
    rw [hl, ruby_positionsOf hg (fun x hx => hb x (List.mem_cons_of_mem _ hx)) (fun x hx => hn x (by simp [hx]))
        ⟨by simpa using h.1, fun j k i hk hi => h.2 (j + 1) k i (by simpa using hk) (by simpa using hi)⟩]
    rfl

/-- **C147** A distribution given from Ruby to parameters named by the objects or by their positions is given to them in this order, as the
library does it; once accepted, it is what is read back by any key of each of them.  Names are not covered: see
`C147_ruby_distribution_by_name`. -/
theorem C147_ruby_distribution_partial (hmk : OneDimensional mk) {s : Space} (hr : Reachable ops jen little mem mk s)
    (hsize : s.numParameters ≤ 4294967296) {d : Dist} (h0 : 0 < d.dim) {ks : List Rb.Key} {is : List Nat}
    (hd : d.dim = ks.length) (hb : ∀ i ∈ is, i < s.numParameters) (hn : ∀ k ∈ ks, ¬ Rb.Spec.IsName k)
    (hk : Rb.Spec.NameAll s.ctx ks is) :
    Rb.setDistribution mk s d ks = setDistribution mk s d is ∧
    ∀ s', Rb.setDistribution mk s d ks = (s', .ok ()) → s'.handles = s.handles ∧ Spec.conditions s' = Spec.conditions s ∧
      ∀ (j i : Nat) k', is[j]? = some i → Rb.Spec.Names s'.ctx i k' → Rb.distributionOf s' k' = .ok (d, j) := by
  have hb' : ∀ i ∈ is, i < 4294967296 := fun i hi => Nat.lt_of_lt_of_le (hb i hi) hsize
  have heq : Rb.setDistribution mk s d ks = setDistribution mk s d is := by
    unfold Rb.setDistribution withOut
    rw [if_neg (by simpa using hd), ruby_positionsOf (reachable_good hmk hr) hb' hn hk]
  exact ⟨heq, fun s' hs' => ruby_names_read hmk hr hsize h0 (hd.trans hk.1) hb' (heq ▸ hs')⟩

theorem ruby_positionsOf_name (s : Space) : ∀ {ks : List Rb.Key}, (∃ k ∈ ks, Rb.Spec.IsName k) → ∀ is, Rb.positionsOf s ks ≠ .ok is
  | [], h, _ => by obtain ⟨k, hk, -⟩ := h; cases hk
  | k :: ks, h, is => by
    intro he
    unfold Rb.positionsOf at he
    obtain ⟨i, hi, he⟩ := bind_eq_ok he
    obtain ⟨js, hjs, -⟩ := bind_eq_ok he
    obtain ⟨k', hk', hn⟩ := h
    rcases List.mem_cons.1 hk' with rfl | hk'
    · cases k' <;> first | exact hn.elim | cases hi
    · exact ruby_positionsOf_name s ⟨k', hk', hn⟩ js hjs

/-- **C147, violated** From Ruby, no distribution can be given to parameters of which one is named by its name: the call fails, whatever the
name, and nothing changes. -/
theorem C147_ruby_distribution_by_name (s : Space) (d : Dist) (ks : List Rb.Key) (h : ∃ k ∈ ks, Rb.Spec.IsName k) :
    (Rb.setDistribution mk s d ks).1 = s ∧ (Rb.setDistribution mk s d ks).2 ≠ .ok () := by
  unfold Rb.setDistribution
  split
  · exact ⟨rfl, (nomatch ·)⟩
  · cases hp : Rb.positionsOf s ks with
    | ok is => exact absurd hp (ruby_positionsOf_name s h is)
    | err e => exact ⟨rfl, (nomatch ·)⟩
    | ub => exact ⟨rfl, (nomatch ·)⟩

/-- **C147** Parameters added together from Ruby are added as they would be one by one, each with its distribution or all with the default
one, until one is refused; with a list of distributions of another length nothing is added.  A list with `nil` is not covered: see
`C147_ruby_default_distribution`. -/
theorem C147_ruby_additions_partial (s : Space) (hs : List (BitVec 64)) :
    Rb.addParameters mem mk s hs none = runUntil ops jen little mem mk s (additions hs fun _ => none) ∧
    ∀ ds, hs ≠ [] → none ∉ ds →
      (hs.length = ds.length → Rb.addParameters mem mk s hs (some ds) =
        runUntil ops jen little mem mk s (additions hs fun i => ds.getD i none)) ∧
      (hs.length ≠ ds.length → Rb.addParameters mem mk s hs (some ds) = (s, .err .invalidValue)) := by
  constructor
  · unfold Rb.addParameters
    split
    · rename_i h; rw [List.length_eq_zero_iff.1 h]; rfl
    · show addParameterList mem mk s _ = _
      rw [addParameterList_until (ops := ops) (jen := jen) (little := little), additions_none]
  · intro ds hn hd
    have h0 : hs.length ≠ 0 := fun h => hn (List.length_eq_zero_iff.1 h)
    have hany : ¬ (ds.any (·.isNone)) = true := by
      intro h
      obtain ⟨x, hx, hxn⟩ := List.any_eq_true.1 h
      cases x with
      | none => exact hd hx
      | some d => cases hxn
    constructor
    · intro hl
      unfold Rb.addParameters
      rw [if_neg h0]
      show (if _ then _ else if _ then _ else _) = _
      rw [if_neg (by simpa using hl), if_neg hany, addParameterList_until (ops := ops) (jen := jen) (little := little),
        additions_zip hl]
    · intro hl
      unfold Rb.addParameters
      rw [if_neg h0]
      exact if_pos hl

/-- **C147, violated** From Ruby, a list of distributions in which `nil` asks for a default one is refused with an exception, and nothing is
added, although the library and Python take it. -/
theorem C147_ruby_default_distribution (s : Space) {hs : List (BitVec 64)} {ds : List (Option Dist)} (h0 : hs ≠ [])
    (hl : hs.length = ds.length) (hd : none ∈ ds) :
    Rb.addParameters mem mk s hs (some ds) = (s, .err .external) ∧
    Py.addParameters mem mk s hs (some ds) = runUntil ops jen little mem mk s (additions hs fun i => ds.getD i none) := by
  constructor
  · unfold Rb.addParameters
    rw [if_neg fun h => h0 (List.length_eq_zero_iff.1 h)]
    show (if _ then _ else if _ then _ else _) = _
    rw [if_neg (by simpa using hl), if_pos (List.any_eq_true.2 ⟨none, hd, rfl⟩)]
  · exact ((C147_python_additions_partial s hs).2 ds (fun h => by rw [h] at hd; cases hd) h0).1 hl

end

/-! ### Examples -/

example : Py.Spec.Names (exRun exHistory).ctx 1 (.name [0x62#8]) := ⟨by decide, 2#64, parB, rfl, rfl⟩
example : Rb.Spec.Names (exRun exHistory).ctx 1 (.symbol [0x62#8]) := ⟨by decide, 2#64, parB, rfl, rfl⟩
example : Py.Spec.Names (exRun exHistory).ctx 0 (.parameter 1#64) := ⟨parA, rfl⟩

example :
    (Py.setCondition (exRun (exHistory.take 2)) (.name [0x62#8]) (isValue 1#64 parA 1#64)).2 = .ok () ∧
    (Rb.setCondition (exRun (exHistory.take 2)) (.symbol [0x62#8]) (isValue 1#64 parA 1#64)).2 = .ok () ∧
    (Py.setCondition (exRun exHistory) (.parameter 1#64) (isValue 2#64 parB 1#64)).2 = .err .invalidGraph ∧
    Py.parametersWith true (exRun exHistory) = .ok [2#64] ∧ Rb.parametersWith false (exRun exHistory) = .ok [1#64] := by decide +kernel

example :
    (Py.setDistribution exMk (exRun exHistory) jointDist [.name [0x62#8], .parameter 1#64]).2 = .ok () ∧
    (Rb.setDistribution exMk (exRun exHistory) jointDist [.parameter 2#64, .position 0#64]).2 = .ok () ∧
    (Rb.setDistribution exMk (exRun exHistory) jointDist [.parameter 2#64, .name [0x61#8]]).2 = .err .external := by decide +kernel

example : Py.distributionOf (Py.setDistribution exMk (exRun exHistory) jointDist [.name [0x62#8], .parameter 1#64]).1 (.name [0x61#8]) =
    .ok (jointDist, 1) := rfl

example : Py.Spec.NameAll (exRun exHistory).ctx [.name [0x62#8], .parameter 1#64] [1, 0] := by
  refine ⟨rfl, fun j k i hk hi => ?_⟩
  rcases j with _ | _ | j
  · cases hk; cases hi; exact ⟨by decide, 2#64, parB, rfl, rfl⟩
  · cases hk; cases hi; exact ⟨parA, rfl⟩
  · cases hk

example :
    (Py.addParameters exMem exMk Space.empty [1#64, 2#64] none).1.handles = [1#64, 2#64] ∧
    (Py.addParameters exMem exMk Space.empty [1#64, 1#64] none).1.handles = [1#64] ∧
    (Py.addParameters exMem exMk Space.empty [1#64, 2#64] (some [some { jointDist with dim := 1 }, none])).2 = .ok () ∧
    (Py.addParameters exMem exMk Space.empty [1#64, 2#64] (some [])).2 = .ok () ∧
    (Rb.addParameters exMem exMk Space.empty [1#64, 2#64] (some [])).2 = .err .invalidValue ∧
    (Rb.addParameters exMem exMk Space.empty [1#64, 2#64] (some [some { jointDist with dim := 1 }, none])).2 = .err .external := by
  decide +kernel

end CCS.Props
