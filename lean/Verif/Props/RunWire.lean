import Verif.Lemmas.RunTuner

/-!
# C89 to C92: storing configurations, features, objective and features spaces, evaluations and tuners
-/

namespace CCS.Props

open Spec

/-! ## C89: configurations and features -/

/-- **C89** What storing a configuration or features object gives: the bytes announced are written, in any process; without a handle map
they are refused; with one, the outcome is that of binding the values again to the space that the map has at the written
address (`Attached`), and then that of adding the object to the map when this is asked. -/
theorem C89_outcome (jen : Bytes → BitVec 32) (little little' : Bool) (type spaceType : BitVec 32) (mapped : Bool) {o : BindObj}
    (h : StorableBound o) {m : Handles} (hm : SmallMap m) (addr : BitVec 64) :
    ∃ bs, WritesBytes (serBound little type o) bs ∧ szBound type o = .ok bs.length ∧
      (∀ tail, deBound jen little' type spaceType mapped none addr (bs ++ tail) = .err .invalidObject) ∧
      ∃ r, Attached m spaceType o.binding r ∧
        (∀ e, r = .err e → ∀ tail, deBound jen little' type spaceType mapped (some m) addr (bs ++ tail) = .err e) ∧
        ∀ b, r = .ok b →
          (mapped = false → ReadsBack (deBound jen little' type spaceType mapped (some m) addr) bs (m, ⟨addr, b, o.data⟩)) ∧
          (mapped = true → m.get o.handle = none → ∃ m', (∀ k, m'.get k = if k = o.handle then some ⟨type, addr, Ctx.empty⟩ else m.get k) ∧
            ReadsBack (deBound jen little' type spaceType mapped (some m) addr) bs (m', ⟨addr, b, o.data⟩)) ∧
          (mapped = true → m.get o.handle ≠ none →
            ∀ tail, deBound jen little' type spaceType mapped (some m) addr (bs ++ tail) = .err .duplicateHandle) := by
  have hr := readsAs_bound jen little' type spaceType mapped m addr h
  refine ⟨boundBytes type o, writes_bound little type h, length_bound type h, fun tail => rfl,
    attach jen little' m spaceType o.binding, attached_attach jen little' hm spaceType h.binding, fun e he tail => ?_, fun b hb => ?_⟩
  · have := hr tail
    rwa [he, Out.bind_err] at this
  · rw [hb, Out.bind_ok] at hr
    refine ⟨fun hf tail => ?_, fun ht hn => ?_, fun ht hn tail => ?_⟩
    · subst hf
      exact hr tail
    · subst ht
      have ha := Handles.add_ok hn ⟨type, addr, Ctx.empty⟩
      refine ⟨_, fun k => Handles.get_add ha k, fun tail => ?_⟩
      have := hr tail
      rwa [addMapped, if_pos rfl, ha, Out.bind_ok] at this
    · subst ht
      have := hr tail
      rwa [addMapped, if_pos rfl, Handles.add_err hn, Out.bind_err] at this

/-- **C89, proved part** When the map has, at the written address, a space with as many parameters as there are values and for which the
strings are legal, the object comes back with the same values, in that space, and the same user data. -/
theorem C89_round_trip_partial (jen : Bytes → BitVec 32) (little little' : Bool) (type spaceType : BitVec 32) (mapped : Bool)
    {o : BindObj} (h : StorableBound o) {m : Handles} (addr : BitVec 64) {a : BitVec 64} {c : Ctx}
    (hg : m.get o.binding.context = some ⟨spaceType, a, c⟩) (hc : c.params.length < 2 ^ 32) (hf : FitsSpace c o.binding)
    (hn : mapped = true → m.get o.handle = none) :
    ∃ bs m' o', WritesBytes (serBound little type o) bs ∧ szBound type o = .ok bs.length ∧
      ReadsBack (deBound jen little' type spaceType mapped (some m) addr) bs (m', o') ∧ SameBound addr a o o' := by
  have hr := readsAs_bound jen little' type spaceType mapped m addr h
  obtain ⟨b', h1, h2⟩ := attach_fits jen little' h.binding hg hc hf
  rw [h1, Out.bind_ok] at hr
  cases mapped with
  | false => exact ⟨_, m, ⟨addr, b', o.data⟩, writes_bound little type h, length_bound type h, fun tail => hr tail, rfl, h2, rfl⟩
  | true =>
    refine ⟨_, (o.handle, ⟨type, addr, Ctx.empty⟩) :: m, ⟨addr, b', o.data⟩, writes_bound little type h, length_bound type h, fun tail => ?_, rfl, h2, rfl⟩
    have := hr tail
    rwa [addMapped, if_pos rfl, Handles.add_ok (hn rfl), Out.bind_ok] at this

section
variable (jen : Bytes → BitVec 32) (little little' : Bool) (type spaceType : BitVec 32) (mapped : Bool) {o : BindObj}
  (h : StorableBound o) {m : Handles} (addr : BitVec 64) {a : BitVec 64} {c : Ctx}
  (hg : m.get o.binding.context = some ⟨spaceType, a, c⟩) (hc : c.params.length < 2 ^ 32)

include h hg hc

/-- **C89, violated** An object with values whose space has got other parameters since is written, and what was written is refused. -/
theorem C89_grown_refused (hv : o.binding.values ≠ []) (hl : o.binding.values.length ≠ c.params.length) :
    ∃ bs, WritesBytes (serBound little type o) bs ∧ szBound type o = .ok bs.length ∧
      ∀ tail, deBound jen little' type spaceType mapped (some m) addr (bs ++ tail) = .err .invalidValue := by
  refine ⟨boundBytes type o, writes_bound little type h, length_bound type h, fun tail => ?_⟩
  have hr := readsAs_bound jen little' type spaceType mapped m addr h tail
  have ha : attach jen little' m spaceType o.binding = .err .invalidValue := by
    unfold attach Handles.space
    rw [hg]
    dsimp only
    rw [if_pos rfl, Out.bind_ok]
    have hb := rebinds_attach jen little' h.binding a hc
    revert hb
    generalize createBinding jen little' a c (givenValues (readValues o.binding)) = x
    intro hb
    cases hb with
    | same _ h2 => exact absurd h2 hl
    | blank h1 => exact absurd h1 hv
    | count => rfl
    | illegal _ h2 => exact absurd h2 hl
  rwa [ha, Out.bind_err] at hr

/-- **C89, violated** An object made when its space had no parameters comes back with a value for each parameter the space has now,
none of them set. -/
theorem C89_empty_blank (hv : o.binding.values = []) (hn : mapped = true → m.get o.handle = none) :
    ∃ bs m' o', WritesBytes (serBound little type o) bs ∧ szBound type o = .ok bs.length ∧
      ReadsBack (deBound jen little' type spaceType mapped (some m) addr) bs (m', o') ∧
      o'.binding.context = a ∧ o'.binding.values.map (·.v) = List.replicate c.params.length .none := by
  have hr := readsAs_bound jen little' type spaceType mapped m addr h
  have ha : ∃ b', attach jen little' m spaceType o.binding = .ok b' ∧ b'.context = a ∧
      b'.values.map (·.v) = List.replicate c.params.length .none := by
    unfold attach Handles.space
    rw [hg]
    dsimp only
    rw [if_pos rfl, Out.bind_ok]
    have hb := rebinds_attach jen little' h.binding a hc
    revert hb
    generalize createBinding jen little' a c (givenValues (readValues o.binding)) = x
    intro hb
    cases hb with
    | same h1 => exact absurd hv h1
    | blank _ h2 h3 => exact ⟨_, rfl, h2, h3⟩
    | count h1 => exact absurd hv h1
    | illegal h1 => exact absurd hv h1
  obtain ⟨b', h1, h2, h3⟩ := ha
  rw [h1, Out.bind_ok] at hr
  cases mapped with
  | false => exact ⟨_, m, ⟨addr, b', o.data⟩, writes_bound little type h, length_bound type h, fun tail => hr tail, h2, h3⟩
  | true =>
    refine ⟨_, (o.handle, ⟨type, addr, Ctx.empty⟩) :: m, ⟨addr, b', o.data⟩, writes_bound little type h, length_bound type h, fun tail => ?_, h2, h3⟩
    have := hr tail
    rwa [addMapped, if_pos rfl, Handles.add_ok (hn rfl), Out.bind_ok] at this

/-- **C89, violated** An object with a string that is not legal for its parameter (which the calls accept when the value is not
transient) is written, and what was written is refused. -/
theorem C89_illegal_refused (hs : ¬ StringsLegal c o.binding.values) :
    ∃ bs, WritesBytes (serBound little type o) bs ∧ szBound type o = .ok bs.length ∧
      ∀ tail, deBound jen little' type spaceType mapped (some m) addr (bs ++ tail) = .err .invalidValue := by
  have hv : o.binding.values ≠ [] := by
    intro hv
    exact hs fun i d s hi => by rw [hv] at hi; simp at hi
  by_cases hl : o.binding.values.length = c.params.length
  · refine ⟨boundBytes type o, writes_bound little type h, length_bound type h, fun tail => ?_⟩
    have hr := readsAs_bound jen little' type spaceType mapped m addr h tail
    have ha : attach jen little' m spaceType o.binding = .err .invalidValue := by
      unfold attach Handles.space
      rw [hg]
      dsimp only
      rw [if_pos rfl, Out.bind_ok]
      have hb := rebinds_attach jen little' h.binding a hc
      revert hb
      generalize createBinding jen little' a c (givenValues (readValues o.binding)) = x
      intro hb
      cases hb with
      | same _ _ h3 => exact absurd h3 hs
      | blank h1 => exact absurd h1 hv
      | count => rfl
      | illegal => rfl
    rwa [ha, Out.bind_err] at hr
  · exact C89_grown_refused jen little little' type spaceType mapped h addr hg hc hv hl

end

/-! Instances, with objects made by the calls. -/

/-- The map of a process that has the space of the examples at address 70, written from address 9. -/
def exKnown (type : BitVec 32) (c : Ctx) : Handles := [(9#64, ⟨type, 70#64, c⟩)]

theorem exKnown_small (type : BitVec 32) {c : Ctx} (hc : c.params.length < 2 ^ 32) : SmallMap (exKnown type c) := by
  intro h x hx
  simp only [exKnown, Handles.get, Option.map_eq_some_iff] at hx
  obtain ⟨y, hy, rfl⟩ := hx
  have hm := List.mem_of_find?_eq_some hy
  rw [List.mem_singleton] at hm
  subst hm
  exact hc

/-- A configuration of the space of the examples. -/
def exBound (vs : List Datum) : BindObj := ⟨20#64, ⟨9#64, vs⟩, [1#8]⟩

theorem exBound_storable {vs : List Datum} (hl : vs.length < 2 ^ 64) (h : ∀ d ∈ vs, StorableValue d.v) : StorableBound (exBound vs) :=
  ⟨⟨hl, h⟩, by simp [exBound]⟩

/-- The hypotheses of `C89_outcome` and `C89_round_trip_partial`. -/
example : createBinding exJen true 9#64 exCtx (some [exInt 3#64 false, exInt 2#64 false]) = .ok (exBound [exInt 3#64 false, exInt 2#64 false]).binding ∧
    StorableBound (exBound [exInt 3#64 false, exInt 2#64 false]) ∧ SmallMap (exKnown configurationSpaceType exCtx) ∧
    (exKnown configurationSpaceType exCtx).get (exBound [exInt 3#64 false, exInt 2#64 false]).binding.context =
      some ⟨configurationSpaceType, 70#64, exCtx⟩ ∧ exCtx.params.length < 2 ^ 32 ∧
    FitsSpace exCtx (exBound [exInt 3#64 false, exInt 2#64 false]).binding ∧
    (exKnown configurationSpaceType exCtx).get (exBound [exInt 3#64 false, exInt 2#64 false]).handle = none := by
  refine ⟨by decide +kernel, exBound_storable (by decide) (by simp [exInt, StorableValue]), exKnown_small _ (by decide), rfl, by decide,
    ⟨by decide, fun i d s hi hs => ?_⟩, rfl⟩
  simp only [exBound] at hi
  match i with
  | 0 => cases hi; cases hs
  | 1 => cases hi; cases hs
  | i + 2 => simp at hi

/-- The hypotheses of `C89_grown_refused`: the second parameter was added after the configuration was made. -/
example : createBinding exJen true 9#64 (Ctx.empty.add exParam 1#64).1 (some [exInt 3#64 false]) = .ok (exBound [exInt 3#64 false]).binding ∧
    exCtx = ((Ctx.empty.add exParam 1#64).1.add exParam 2#64).1 ∧ StorableBound (exBound [exInt 3#64 false]) ∧
    (exBound [exInt 3#64 false]).binding.values ≠ [] ∧ (exBound [exInt 3#64 false]).binding.values.length ≠ exCtx.params.length := by
  exact ⟨by decide +kernel, rfl, exBound_storable (by decide) (by simp [exInt, StorableValue]), by decide, by decide⟩

/-- The hypotheses of `C89_empty_blank`: both parameters were added after the configuration was made. -/
example : createBinding exJen true 9#64 Ctx.empty (some []) = .ok (exBound []).binding ∧ StorableBound (exBound []) ∧
    (exBound []).binding.values = [] ∧ exCtx.params.length = 2 :=
  ⟨by decide +kernel, exBound_storable (by decide) (by simp), rfl, by decide +kernel⟩

/-- A string that no parameter of the examples takes. -/
def exStray : Datum := ⟨.str (some [120#8]), false, false, false⟩

/-- The hypotheses of `C89_illegal_refused`. -/
example : createBinding exJen true 9#64 exCtx (some [exInt 3#64 false, exStray]) = .ok (exBound [exInt 3#64 false, exStray]).binding ∧
    StorableBound (exBound [exInt 3#64 false, exStray]) ∧ ¬ StringsLegal exCtx (exBound [exInt 3#64 false, exStray]).binding.values := by
  refine ⟨by decide +kernel, exBound_storable (by decide) (by simp [exInt, exStray, StorableValue]), fun hs => ?_⟩
  obtain ⟨h, p, hp, hl⟩ := hs 1 exStray (some [120#8]) rfl rfl
  have : (h, p) = (2#64, exParam 2#64) := Option.some.inj (hp.symm.trans (by decide +kernel))
  cases this
  have hl' : exStray.v ∈ [Value.int 1#64, Value.int 2#64] := hl
  exact absurd hl' (by decide)

/-! ## C90: features spaces and objective spaces -/

section
variable {ops : FloatOps} {jen : Bytes → BitVec 32} {little : Bool} {mem mem' : BitVec 64 → Param} {pdata : BitVec 64 → Bytes}
  {paramAt : Nat → BitVec 64}

/-- **C90** A features space made by calls is written on the announced bytes; they are refused when the map already has its handle, and
otherwise give, in any process, a space made by calls with the same name, the same parameters in the same order and the same user
data everywhere; the map gets its handle. -/
theorem C90_features_space (little' : Bool) {o : FeatSpaceObj} (h : StoredFeatSpace ops jen little mem pdata o)
    (hl : Lays paramAt mem' o.ctx) (m : Handles) (addr : BitVec 64) :
    ∃ bs, WritesBytes (serFeatSpace little pdata o) bs ∧ szFeatSpace pdata o = .ok bs.length ∧
      (m.get o.handle ≠ none → ∀ tail, deFeatSpace ops jen little' paramAt m addr (bs ++ tail) = .err .duplicateHandle) ∧
      (m.get o.handle = none → ∃ m' o', ReadsBack (deFeatSpace ops jen little' paramAt m addr) bs
          (m', o', o.ctx.params.map fun x => pdata x.1) ∧
        o'.handle = addr ∧ o'.name = o.name ∧ o'.data = o.data ∧ SameParams paramAt o.ctx o'.ctx ∧ Grown mem' o'.ctx ∧
        ∀ k, m'.get k = if k = o.handle then some ⟨featuresSpaceType, addr, o'.ctx⟩ else m.get k) := by
  obtain ⟨c', h1, h2, h3⟩ := readsAs_featSpace little' h hl m addr
  refine ⟨featSpaceBytes pdata o, writes_featSpace h, length_featSpace h, fun hn tail => ?_, fun hn => ?_⟩
  · have := h3 tail
    rwa [Handles.add_err hn, Out.bind_err] at this
  · have ha := Handles.add_ok hn ⟨featuresSpaceType, addr, c'⟩
    rw [ha, Out.bind_ok] at h3
    exact ⟨_, ⟨addr, o.name, c', o.data⟩, fun tail => h3 tail, rfl, rfl, rfl, h2, h1, fun k => Handles.get_add ha k⟩

/-- **C90, proved part** An objective space made by calls, whose parameters and objectives are different objects, is written on the
announced bytes; they are refused when the map already has its handle, and otherwise give, in any process, an objective space
made by calls with the same name, the same parameters and objectives in the same order and the same user data everywhere. -/
theorem C90_objective_space_partial (little' : Bool) {o : ObjSpaceObj} (h : StoredObjSpace ops jen little mem pdata o)
    (hd : (writtenIn o.space).Nodup) (hl : Lays paramAt mem' o.space.ctx) (m : Handles) (addr : BitVec 64) :
    ∃ bs, WritesBytes (serObjSpace little pdata o) bs ∧ szObjSpace pdata o = .ok bs.length ∧
      (m.get o.handle ≠ none → ∀ tail, deObjSpace ops jen little' paramAt m addr (bs ++ tail) = .err .duplicateHandle) ∧
      (m.get o.handle = none → ∃ m' o', ReadsBack (deObjSpace ops jen little' paramAt m addr) bs
          (m', o', o.space.ctx.params.map fun x => pdata x.1) ∧
        o'.handle = addr ∧ o'.name = o.name ∧ o'.data = o.data ∧ ObjTwin paramAt o.space o'.space ∧ ObjReachable mem' o'.space ∧
        ∀ k, m'.get k = if k = o.handle then some ⟨objectiveSpaceType, addr, o'.space.ctx⟩ else m.get k) := by
  obtain ⟨s', h1, h2, h3⟩ := readsAs_objSpace little' h hl m addr
  rw [claimAll_ok (by simp) hd, Out.bind_ok] at h3
  refine ⟨objSpaceBytes pdata o, writes_objSpace h, length_objSpace h, fun hn tail => ?_, fun hn => ?_⟩
  · have := h3 tail
    rwa [Handles.add_err hn, Out.bind_err] at this
  · have ha := Handles.add_ok hn ⟨objectiveSpaceType, addr, s'.ctx⟩
    rw [ha, Out.bind_ok] at h3
    exact ⟨_, ⟨addr, o.name, s', o.data⟩, fun tail => h3 tail, rfl, rfl, rfl, h2, h1, fun k => Handles.get_add ha k⟩

/-- **C90, violated** An objective space in which one object serves twice (for instance one expression as two objectives) is written,
and reading what was written is undefined behaviour. -/
theorem C90_shared_undefined (little' : Bool) {o : ObjSpaceObj} (h : StoredObjSpace ops jen little mem pdata o)
    (hd : ¬ (writtenIn o.space).Nodup) (hl : Lays paramAt mem' o.space.ctx) (m : Handles) (addr : BitVec 64) :
    ∃ bs, WritesBytes (serObjSpace little pdata o) bs ∧ szObjSpace pdata o = .ok bs.length ∧
      ∀ tail, deObjSpace ops jen little' paramAt m addr (bs ++ tail) = .ub := by
  obtain ⟨s', h1, h2, h3⟩ := readsAs_objSpace little' h hl m addr
  refine ⟨objSpaceBytes pdata o, writes_objSpace h, length_objSpace h, fun tail => ?_⟩
  rcases claimAll_cases (writtenIn o.space) [] with hc | ⟨-, -, hc⟩
  · have := h3 tail
    rwa [hc, Out.bind_ub] at this
  · exact absurd hc hd

section
variable {s s' : ObjSpace} (hr : ObjReachable mem s) (hr' : ObjReachable mem' s') (ht : ObjTwin paramAt s s')
  (hh : ∀ o ∈ s.objectives, Honest mem o.expression)

include hr hr' ht hh

/-- **C90** A space that came back gives the same value to each objective on the same values. -/
theorem C90_same_objective {vs vs' : List Datum} (hv : vs'.map (·.v) = vs.map (·.v)) (index : Nat) :
    getObjectiveValue ops jen little s' vs' index = getObjectiveValue ops jen little s vs index := by
  unfold getObjectiveValue ObjSpace.getObjective
  rw [ht.objectives, List.getElem?_map]
  cases hi : s.objectives[toUint index]? with
  | none => rfl
  | some o =>
    show objectiveValue ops jen little s' vs' (relabel (followIn paramAt s.ctx) o.expression) = objectiveValue ops jen little s vs o.expression
    exact objectiveValue_twin ops jen little hr hr' ht (List.mem_of_getElem? hi) (hh o (List.mem_of_getElem? hi)) hv

/-- **C90** A space that came back gives the same values to the objectives on the same values. -/
theorem C90_same_objectives {vs vs' : List Datum} (hv : vs'.map (·.v) = vs.map (·.v)) (before : Option (List Value)) (count : Bool) :
    getObjectiveValues ops jen little s' vs' before count = getObjectiveValues ops jen little s vs before count := by
  unfold getObjectiveValues
  have hlen : s'.objectives.length = s.objectives.length := by rw [ht.objectives, List.length_map]
  rw [hlen]
  have hf : ∀ i a, fillObjectives (objectiveValue ops jen little s' vs') i s'.objectives a =
      fillObjectives (objectiveValue ops jen little s vs) i s.objectives a := by
    intro i a
    rw [ht.objectives]
    exact fillObjectives_map _ s.objectives i a fun o ho => objectiveValue_twin ops jen little hr hr' ht ho (hh o ho) hv
  simp only [hf]

/-- **C90** Evaluations with the same values and results compare in the space that came back as they did. -/
theorem C90_same_comparison {spaces spaces' : BitVec 64 → ObjSpace} {evals evals' : BitVec 64 → Evaluation} {x y x' y' sp sp' : BitVec 64}
    (hsp : spaces sp = s) (hsp' : spaces' sp' = s') (hxy : x' = y' ↔ x = y)
    (hx : (evals x).binding.context = sp ∧ MovedTo sp' (evals x).binding (evals' x').binding ∧ (evals' x').result = (evals x).result)
    (hy : (evals y).binding.context = sp ∧ MovedTo sp' (evals y).binding (evals' y').binding ∧ (evals' y').result = (evals y).result) :
    compareEvaluations ops jen little spaces' evals' x' y' = compareEvaluations ops jen little spaces evals x y := by
  unfold compareEvaluations
  by_cases he : x = y
  · rw [if_pos he, if_pos (hxy.mpr he)]
  · rw [if_neg he, if_neg (fun h => he (hxy.mp h)), hx.2.2, hy.2.2]
    split
    · rfl
    · rw [hx.2.1.1, hy.2.1.1, hx.1, hy.1, if_neg (by simp), if_neg (by simp)]
      dsimp only
      rw [hsp, hsp', ht.objectives]
      exact compareLoop_map _ s.objectives _ fun o ho => ⟨rfl, objectiveValue_twin ops jen little hr hr' ht ho (hh o ho) hx.2.1.2,
        objectiveValue_twin ops jen little hr hr' ht ho (hh o ho) hy.2.1.2⟩

/-- **C90** Evaluations with the same values, results and features compare in the space that came back as they did. -/
theorem C90_same_features_comparison {spaces spaces' : BitVec 64 → ObjSpace} {feats feats' : BitVec 64 → Binding}
    {evals evals' : BitVec 64 → FeaturesEvaluation} {x y x' y' sp sp' fsp fsp' : BitVec 64}
    (hsp : spaces sp = s) (hsp' : spaces' sp' = s') (hxy : x' = y' ↔ x = y)
    (hx : (evals x).evaluation.binding.context = sp ∧ MovedTo sp' (evals x).evaluation.binding (evals' x').evaluation.binding ∧
      (evals' x').evaluation.result = (evals x).evaluation.result)
    (hy : (evals y).evaluation.binding.context = sp ∧ MovedTo sp' (evals y).evaluation.binding (evals' y').evaluation.binding ∧
      (evals' y').evaluation.result = (evals y).evaluation.result)
    (hfx : (feats (evals x).features).context = fsp ∧ MovedTo fsp' (feats (evals x).features) (feats' (evals' x').features))
    (hfy : (feats (evals y).features).context = fsp ∧ MovedTo fsp' (feats (evals y).features) (feats' (evals' y').features)) :
    compareFeaturesEvaluations ops jen little spaces' feats' evals' x' y' =
      compareFeaturesEvaluations ops jen little spaces feats evals x y := by
  have hb : bindingCmp little feats' (evals' x').features (evals' y').features = .eq ↔
      bindingCmp little feats (evals x).features (evals y).features = .eq := by
    rw [(bindingCmp_total little feats').eq_iff, (bindingCmp_total little feats).eq_iff]
    unfold SameBinding
    rw [hfx.1, hfy.1, hfx.2.1, hfy.2.1, hfx.2.2, hfy.2.2]
    simp
  unfold compareFeaturesEvaluations
  by_cases he : x = y
  · rw [if_pos he, if_pos (hxy.mpr he)]
  · rw [if_neg he, if_neg (fun h => he (hxy.mp h)), hx.2.2, hy.2.2]
    split
    · rfl
    · rw [hx.2.1.1, hy.2.1.1, hx.1, hy.1, if_neg (fun h : sp' ≠ sp' => h rfl), if_neg (fun h : sp ≠ sp => h rfl)]
      by_cases hc : bindingCmp little feats (evals x).features (evals y).features = .eq
      · rw [if_neg (fun h => h (hb.mpr hc)), if_neg (fun h => h hc)]
        dsimp only
        rw [hsp, hsp', ht.objectives]
        exact compareLoop_map _ s.objectives _ fun o ho => ⟨rfl, objectiveValue_twin ops jen little hr hr' ht ho (hh o ho) hx.2.1.2,
          objectiveValue_twin ops jen little hr hr' ht ho (hh o ho) hy.2.1.2⟩
      · rw [if_pos (fun h => hc (hb.mp h)), if_pos hc]

end

end

/-! Instances: one parameter, minimized and maximized. -/

/-- The parameter `b` as an objective, at address `k`. -/
def exTarget (k : BitVec 64) : Expr := .var ⟨k, []⟩ 2#64 (exMem 2#64)

theorem exTarget_built (k : BitVec 64) : Built (exTarget k) :=
  .var (o := ⟨k, []⟩) (h := 2#64) (p := exMem 2#64) (by simp [createVariable, exTarget])

/-- The space with `b`, minimized by the expression at 300 and maximized by the one at `k`. -/
def exTargets (k : BitVec 64) : ObjSpace :=
  (((ObjSpace.empty.addParameter exMem 2#64).1.addObjective ⟨exTarget 300#64, 0#32⟩).1.addObjective ⟨exTarget k, 1#32⟩).1

def exTargetObj (k : BitVec 64) : ObjSpaceObj := ⟨2000#64, [0x6f#8], exTargets k, [2#8]⟩

/-- The features space with the parameter `b`. -/
def exFeatObj : FeatSpaceObj := ⟨3000#64, [0x66#8], (Ctx.empty.add exMem 2#64).1, [3#8]⟩

theorem exTargets_made (k : BitVec 64) : ObjReachable exMem (exTargets k) :=
  .objective (.objective (.parameter 2#64 .empty) (exTarget_built _)) (exTarget_built _)

theorem exTargets_get (k : BitVec 64) : (exTargets k).ctx.params = [(2#64, exMem 2#64)] ∧
    (exTargets k).objectives = [⟨exTarget 300#64, 0#32⟩, ⟨exTarget k, 1#32⟩] := ⟨by rfl, by rfl⟩

theorem exTarget_ordinary (k : BitVec 64) : StorableExpr (exTarget k) ∧ Honest exMem (exTarget k) :=
  ⟨.var (by simp), fun x p hx => by cases hx; rfl⟩

theorem exTargets_objective {k : BitVec 64} {x : Objective} (hx : x ∈ (exTargets k).objectives) :
    StorableExpr x.expression ∧ Honest exMem x.expression := by
  rw [(exTargets_get k).2] at hx
  simp only [List.mem_cons, List.not_mem_nil, or_false] at hx
  rcases hx with rfl | rfl <;> exact exTarget_ordinary _

/-- Addresses given to the parameters of the examples. -/
def exPlaces (base : Nat) (i : Nat) : BitVec 64 := BitVec.ofNat 64 (base + i % 100)

theorem exLays {base : Nat} (hb : 500 ≤ base) (hb' : base < 5000) {c : Ctx} (hc : c.params = [(2#64, exMem 2#64)]) :
    Lays (exPlaces base) exMem' c where
  nonnull i h := by
    have := congrArg BitVec.toNat h
    simp only [exPlaces, BitVec.toNat_ofNat] at this
    omega
  distinct i j hi hj _ := by
    rw [hc] at hi hj
    simp only [List.length_cons, List.length_nil] at hi hj
    omega
  placed i h p hp := by
    unfold Holds at hp
    rw [hc] at hp
    match i with
    | 0 =>
      cases hp
      unfold exMem' exPlaces
      rw [if_neg]
      · rfl
      · intro h
        have := congrArg BitVec.toNat h
        simp only [BitVec.toNat_ofNat] at this
        omega
    | i + 1 => simp at hp

/-- No user data for parameters but `b`. -/
def exPdata (h : BitVec 64) : Bytes := if h = 2#64 then [9#8] else []

theorem exParams_storable {c : Ctx} (hc : c.params = [(2#64, exMem 2#64)]) : StorableParams ieee exJen true exPdata c := by
  intro x hx
  rw [hc, List.mem_singleton] at hx
  subst hx
  exact ⟨exMem_storable 2#64, by decide⟩

theorem exTargetObj_stored (k : BitVec 64) : StoredObjSpace ieee exJen true exMem exPdata (exTargetObj k) where
  made := exTargets_made k
  honest x hx := (exTargets_objective hx).2
  name := ⟨by simp [exTargetObj], by simp [exTargetObj]⟩
  data := by simp [exTargetObj]
  params := exParams_storable (exTargets_get k).1
  objectives x hx := (exTargets_objective hx).1
  small := by rw [show (exTargetObj k).space = exTargets k from rfl, (exTargets_get k).1]; decide
  size := by rw [show (exTargetObj k).space = exTargets k from rfl, (exTargets_get k).1, (exTargets_get k).2]; simp

theorem exFeatObj_stored : StoredFeatSpace ieee exJen true exMem exPdata exFeatObj where
  made := .add 2#64 .empty
  name := ⟨by simp [exFeatObj], by simp [exFeatObj]⟩
  data := by simp [exFeatObj]
  params := exParams_storable rfl
  size := by decide

theorem exTargets_written (k : BitVec 64) : writtenIn (exTargetObj k).space = [2#64, 300#64, k] := by
  rw [show (exTargetObj k).space = exTargets k from rfl, writtenIn, (exTargets_get k).1, (exTargets_get k).2]
  rfl

/-- The hypotheses of the theorems on spaces. -/
example : StoredFeatSpace ieee exJen true exMem exPdata exFeatObj ∧ Lays (exPlaces 600) exMem' exFeatObj.ctx ∧
    StoredObjSpace ieee exJen true exMem exPdata (exTargetObj 301#64) ∧ (writtenIn (exTargetObj 301#64).space).Nodup ∧
    Lays (exPlaces 500) exMem' (exTargetObj 301#64).space.ctx ∧
    StoredObjSpace ieee exJen true exMem exPdata (exTargetObj 300#64) ∧ ¬ (writtenIn (exTargetObj 300#64).space).Nodup ∧
    ∀ o ∈ (exTargetObj 301#64).space.objectives, Honest exMem o.expression := by
  refine ⟨exFeatObj_stored, exLays (by decide) (by decide) rfl, exTargetObj_stored _, ?_, exLays (by decide) (by decide) (exTargets_get _).1,
    exTargetObj_stored _, ?_, fun o ho => (exTargets_objective ho).2⟩
  · rw [exTargets_written]; decide
  · rw [exTargets_written]; decide

/-! ## C91: evaluations -/

/-- **C91** What storing an evaluation gives, with features or without: the bytes announced are written, in any process; without a handle
map they are refused; with one, the outcome is that of binding again the values of its configuration, then of its features, then of
its objectives, each to the space that the map has at the written address, and then that of adding the evaluation to the map when
this is asked.  The result code and the user data come back. -/
theorem C91_outcome (jen : Bytes → BitVec 32) (little little' mapped : Bool) {e : EvalObj} (h : StorableEval e) {m : Handles}
    (hm : SmallMap m) (p : EvalPlace) :
    ∃ bs, WritesBytes (serEval little e) bs ∧ szEval e = .ok bs.length ∧
      (∀ tail, deEval jen little' e.features.isSome mapped none p (bs ++ tail) = .err .invalidObject) ∧
      ∃ rc rf rb, Attached m configurationSpaceType e.configuration.binding rc ∧ AttachedFeatures m e.features rf ∧
        Attached m objectiveSpaceType e.binding rb ∧
        (∀ x, rc = .err x → ∀ tail, deEval jen little' e.features.isSome mapped (some m) p (bs ++ tail) = .err x) ∧
        (∀ c x, rc = .ok c → rf = .err x → ∀ tail, deEval jen little' e.features.isSome mapped (some m) p (bs ++ tail) = .err x) ∧
        (∀ c f x, rc = .ok c → rf = .ok f → rb = .err x →
          ∀ tail, deEval jen little' e.features.isSome mapped (some m) p (bs ++ tail) = .err x) ∧
        ∀ c f b, rc = .ok c → rf = .ok f → rb = .ok b →
          (mapped = true → m.get e.handle ≠ none →
            ∀ tail, deEval jen little' e.features.isSome mapped (some m) p (bs ++ tail) = .err .duplicateHandle) ∧
          ((mapped = true → m.get e.handle = none) → ∃ m' e',
            ReadsBack (deEval jen little' e.features.isSome mapped (some m) p) bs (m', e') ∧
            e'.handle = p.eval ∧ e'.binding = b ∧ e'.configuration = ⟨p.conf, c, e.configuration.data⟩ ∧
            (f = none → e'.features = none) ∧ (∀ g o, f = some g → e.features = some o → e'.features = some ⟨p.feat, g, o.data⟩) ∧
            e'.result = e.result ∧ e'.data = e.data ∧
            ∀ k, m'.get k = if mapped = true ∧ k = e.handle then some ⟨evalType e.features.isSome, p.eval, Ctx.empty⟩ else m.get k) := by
  have hr := readsAs_eval jen little' mapped m p h
  unfold evalOutcome at hr
  refine ⟨evalBytes e, writes_eval little h, length_eval h, fun tail => rfl, attach jen little' m configurationSpaceType e.configuration.binding,
    attachFeatures jen little' m e.features, attach jen little' m objectiveSpaceType e.binding,
    attached_attach jen little' hm _ h.configuration.binding, attached_features jen little' hm h.features,
    attached_attach jen little' hm _ h.binding, ?_, ?_, ?_, ?_⟩
  · intro x hx tail
    have := hr tail
    rwa [hx, Out.bind_err] at this
  · intro c x hc hx tail
    have := hr tail
    rwa [hc, Out.bind_ok, hx, Out.bind_err] at this
  · intro c f x hc hf hx tail
    have := hr tail
    rwa [hc, Out.bind_ok, hf, Out.bind_ok, hx, Out.bind_err] at this
  · intro c f b hc hf hb
    rw [hc, Out.bind_ok, hf, Out.bind_ok, hb, Out.bind_ok] at hr
    refine ⟨fun ht hn tail => ?_, fun hn => ?_⟩
    · subst ht
      have := hr tail
      rwa [addMapped, if_pos rfl, Handles.add_err hn, Out.bind_err] at this
    · have hp : ∀ o, e.features = some o → placeFeatures p.feat e.features f = f.map fun g => ⟨p.feat, g, o.data⟩ := by
        intro o ho
        rw [ho]
        cases f <;> rfl
      have hn0 : f = none → placeFeatures p.feat e.features f = none := by
        rintro rfl
        cases e.features <;> rfl
      cases mapped with
      | false =>
        refine ⟨m, ⟨p.eval, b, ⟨p.conf, c, e.configuration.data⟩, placeFeatures p.feat e.features f, e.result, e.data⟩, fun tail => hr tail, rfl,
          rfl, rfl, hn0, fun g o hg ho => by rw [hp o ho, hg]; rfl, rfl, rfl, fun k => by rw [if_neg (by simp)]⟩
      | true =>
        have ha := Handles.add_ok (hn rfl) ⟨evalType e.features.isSome, p.eval, Ctx.empty⟩
        rw [addMapped, if_pos rfl, ha, Out.bind_ok] at hr
        refine ⟨_, ⟨p.eval, b, ⟨p.conf, c, e.configuration.data⟩, placeFeatures p.feat e.features f, e.result, e.data⟩, fun tail => hr tail, rfl,
          rfl, rfl, hn0, fun g o hg ho => by rw [hp o ho, hg]; rfl, rfl, rfl, fun k => ?_⟩
        rw [Handles.get_add ha k]
        simp

/-- **C91, proved part** When the map has, at the written addresses, spaces in which the values of the configuration, of the features and
of the objectives fit, the evaluation comes back the same, in those spaces. -/
theorem C91_round_trip_partial (jen : Bytes → BitVec 32) (little little' mapped : Bool) {e : EvalObj} (h : StorableEval e) {m : Handles}
    (p : EvalPlace) (P : Places) {c d : Ctx}
    (hc : m.get e.configuration.binding.context = some ⟨configurationSpaceType, P.space, c⟩) (lc : c.params.length < 2 ^ 32)
    (fc : FitsSpace c e.configuration.binding)
    (hd : m.get e.binding.context = some ⟨objectiveSpaceType, P.objectives, d⟩) (ld : d.params.length < 2 ^ 32) (fd : FitsSpace d e.binding)
    (hf : ∀ f, e.features = some f → ∃ g, m.get f.binding.context = some ⟨featuresSpaceType, P.features, g⟩ ∧ g.params.length < 2 ^ 32 ∧
      FitsSpace g f.binding)
    (hn : mapped = true → m.get e.handle = none) :
    ∃ bs m' e', WritesBytes (serEval little e) bs ∧ szEval e = .ok bs.length ∧
      ReadsBack (deEval jen little' e.features.isSome mapped (some m) p) bs (m', e') ∧ SameEval P p e e' := by
  have hr := readsAs_eval jen little' mapped m p h
  unfold evalOutcome at hr
  obtain ⟨bc, c1, c2⟩ := attach_fits jen little' h.configuration.binding hc lc fc
  obtain ⟨bd, d1, d2⟩ := attach_fits jen little' h.binding hd ld fd
  have hfe : ∃ f, attachFeatures jen little' m e.features = .ok f ∧ (e.features = none → placeFeatures p.feat e.features f = none) ∧
      ∀ o, e.features = some o → ∃ o', placeFeatures p.feat e.features f = some o' ∧ SameBound p.feat P.features o o' := by
    cases hfe : e.features with
    | none => exact ⟨none, rfl, fun _ => rfl, fun o ho => nomatch ho⟩
    | some o =>
      obtain ⟨g, g1, g2, g3⟩ := hf o hfe
      obtain ⟨bf, f1, f2⟩ := attach_fits jen little' (h.features o hfe).binding g1 g2 g3
      refine ⟨some bf, ?_, fun h => (nomatch h), fun o' ho' => ?_⟩
      · show (attach jen little' m featuresSpaceType o.binding >>= fun b => Out.ok (some b)) = _
        rw [f1, Out.bind_ok]
      · obtain rfl := Option.some.inj ho'
        exact ⟨_, rfl, rfl, f2, rfl⟩
  obtain ⟨f, f1, f2, f3⟩ := hfe
  rw [c1, Out.bind_ok, f1, Out.bind_ok, d1, Out.bind_ok] at hr
  have hs : SameEval P p e ⟨p.eval, bd, ⟨p.conf, bc, e.configuration.data⟩, placeFeatures p.feat e.features f, e.result, e.data⟩ :=
    ⟨rfl, d2, ⟨rfl, c2, rfl⟩, f2, f3, rfl, rfl⟩
  cases mapped with
  | false => exact ⟨_, m, _, writes_eval little h, length_eval h, fun tail => hr tail, hs⟩
  | true =>
    rw [addMapped, if_pos rfl, Handles.add_ok (hn rfl), Out.bind_ok] at hr
    exact ⟨_, _, _, writes_eval little h, length_eval h, fun tail => hr tail, hs⟩

/-- **C91, violated** An evaluation whose objective space has got other parameters since is written, and what was written is refused. -/
theorem C91_grown_refused (jen : Bytes → BitVec 32) (little little' mapped : Bool) {e : EvalObj} (h : StorableEval e) {m : Handles}
    (hm : SmallMap m) (p : EvalPlace) {a : BitVec 64} {d : Ctx} {c : Ctx}
    (hc : m.get e.configuration.binding.context = some ⟨configurationSpaceType, a, c⟩) (fc : FitsSpace c e.configuration.binding)
    (hf : e.features = none) {b : BitVec 64}
    (hd : m.get e.binding.context = some ⟨objectiveSpaceType, b, d⟩) (hv : e.binding.values ≠ [])
    (hl : e.binding.values.length ≠ d.params.length) :
    ∃ bs, WritesBytes (serEval little e) bs ∧ szEval e = .ok bs.length ∧
      ∀ tail, deEval jen little' e.features.isSome mapped (some m) p (bs ++ tail) = .err .invalidValue := by
  obtain ⟨bs, h1, h2, -, rc, rf, rb, h3, h4, h5, -, -, h6, -⟩ := C91_outcome jen little little' mapped h hm p
  refine ⟨bs, h1, h2, ?_⟩
  rw [hf] at h4
  cases h4
  have hrb : rb = .err .invalidValue := by
    cases h5 with
    | unknown hg => rw [hd] at hg; cases hg
    | other hg ht => rw [hd] at hg; cases hg; exact absurd rfl ht
    | found hg ht hr =>
      rw [hd] at hg; cases hg
      cases hr with
      | same _ h => exact absurd h hl
      | blank h => exact absurd h hv
      | count => rfl
      | illegal _ h => exact absurd h hl
  have hrc : ∃ x, rc = .ok x := by
    cases h3 with
    | unknown hg => rw [hc] at hg; cases hg
    | other hg ht => rw [hc] at hg; cases hg; exact absurd rfl ht
    | found hg ht hr =>
      rw [hc] at hg; cases hg
      cases hr with
      | same => exact ⟨_, rfl⟩
      | blank => exact ⟨_, rfl⟩
      | count _ h => exact absurd fc.1 h
      | illegal _ _ h => exact absurd fc.2 h
  obtain ⟨x, hx⟩ := hrc
  exact h6 x none _ hx rfl hrb

/-- An evaluation of the space at 7, for a configuration of the space at 9. -/
def exEvalObj (h : BitVec 64) (vs : List Datum) : EvalObj :=
  ⟨h, ⟨7#64, vs⟩, exBound [exInt 3#64 false, exInt 2#64 false], none, 0#32, [4#8]⟩

def exKnownBoth : Handles := [(9#64, ⟨configurationSpaceType, 70#64, exCtx⟩), (7#64, ⟨objectiveSpaceType, 71#64, exCtx⟩)]

theorem exFits (a : BitVec 64) : FitsSpace exCtx ⟨a, [exInt 3#64 false, exInt 2#64 false]⟩ := by
  refine ⟨by show 2 = exCtx.params.length; decide, fun i d s hi hs => ?_⟩
  match i with
  | 0 => cases hi; cases hs
  | 1 => cases hi; cases hs
  | i + 2 => simp at hi

theorem exEvalObj_storable (h : BitVec 64) {vs : List Datum} (hl : vs.length < 2 ^ 64) (hs : ∀ d ∈ vs, StorableValue d.v) :
    StorableEval (exEvalObj h vs) :=
  ⟨⟨hl, hs⟩, exBound_storable (by decide) (by simp [exInt, StorableValue]), fun f hf => (nomatch hf), by simp [exEvalObj]⟩

theorem exKnownBoth_small : SmallMap exKnownBoth := by
  intro h x hx
  simp only [exKnownBoth, Handles.get, Option.map_eq_some_iff] at hx
  obtain ⟨y, hy, rfl⟩ := hx
  have hm := List.mem_of_find?_eq_some hy
  simp only [List.mem_cons, List.not_mem_nil, or_false] at hm
  rcases hm with rfl | rfl <;> exact (by decide : exCtx.params.length < 2 ^ 32)

/-- The hypotheses of the theorems on evaluations: one that fits, and one made when its space had one parameter. -/
example : StorableEval (exEvalObj 30#64 [exInt 3#64 false, exInt 2#64 false]) ∧ SmallMap exKnownBoth ∧
    exKnownBoth.get (exEvalObj 30#64 []).configuration.binding.context = some ⟨configurationSpaceType, 70#64, exCtx⟩ ∧
    FitsSpace exCtx (exEvalObj 30#64 []).configuration.binding ∧
    exKnownBoth.get (exEvalObj 30#64 []).binding.context = some ⟨objectiveSpaceType, 71#64, exCtx⟩ ∧
    FitsSpace exCtx (exEvalObj 30#64 [exInt 3#64 false, exInt 2#64 false]).binding ∧ exKnownBoth.get (exEvalObj 30#64 []).handle = none ∧
    createBinding exJen true 7#64 (Ctx.empty.add exParam 1#64).1 (some [exInt 3#64 false]) = .ok (exEvalObj 30#64 [exInt 3#64 false]).binding ∧
    StorableEval (exEvalObj 30#64 [exInt 3#64 false]) ∧
    (exEvalObj 30#64 [exInt 3#64 false]).binding.values.length ≠ exCtx.params.length := by
  exact ⟨exEvalObj_storable _ (by decide) (by simp [exInt, StorableValue]), exKnownBoth_small, rfl, exFits _, rfl, exFits _, rfl,
    by decide +kernel, exEvalObj_storable _ (by decide) (by simp [exInt, StorableValue]), by decide⟩

/-! ## C92: tuners -/

section
variable {σ : Type} {H : Host σ} {P : Places} {mem mem' : BitVec 64 → Param} {mk : Nat → Param → Out Dist} {hp : Heap}
  {pdata : BitVec 64 → Bytes} {o : TunerObj}

/-- **C92, proved part** A random tuner or random features tuner made by calls, told once each of its evaluations, all of its own spaces
and fitting in them, and whose configuration space can be made again, is written on the announced bytes and comes back: same name,
same user data, same spaces, same evaluations in the same order, and the optima at the same positions. -/
theorem C92_round_trip_partial (h : StoredTuner H P mem mem' mk hp pdata o) {rs : ReadSpace}
    (hrs : rebuilt H mem' H.little hp o.space = .ok rs) (hb : ∀ x ∈ o.tuner.history, Belongs o (o.evals x))
    (hn : (spacesOf o ++ o.tuner.history).Nodup) :
    ∃ bs r, WritesBytes (serTuner H.M.ops H.little hp pdata o) bs ∧ szTuner H.M.ops H.little hp pdata o = .ok bs.length ∧
      ReadsBack (deTuner H o.features.isSome P) bs r ∧ SameTuner P mem' pdata o rs r := by
  obtain ⟨r, h1, h2⟩ := run_back h.toStoredRun hrs hb hn (by
    obtain ⟨calls, hc⟩ := h.made
    rw [hc]
    exact tells_optima calls _ (by simp [Tuner.empty]))
  refine ⟨_, _, writes_tuner h, length_tuner h, ?_, h2⟩
  show ReadsAs _ _ (.ok _)
  unfold deTuner tunerBytes
  refine readsAs_step (decodes_obj _ _).1 (readsAs_pass (by simp) ?_)
  rw [List.append_assoc]
  exact readsAs_step (decodes_enum _).1 (readsAs_pass (by simp) (readsAs_step h1 (readsAs_ok (reads_bind_pure (reads_userData h.data) rfl))))

/-- **C92, violated** When an evaluation was told twice to the tuner, or has the address of one of its spaces, the tuner is written, and what
was written is refused. -/
theorem C92_told_twice_refused (h : StoredTuner H P mem mem' mk hp pdata o) {rs : ReadSpace}
    (hrs : rebuilt H mem' H.little hp o.space = .ok rs) (hb : ∀ x ∈ o.tuner.history, Belongs o (o.evals x))
    (hn : ¬ (spacesOf o ++ o.tuner.history).Nodup) :
    ∃ bs, WritesBytes (serTuner H.M.ops H.little hp pdata o) bs ∧ szTuner H.M.ops H.little hp pdata o = .ok bs.length ∧
      ∀ tail, deTuner H o.features.isSome P (bs ++ tail) = .err .duplicateHandle :=
  ⟨_, writes_tuner h, length_tuner h, fun tail => tuner_err (run_clash h.toStoredRun hrs hb hn) tail⟩

/-- **C92, violated** When an evaluation told to the tuner is for a configuration of another space (which the calls accept), the
tuner is written, and what was written is refused. -/
theorem C92_foreign_refused (h : StoredTuner H P mem mem' mk hp pdata o) {rs : ReadSpace}
    (hrs : rebuilt H mem' H.little hp o.space = .ok rs) {pre post : List (BitVec 64)} {x : BitVec 64}
    (he : o.tuner.history = pre ++ x :: post) (hb : ∀ y ∈ pre, Belongs o (o.evals y)) (hn : (spacesOf o ++ pre).Nodup)
    (hf : (o.evals x).configuration.binding.context ∉ spacesOf o ++ pre) :
    ∃ bs, WritesBytes (serTuner H.M.ops H.little hp pdata o) bs ∧ szTuner H.M.ops H.little hp pdata o = .ok bs.length ∧
      ∀ tail, deTuner H o.features.isSome P (bs ++ tail) = .err .invalidHandle :=
  ⟨_, writes_tuner h, length_tuner h, fun tail => tuner_err (run_foreign h.toStoredRun hrs he hb hn hf) tail⟩

/-- **C92, violated** When an evaluation told to the tuner is for a configuration made before its space got other parameters, the tuner is
written, and what was written is refused. -/
theorem C92_grown_refused (h : StoredTuner H P mem mem' mk hp pdata o) {rs : ReadSpace}
    (hrs : rebuilt H mem' H.little hp o.space = .ok rs) {pre post : List (BitVec 64)} {x : BitVec 64}
    (he : o.tuner.history = pre ++ x :: post) (hb : ∀ y ∈ pre, Belongs o (o.evals y)) (hn : (spacesOf o ++ pre).Nodup)
    (hf : (o.evals x).configuration.binding.context = o.space.handle) (hv : (o.evals x).configuration.binding.values ≠ [])
    (hl : (o.evals x).configuration.binding.values.length ≠ o.space.space.params.length) :
    ∃ bs, WritesBytes (serTuner H.M.ops H.little hp pdata o) bs ∧ szTuner H.M.ops H.little hp pdata o = .ok bs.length ∧
      ∀ tail, deTuner H o.features.isSome P (bs ++ tail) = .err .invalidValue :=
  ⟨_, writes_tuner h, length_tuner h, fun tail => tuner_err (run_grown h.toStoredRun hrs he hb hn hf hv hl) tail⟩

/-- **C92** When the configuration space cannot be made again, neither can the tuner, for the same reason. -/
theorem C92_space_refused (h : StoredTuner H P mem mem' mk hp pdata o) {e : Err} (hrs : rebuilt H mem' H.little hp o.space = .err e) :
    ∃ bs, WritesBytes (serTuner H.M.ops H.little hp pdata o) bs ∧ szTuner H.M.ops H.little hp pdata o = .ok bs.length ∧
      ∀ tail, deTuner H o.features.isSome P (bs ++ tail) = .err e := by
  exact ⟨_, writes_tuner h, length_tuner h, fun tail => tuner_err (readsAs_run_refused h.toStoredRun hrs) tail⟩

/-- The evaluation at an address, as a features tuner sees it. -/
def featuresEvaluation (e : EvalObj) : FeaturesEvaluation := ⟨e.evaluation, (e.features.map (·.handle)).getD 0#64⟩

section
variable (h : StoredTuner H P mem mem' mk hp pdata o) (hb : ∀ x ∈ o.tuner.history, Belongs o (o.evals x)) {rs : ReadSpace} {r : ReadTuner}
  (hs : SameTuner P mem' pdata o rs r) (hnull : 0#64 ∉ o.tuner.history)
  (hd : ∀ i j, i < o.tuner.history.length → j < o.tuner.history.length → (P.evalAt i).eval = (P.evalAt j).eval → i = j)
  (hd0 : ∀ i, (P.evalAt i).eval ≠ 0#64)
  {evals' : BitVec 64 → EvalObj} (he' : ∀ e ∈ r.history, evals' e.handle = e)
  {spaces spaces' : BitVec 64 → ObjSpace} (hsp : spaces o.objectives.handle = o.objectives.space)
  (hsp' : spaces' P.objectives = r.objectives.1.space)

theorem followed (hs : SameTuner P mem' pdata o rs r) {evals' : BitVec 64 → EvalObj} (he' : ∀ e ∈ r.history, evals' e.handle = e)
    {x : BitVec 64} (hx : x ∈ o.tuner.history) :
    SameEval P (P.evalAt (o.tuner.history.idxOf x)) (o.evals x) (evals' (followEval P o.tuner x)) := by
  have hl := List.idxOf_lt_length_of_mem hx
  obtain ⟨e, k1, k2⟩ := hs.evals (o.tuner.history.idxOf x) x (by rw [List.getElem?_eq_getElem hl, List.getElem_idxOf hl])
  have := he' e (List.mem_of_getElem? k1)
  rw [k2.handle] at this
  unfold followEval
  rw [this]
  exact k2

theorem follow_inj (hd : ∀ i j, i < o.tuner.history.length → j < o.tuner.history.length → (P.evalAt i).eval = (P.evalAt j).eval → i = j)
    {x y : BitVec 64} (hx : x ∈ o.tuner.history) (hy : y ∈ o.tuner.history) : followEval P o.tuner x = followEval P o.tuner y ↔ x = y := by
  constructor
  · intro hxy
    have hlx := List.idxOf_lt_length_of_mem hx
    have hly := List.idxOf_lt_length_of_mem hy
    have := hd _ _ hlx hly hxy
    have h1 := List.getElem_idxOf hlx
    have h2 := List.getElem_idxOf hly
    rw [← h1, ← h2]
    simp only [this]
  · rintro rfl
    rfl

include h hb hs hnull hd hd0 he' hsp hsp'

/-- **C92** The tuner that came back sees the evaluations of its history as the one written did: same results, same comparisons. -/
theorem C92_same_view (ops : FloatOps) (jen : Bytes → BitVec 32) (little : Bool) :
    SameView (· ∈ o.tuner.history) (followEval P o.tuner)
      (evalEnv ops jen little spaces fun x => (o.evals x).evaluation)
      (evalEnv ops jen little spaces' fun x => (evals' x).evaluation) where
  null x hx := ⟨fun h0 => absurd h0 (hd0 _), fun h0 => absurd hx (h0 ▸ hnull)⟩
  result x hx := (followed hs he' hx).result
  compare x y hx hy := by
    have kx := followed hs he' hx
    have ky := followed hs he' hy
    exact C90_same_comparison (evals := fun x => (o.evals x).evaluation) (evals' := fun x => (evals' x).evaluation) h.objectives.made hs.objectives.2.1 hs.objectives.1 h.objectives.honest hsp hsp' (follow_inj hd hx hy)
      ⟨(hb x hx).objectives.1, kx.values, kx.result⟩ ⟨(hb y hy).objectives.1, ky.values, ky.result⟩

/-- **C92** The same for features tuners. -/
theorem C92_same_features_view (ops : FloatOps) (jen : Bytes → BitVec 32) (little : Bool) {f : FeatSpaceObj} (hf : o.features = some f)
    {feats feats' : BitVec 64 → Binding}
    (hg : ∀ x ∈ o.tuner.history, ∀ g, (o.evals x).features = some g → feats g.handle = g.binding)
    (hg' : ∀ e ∈ r.history, ∀ g, e.features = some g → feats' g.handle = g.binding) :
    SameView (· ∈ o.tuner.history) (followEval P o.tuner)
      (featuresEnv ops jen little spaces feats fun x => featuresEvaluation (o.evals x))
      (featuresEnv ops jen little spaces' feats' fun x => featuresEvaluation (evals' x)) where
  null x hx := ⟨fun h0 => absurd h0 (hd0 _), fun h0 => absurd hx (h0 ▸ hnull)⟩
  result x hx := (followed hs he' hx).result
  compare x y hx hy := by
    have kx := followed hs he' hx
    have ky := followed hs he' hy
    have key : ∀ z ∈ o.tuner.history, (feats (featuresEvaluation (o.evals z)).features).context = f.handle ∧
        MovedTo P.features (feats (featuresEvaluation (o.evals z)).features)
          (feats' (featuresEvaluation (evals' (followEval P o.tuner z))).features) := by
      intro z hz
      have kz := followed hs he' hz
      obtain ⟨g, g1, g2, -⟩ := (hb z hz).features f hf
      obtain ⟨g', g1', g2'⟩ := kz.features g g1
      have hm : evals' (followEval P o.tuner z) ∈ r.history := by
        have hl := List.idxOf_lt_length_of_mem hz
        obtain ⟨e, e1, e2⟩ := hs.evals (o.tuner.history.idxOf z) z (by rw [List.getElem?_eq_getElem hl, List.getElem_idxOf hl])
        have := he' e (List.mem_of_getElem? e1)
        rw [e2.handle] at this
        unfold followEval
        rw [this]
        exact List.mem_of_getElem? e1
      unfold featuresEvaluation
      rw [g1, g1']
      dsimp only [Option.map_some, Option.getD_some]
      rw [hg z hz g g1, hg' _ hm g' g1']
      exact ⟨g2, g2'.values⟩
    exact C90_same_features_comparison (feats := feats) (feats' := feats') (evals := fun x => featuresEvaluation (o.evals x))
      (evals' := fun x => featuresEvaluation (evals' x)) h.objectives.made hs.objectives.2.1 hs.objectives.1 h.objectives.honest hsp hsp' (follow_inj hd hx hy)
      ⟨(hb x hx).objectives.1, kx.values, kx.result⟩ ⟨(hb y hy).objectives.1, ky.values, ky.result⟩ (key x hx) (key y hy)

end

/-- **C92** The tuner that came back continues as the one written would: it lists the same optima and history, and when both are told
evaluations that the two processes see alike, they answer the same and stay the same, so that their optima are the
same at every later time. -/
theorem C92_same_continuation {rs : ReadSpace} {r : ReadTuner} (hs : SameTuner P mem' pdata o rs r) :
    (∀ size count, r.tuner.getOptima size count = listing (o.tuner.optima.map (followEval P o.tuner)) size count) ∧
    (∀ size count, r.tuner.getHistory size count = listing (o.tuner.history.map (followEval P o.tuner)) size count) ∧
    ∀ {S : BitVec 64 → Prop} {f : BitVec 64 → BitVec 64} {env env' : TunerEnv}, SameView S f env env' → (∀ x ∈ o.tuner.optima, S x) →
      (∀ x ∈ o.tuner.history ++ o.tuner.optima, f x = followEval P o.tuner x) → ∀ es, (∀ e ∈ es, S e) →
      (r.tuner.tell env' (es.map f)).2 = (o.tuner.tell env es).2 ∧
      (r.tuner.tell env' (es.map f)).1.optima = (o.tuner.tell env es).1.optima.map f ∧
      (r.tuner.tell env' (es.map f)).1.history = (o.tuner.tell env es).1.history.map f := by
  refine ⟨fun size count => by rw [Tuner.getOptima, hs.optima], fun size count => by rw [Tuner.getHistory, hs.history], ?_⟩
  intro S f env env' hv ho hf es he
  have ht : r.tuner = movedTuner f o.tuner := by
    unfold movedTuner
    have h1 : o.tuner.history.map f = o.tuner.history.map (followEval P o.tuner) :=
      List.map_congr_left fun x hx => hf x (by simp [hx])
    have h2 : o.tuner.optima.map f = o.tuner.optima.map (followEval P o.tuner) :=
      List.map_congr_left fun x hx => hf x (by simp [hx])
    rw [h1, h2, ← hs.history, ← hs.optima]
  rw [ht, (tell_moved hv es o.tuner ho he).1]
  exact ⟨rfl, rfl, rfl⟩

/-- **C92** As long as it has optima, the tuner that came back suggests, on the same draw, the configuration of the
evaluation that took the place of the one the tuner written would have suggested. -/
theorem C92_same_suggestion {rs : ReadSpace} {r : ReadTuner} (hs : SameTuner P mem' pdata o rs r) (ops : FloatOps) (jen : Bytes → BitVec 32)
    (little : Bool) (conf conf' : BitVec 64 → BitVec 64) (s s' : Space) (draw : BitVec 64) (time time' : Nat) {e : BitVec 64}
    (he : o.tuner.optima[draw.toNat % o.tuner.optima.length]? = some e) :
    (o.tuner.suggest ops jen little conf s draw time).2 = .ok (.known (conf e)) ∧
    (r.tuner.suggest ops jen little conf' s' draw time').2 = .ok (.known (conf' (followEval P o.tuner e))) := by
  have hl : 0 < o.tuner.optima.length := by
    have := (List.getElem?_eq_some_iff.mp he).1
    omega
  constructor
  · unfold Tuner.suggest
    rw [if_pos hl, he]
  · unfold Tuner.suggest
    rw [hs.optima, List.length_map, if_pos hl, List.getElem?_map, he]
    rfl

end

/-! Instances: tuners on the spaces of the examples, without and with features. -/

/-- The evaluation at address `x`: the values of `a` and `b` are 1 and 2, the objective is the last digit of the address.  From 4100 on
the configuration is one of another space, and from 4200 on it has one value. -/
def exRunEval (feat : Bool) (x : BitVec 64) : EvalObj :=
  ⟨x, ⟨2000#64, [exInt (x &&& 7#64) false]⟩,
    ⟨x + 1000#64, if x.toNat < 4100 then ⟨1000#64, [exInt 1#64 false, exInt 2#64 false]⟩
      else if x.toNat < 4200 then ⟨1001#64, [exInt 1#64 false]⟩ else ⟨1000#64, [exInt 1#64 false]⟩, []⟩,
    if feat then some ⟨x + 2000#64, ⟨3000#64, [exInt 3#64 false]⟩, []⟩ else none, 0#32, []⟩

/-- What the tuners see. -/
def exRunEnv : TunerEnv := evalEnv ieee exJen true (fun _ => exTargets 301#64) fun x => (exRunEval false x).evaluation

/-- The tuner told the evaluations `es`. -/
def exTuner (feat : Bool) (es : List (BitVec 64)) : TunerObj :=
  ⟨6000#64, [0x74#8], exSpaceObj exPlain, exTargetObj 301#64, if feat then some exFeatObj else none,
    Tuner.empty.tells [(exRunEnv, es)], exRunEval feat, [7#8]⟩

/-- The addresses given by the reading process. -/
def exPlacesOf : Places :=
  ⟨7000#64, 7001#64, exPlaces 500, 7002#64, exPlaces 600, fun i => ⟨BitVec.ofNat 64 (8000 + 3 * (i % 1000)),
    BitVec.ofNat 64 (8001 + 3 * (i % 1000)), BitVec.ofNat 64 (8002 + 3 * (i % 1000))⟩⟩

theorem exRunEval_storable (feat : Bool) (x : BitVec 64) : StorableEval (exRunEval feat x) where
  binding := ⟨by simp [exRunEval], by simp [exRunEval, exInt, StorableValue]⟩
  configuration := by
    refine ⟨?_, by simp [exRunEval]⟩
    unfold exRunEval
    dsimp only
    split
    · exact ⟨by simp, by simp [exInt, StorableValue]⟩
    · split
      · exact ⟨by simp, by simp [exInt, StorableValue]⟩
      · exact ⟨by simp, by simp [exInt, StorableValue]⟩
  features f hf := by
    unfold exRunEval at hf
    cases feat with
    | false => cases hf
    | true =>
      obtain rfl := Option.some.inj hf
      exact ⟨⟨by simp, by simp [exInt, StorableValue]⟩, by simp⟩
  data := by simp [exRunEval]

theorem exTuner_stored (feat : Bool) (es : List (BitVec 64))
    (hsz : (Tuner.empty.tells [(exRunEnv, es)]).history.length + (Tuner.empty.tells [(exRunEnv, es)]).optima.length < 2 ^ 64) :
    StoredTuner exHost exPlacesOf exMem exMem' exDefault exStore exPdata (exTuner feat es) where
  name := ⟨by simp [exTuner], by simp [exTuner]⟩
  data := by simp [exTuner]
  space := exPlain_stored
  spaceAddrs := by
    show (written (exSpaceObj exPlain)).Nodup
    decide +kernel
  objectives := exTargetObj_stored _
  objAddrs := by
    show (writtenIn (exTargetObj 301#64).space).Nodup
    rw [exTargets_written]
    decide
  objPlaces := exLays (by decide) (by decide) (exTargets_get _).1
  features s hs := by
    cases feat with
    | false => cases hs
    | true =>
      obtain rfl := Option.some.inj hs
      exact ⟨exFeatObj_stored, exLays (by decide) (by decide) rfl⟩
  spaces := by
    cases feat <;> simp [spacesOf, exTuner, exSpaceObj, exTargetObj, exFeatObj]
  evals x hx := by
    refine ⟨rfl, exRunEval_storable _ _, ?_⟩
    cases feat <;> rfl
  made := ⟨_, rfl⟩
  size := hsz

theorem exTuner_space : ∃ rs, rebuilt exHost exMem' exHost.little exStore (exSpaceObj exPlain) = .ok rs :=
  (C87_rebuilt_exactly exPlain_stored).1.mpr ⟨⟨_, (by decide : newGenerator exGens exGen.name = .ok [0#8, 0#8, 0#8, 0#8])⟩,
    ⟨_, exTen_back exPlain⟩, .inr exPlain_default⟩

theorem exPlain_params : (exSpace exPlain).params.length = 2 := by decide +kernel

theorem noStrings {c : Ctx} {a : BitVec 64} {vs : List Datum} (hl : vs.length = c.params.length) (h : ∀ d ∈ vs, ∀ s, d.v ≠ .str s) :
    FitsSpace c ⟨a, vs⟩ :=
  ⟨hl, fun _ d s hi hs => absurd hs (h d (List.mem_of_getElem? hi) s)⟩

theorem exRunEval_belongs (feat : Bool) (es : List (BitVec 64)) {x : BitVec 64} (hx : x.toNat < 4100) :
    Belongs (exTuner feat es) (exRunEval feat x) where
  configuration := by
    unfold exRunEval
    dsimp only
    rw [if_pos hx]
    refine ⟨rfl, noStrings ?_ (by simp [exInt])⟩
    show 2 = (exSpace exPlain).ctx.params.length
    rw [Space.ctx, List.length_map, exPlain_params]
  objectives := by
    refine ⟨rfl, noStrings ?_ (by simp [exInt])⟩
    show 1 = (exTargets 301#64).ctx.params.length
    rw [(exTargets_get _).1]
    rfl
  without h := by
    cases feat with
    | false => rfl
    | true => cases h
  features s hs := by
    cases feat with
    | false => cases hs
    | true =>
      obtain rfl := Option.some.inj hs
      exact ⟨_, rfl, rfl, noStrings rfl (by simp [exInt])⟩

/-- Three evaluations told, of which the second is dominated by none: both objectives are the same number, minimized and maximized. -/
theorem exTuner_told : Tuner.empty.tells [(exRunEnv, [4001#64, 4002#64, 4003#64])] =
    ⟨[4001#64, 4002#64, 4003#64], [4001#64, 4002#64, 4003#64]⟩ := by decide +kernel

/-- The hypotheses of `C92_round_trip_partial` are met by a tuner and by a features tuner with three evaluations. -/
example (feat : Bool) : StoredTuner exHost exPlacesOf exMem exMem' exDefault exStore exPdata (exTuner feat [4001#64, 4002#64, 4003#64]) ∧
    (∃ rs, rebuilt exHost exMem' exHost.little exStore (exTuner feat [4001#64, 4002#64, 4003#64]).space = .ok rs) ∧
    (∀ x ∈ (exTuner feat [4001#64, 4002#64, 4003#64]).tuner.history, Belongs (exTuner feat [4001#64, 4002#64, 4003#64])
      ((exTuner feat [4001#64, 4002#64, 4003#64]).evals x)) ∧
    (spacesOf (exTuner feat [4001#64, 4002#64, 4003#64]) ++ (exTuner feat [4001#64, 4002#64, 4003#64]).tuner.history).Nodup := by
  have ht : (exTuner feat [4001#64, 4002#64, 4003#64]).tuner = ⟨[4001#64, 4002#64, 4003#64], [4001#64, 4002#64, 4003#64]⟩ := exTuner_told
  refine ⟨exTuner_stored _ _ (by rw [exTuner_told]; decide), exTuner_space, fun x hx => ?_, ?_⟩
  · rw [ht] at hx
    refine exRunEval_belongs _ _ ?_
    simp only [List.mem_cons, List.not_mem_nil, or_false] at hx
    rcases hx with rfl | rfl | rfl <;> decide
  · rw [ht]
    cases feat <;> simp [spacesOf, exTuner, exSpaceObj, exTargetObj, exFeatObj]

/-- The hypotheses of `C92_told_twice_refused`: the second evaluation is told again. -/
example : StoredTuner exHost exPlacesOf exMem exMem' exDefault exStore exPdata (exTuner false [4001#64, 4002#64, 4001#64]) ∧
    (∀ x ∈ (exTuner false [4001#64, 4002#64, 4001#64]).tuner.history, Belongs (exTuner false [4001#64, 4002#64, 4001#64])
      ((exTuner false [4001#64, 4002#64, 4001#64]).evals x)) ∧
    ¬ (spacesOf (exTuner false [4001#64, 4002#64, 4001#64]) ++ (exTuner false [4001#64, 4002#64, 4001#64]).tuner.history).Nodup := by
  have hold : Tuner.empty.tells [(exRunEnv, [4001#64, 4002#64, 4001#64])] = ⟨[4001#64, 4002#64, 4001#64], [4001#64, 4002#64]⟩ := by
    decide +kernel
  have ht : (exTuner false [4001#64, 4002#64, 4001#64]).tuner = ⟨[4001#64, 4002#64, 4001#64], [4001#64, 4002#64]⟩ := hold
  refine ⟨exTuner_stored _ _ (by rw [hold]; decide), fun x hx => ?_, ?_⟩
  · rw [ht] at hx
    refine exRunEval_belongs _ _ ?_
    simp only [List.mem_cons, List.not_mem_nil, or_false] at hx
    rcases hx with rfl | rfl | rfl <;> decide
  · rw [ht]
    simp [spacesOf, exTuner, exSpaceObj, exTargetObj]

/-- The hypotheses of `C92_foreign_refused` and `C92_grown_refused`: the second evaluation is for a configuration of the space at 1001, or
for a configuration with one value of the space of the tuner, which has two parameters. -/
example : StoredTuner exHost exPlacesOf exMem exMem' exDefault exStore exPdata (exTuner false [4001#64, 4102#64]) ∧
    (exTuner false [4001#64, 4102#64]).tuner.history = [4001#64] ++ 4102#64 :: [] ∧
    (spacesOf (exTuner false [4001#64, 4102#64]) ++ [4001#64]).Nodup ∧
    ((exTuner false [4001#64, 4102#64]).evals 4102#64).configuration.binding.context ∉ spacesOf (exTuner false [4001#64, 4102#64]) ++ [4001#64] ∧
    StoredTuner exHost exPlacesOf exMem exMem' exDefault exStore exPdata (exTuner false [4001#64, 4202#64]) ∧
    (exTuner false [4001#64, 4202#64]).tuner.history = [4001#64] ++ 4202#64 :: [] ∧
    ((exTuner false [4001#64, 4202#64]).evals 4202#64).configuration.binding.context = (exTuner false [4001#64, 4202#64]).space.handle ∧
    ((exTuner false [4001#64, 4202#64]).evals 4202#64).configuration.binding.values.length ≠
      (exTuner false [4001#64, 4202#64]).space.space.params.length ∧
    ∀ y ∈ [4001#64], Belongs (exTuner false [4001#64, 4102#64]) ((exTuner false [4001#64, 4102#64]).evals y) := by
  have h1 : Tuner.empty.tells [(exRunEnv, [4001#64, 4102#64])] = ⟨[4001#64, 4102#64], [4001#64, 4102#64]⟩ := by decide +kernel
  have h2 : Tuner.empty.tells [(exRunEnv, [4001#64, 4202#64])] = ⟨[4001#64, 4202#64], [4001#64, 4202#64]⟩ := by decide +kernel
  refine ⟨exTuner_stored _ _ (by rw [h1]; decide), ?_, ?_, ?_, exTuner_stored _ _ (by rw [h2]; decide), ?_, ?_, ?_, fun y hy => ?_⟩
  · exact congrArg Tuner.history h1
  · simp [spacesOf, exTuner, exSpaceObj, exTargetObj]
  · simp [spacesOf, exTuner, exSpaceObj, exTargetObj, exRunEval]
  · exact congrArg Tuner.history h2
  · simp [exTuner, exSpaceObj, exRunEval]
  · show ((exRunEval false 4202#64).configuration.binding.values.length) ≠ (exSpace exPlain).params.length
    rw [exPlain_params]
    decide
  · rw [List.mem_singleton] at hy
    subst hy
    exact exRunEval_belongs _ _ (by decide)

/-- The other hypotheses of `C92_same_view`, for the three evaluations. -/
example : 0#64 ∉ (exTuner false [4001#64, 4002#64, 4003#64]).tuner.history := by
  have ht : (exTuner false [4001#64, 4002#64, 4003#64]).tuner = ⟨[4001#64, 4002#64, 4003#64], [4001#64, 4002#64, 4003#64]⟩ := exTuner_told
  rw [ht]
  simp

theorem exPlacesOf_eval (i : Nat) : (exPlacesOf.evalAt i).eval.toNat = 8000 + 3 * (i % 1000) := by
  have hm := Nat.mod_lt i (by decide : 0 < 1000)
  have hl : 8000 + 3 * (i % 1000) < 2 ^ 64 := by omega
  show (BitVec.ofNat 64 (8000 + 3 * (i % 1000))).toNat = _
  rw [BitVec.toNat_ofNat, Nat.mod_eq_of_lt hl]

example : (∀ i j, i < 3 → j < 3 → (exPlacesOf.evalAt i).eval = (exPlacesOf.evalAt j).eval → i = j) ∧ ∀ i, (exPlacesOf.evalAt i).eval ≠ 0#64 := by
  refine ⟨fun i j hi hj h => ?_, fun i h => ?_⟩
  · have := congrArg BitVec.toNat h
    rw [exPlacesOf_eval, exPlacesOf_eval] at this
    omega
  · have := congrArg BitVec.toNat h
    rw [exPlacesOf_eval] at this
    simp at this

end CCS.Props
