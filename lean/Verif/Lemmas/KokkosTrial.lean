import Mathlib.Data.List.Perm.Subperm
import Verif.Lemmas.KokkosRun
import Verif.Lemmas.SpaceSample
import Verif.Lemmas.Binding
import Verif.Lemmas.Tuner
import Verif.Spec.KokkosTrial

/-! Helper lemmas for the contexts of the Kokkos connector: their values, what is recorded of them and the choice of the best. -/

namespace CCS.Kokkos

open CCS Spec

section
variable {ops : FloatOps} {toInt : F64 → Option (BitVec 64)} {jen : Bytes → BitVec 32} {little : Bool}
variable {mk : Nat → Param → Out Dist}

/-! ### Configuration spaces -/

/-- As many values as parameters, each legal for its parameter. -/
def Fit (s : Space) (vals : List Value) : Prop :=
  vals.length = s.params.length ∧ ∀ (i : Nat) w v, s.params[i]? = some w → vals[i]? = some v → Legal w.param v

/-- A configuration space as the connector makes them. -/
structure Plain (ops : FloatOps) (jen : Bytes → BitVec 32) (little : Bool) (st : State) (s : Space) : Prop where
  good : Good st.params s
  ok : s.graphOk = true
  free : ∀ w ∈ s.params, w.condition = none
  clauses : s.clauses = []
  usable : ∀ w ∈ s.params, Props.Usable ops jen little w.param
  behaved : ∀ d ∈ s.dists, WellBehaved d.dist
  owned : ∀ w ∈ s.params, ∃ id, look st.parameters id = some w.handle

theorem plain_empty (st : State) : Plain ops jen little st Space.empty :=
  ⟨good_empty _, rfl, by simp [Space.empty], rfl, by simp [Space.empty], by simp [Space.empty], by simp [Space.empty]⟩

theorem addTuning_plain (hmk : OneDimensional mk) (hmkb : ∀ id p d, mk id p = .ok d → WellBehaved d) {st : State}
    (hu : ∀ id h, look st.parameters id = some h → Props.Usable ops jen little (st.params h)) :
    ∀ {ids : List Nat} {s s' : Space}, Plain ops jen little st s → addTuning mk st ids s = .ok s' → Plain ops jen little st s'
  | [], s, s', hp, h => by cases h; exact hp
  | id :: ids, s, s', hp, h => by
    unfold addTuning at h
    obtain ⟨a, h1, h⟩ := bind_eq_ok h
    have ha : look st.parameters id = some a := by
      unfold handleOf at h1
      split at h1
      · next h2 => cases h1; exact h2
      · cases h1
    rcases addParameter_outcomes hmk hp.good a none with ⟨e, he⟩ | ⟨he, -⟩ | ⟨d, he, h2, h3, h4, h5, h6⟩
    · rw [he] at h; cases h
    · rw [he] at h; cases h
    · rw [he] at h
      refine addTuning_plain hmk hmkb hu ⟨h6, hp.ok, fun w hw => ?_, hp.clauses, fun w hw => ?_, fun w hw => ?_, fun w hw => ?_⟩ h
      · rcases List.mem_append.1 hw with hw | hw
        · exact hp.free w hw
        · rw [List.mem_singleton.1 hw]
      · rcases List.mem_append.1 hw with hw | hw
        · exact hp.usable w hw
        · rw [List.mem_singleton.1 hw]; exact hu id a ha
      · rcases List.mem_append.1 hw with hw | hw
        · exact hp.behaved w hw
        · rw [List.mem_singleton.1 hw]; exact hmkb _ _ _ h4
      · rcases List.mem_append.1 hw with hw | hw
        · exact hp.owned w hw
        · rw [List.mem_singleton.1 hw]; exact ⟨id, ha⟩

theorem sampleMany_plain {st : State} {s : Space} (hp : Plain ops jen little st s) (t : Nat) :
    ∃ r, sampleMany ops jen little s t 1 = (s, r) ∧ ∀ v ∈ r.1, Fit s v := by
  refine ⟨samplesLoop ops jen little s 1 100 t s.blank [], ?_, fun v hv => ?_⟩
  · simp [sampleMany, ensureGraph, hp.ok]
  · obtain ⟨m, -, -, h2, -⟩ := samplesLoop_first (ops := ops) (jen := jen) (little := little) hp.good.parts 1 100 t
      s.blank [] (by simp [Space.blank]) (by simp)
    rw [h2, List.nil_append] at hv
    obtain ⟨k, -, -, ha⟩ := mem_hits hv
    obtain ⟨raw, -, -, -, -, -, hval⟩ := attempt_valid hp.good.parts (hp.good.graph.full hp.ok) hp.usable hp.behaved
      (by simp [Space.blank]) ha
    obtain ⟨⟨h3, h4, h5, -⟩, -⟩ := hval rfl
    refine ⟨h3, fun i w x hw hx => h5 i w x hw hx ?_⟩
    refine (h4 i w.handle none x ?_ hx).2 (fun e he => by cases he)
    rw [conditions_get hw, hp.free w (List.mem_of_getElem? hw)]

theorem askOne_plain {st : State} {s : Space} (hp : Plain ops jen little st s) (t : Nat) :
    ∃ sug, askOne ops jen little s t = (s, sug) ∧ ∀ x, sug = .ok x → ∃ v, x = .fresh v ∧ Fit s v := by
  obtain ⟨⟨vs, r⟩, h1, h2⟩ := sampleMany_plain hp t
  unfold askOne
  rw [h1]
  cases vs with
  | nil => cases r <;> exact ⟨_, rfl, by simp⟩
  | cons v vs =>
    cases r with
    | ok u => exact ⟨_, rfl, fun x hx => by cases hx; exact ⟨v, rfl, h2 v (by simp)⟩⟩
    | err e => exact ⟨_, rfl, by simp⟩
    | ub => exact ⟨_, rfl, by simp⟩

/-- The position of a parameter. -/
theorem getIndex_plain {st : State} {s : Space} (hp : Plain ops jen little st s) {h : BitVec 64} {i : Nat} (hi : s.getIndex h = .ok i) :
    ∃ w, s.params[i]? = some w ∧ w.handle = h ∧ w.param = st.params h := by
  unfold Space.getIndex at hi
  rcases entryIndex_spec hp.good.tables.indexed h with ⟨j, w, hw, hh, he⟩ | ⟨-, he⟩
  · rw [he] at hi
    cases hi
    refine ⟨w, hw, hh, ?_⟩
    rw [(hp.good.tables.mem w (List.mem_of_getElem? hw)).1, hh]
  · rw [he] at hi; cases hi

theorem good_congr {mem mem' : BitVec 64 → Param} {s : Space} (hg : Good mem s) (h : ∀ w ∈ s.params, mem' w.handle = mem w.handle) :
    Good mem' s :=
  ⟨⟨hg.tables.indexed, hg.tables.names, fun w hw => by rw [h w hw]; exact hg.tables.mem w hw⟩, hg.graph, hg.parts⟩

/-! ### Features spaces -/

theorem addContext_grown {st : State} : ∀ {ids : List Nat} {c c' : Ctx} (_ : Grown st.params c), addContext st ids c = .ok c' →
    Grown st.params c' ∧ ∀ x ∈ c'.params, x ∈ c.params ∨ ∃ id ∈ ids, look st.features id = some x.1
  | [], c, c', hg, h => by cases h; exact ⟨hg, fun x hx => .inl hx⟩
  | id :: ids, c, c', hg, h => by
    unfold addContext at h
    obtain ⟨a, h1, h⟩ := bind_eq_ok h
    have ha : look st.features id = some a := by
      unfold handleOf at h1
      split at h1
      · next h2 => cases h1; exact h2
      · cases h1
    have hg' := Grown.add a hg
    have hmem : ∀ x ∈ (c.add st.params a).1.params, x ∈ c.params ∨ x.1 = a := by
      intro x hx
      unfold Ctx.add at hx
      split at hx
      · exact .inl hx
      · rcases List.mem_append.1 hx with hx | hx
        · exact .inl hx
        · rw [List.mem_singleton.1 hx]; exact .inr rfl
    rcases hadd : c.add st.params a with ⟨c1, r⟩
    rw [hadd] at h hg' hmem
    cases r with
    | ok u =>
      obtain ⟨h2, h3⟩ := addContext_grown hg' h
      refine ⟨h2, fun x hx => ?_⟩
      rcases h3 x hx with h4 | ⟨id', h4, h5⟩
      · rcases hmem x h4 with h5 | h5
        · exact .inl h5
        · exact .inr ⟨id, by simp, by rw [ha, h5]⟩
      · exact .inr ⟨id', List.mem_cons_of_mem _ h4, h5⟩
    | err e => cases h
    | ub => cases h

/-! ### Values of the features -/

theorem forall₂_left {α β : Type} {R : α → β → Prop} {a : List α} {b : List β} (h : List.Forall₂ R a b) {x : α} (hx : x ∈ a) :
    ∃ y ∈ b, R x y := by
  induction h with
  | nil => cases hx
  | cons h _ ih =>
    rcases List.mem_cons.1 hx with rfl | hx
    · exact ⟨_, by simp, h⟩
    · obtain ⟨y, h1, h2⟩ := ih hx
      exact ⟨y, List.mem_cons_of_mem _ h1, h2⟩

theorem forall₂_right {α β : Type} {R : α → β → Prop} {a : List α} {b : List β} (h : List.Forall₂ R a b) {y : β} (hy : y ∈ b) :
    ∃ x ∈ a, R x y := by
  induction h with
  | nil => cases hy
  | cons h _ ih =>
    rcases List.mem_cons.1 hy with rfl | hy
    · exact ⟨_, by simp, h⟩
    · obtain ⟨x, h1, h2⟩ := ih hy
      exact ⟨x, List.mem_cons_of_mem _ h1, h2⟩

/-- Several writes in an array. -/
def writes (vs : List Datum) (ps : List (Nat × Datum)) : List Datum := ps.foldl (fun vs p => vs.set p.1 p.2) vs

theorem writes_length (ps : List (Nat × Datum)) : ∀ vs : List Datum, (writes vs ps).length = vs.length := by
  induction ps with
  | nil => intro vs; rfl
  | cons p ps ih => intro vs; unfold writes; rw [List.foldl_cons]; exact (ih _).trans (by simp)

theorem writes_other {ps : List (Nat × Datum)} {i : Nat} : ∀ {vs : List Datum}, (∀ p ∈ ps, p.1 ≠ i) → (writes vs ps)[i]? = vs[i]? := by
  induction ps with
  | nil => intro vs _; rfl
  | cons p ps ih =>
    intro vs h
    unfold writes
    rw [List.foldl_cons]
    refine (ih fun q hq => h q (List.mem_cons_of_mem _ hq)).trans ?_
    rw [List.getElem?_set_ne (h p (by simp))]

theorem writes_get {ps : List (Nat × Datum)} {i : Nat} {d : Datum} : ∀ {vs : List Datum}, (ps.map (·.1)).Nodup → (i, d) ∈ ps →
    i < vs.length → (writes vs ps)[i]? = some d := by
  induction ps with
  | nil => intro vs _ h; cases h
  | cons p ps ih =>
    intro vs hn h hi
    rw [List.map_cons, List.nodup_cons] at hn
    unfold writes
    rw [List.foldl_cons]
    rcases List.mem_cons.1 h with rfl | h
    · refine (writes_other fun q hq e => hn.1 ?_).trans ?_
      · exact List.mem_map.2 ⟨q, hq, e⟩
      · rw [List.getElem?_set_self hi]
    · exact ih hn.2 h (by simpa using hi)

/-- What one variable of a request writes. -/
def Writes (st : State) (c : Ctx) (x : Var) (p : Nat × Datum) : Prop :=
  ∃ h, look st.features x.id = some h ∧ c.index h = .ok p.1 ∧ extractValue x.type x.value = .ok p.2

theorem featuresLoop_ok {st : State} {c : Ctx} : ∀ {xs : List Var} {vs vs' : List Datum}, featuresLoop st c xs vs = .ok vs' →
    ∃ ps, List.Forall₂ (Writes st c) xs ps ∧ vs' = writes vs ps ∧ ∀ p ∈ ps, p.1 < vs.length
  | [], vs, vs', h => by cases h; exact ⟨[], .nil, rfl, by simp⟩
  | x :: xs, vs, vs', h => by
    unfold featuresLoop at h
    obtain ⟨a, h1, h⟩ := bind_eq_ok h
    obtain ⟨i, h2, h⟩ := bind_eq_ok h
    obtain ⟨d, h3, h⟩ := bind_eq_ok h
    split at h
    · next hi =>
      obtain ⟨ps, h4, h5, h6⟩ := featuresLoop_ok h
      refine ⟨(i, d) :: ps, .cons ⟨a, ?_, h2, h3⟩ h4, h5, fun p hp => ?_⟩
      · unfold handleOf at h1
        split at h1
        · next h7 => cases h1; exact h7
        · cases h1
      · rcases List.mem_cons.1 hp with rfl | hp
        · exact hi
        · have := h6 p hp; rwa [List.length_set] at this
    · cases h

theorem admitAll_ok {c : Ctx} (hl : c.params.length < 4294967296) : ∀ {ds ds' : List Datum} {i : Nat},
    i + ds.length ≤ c.params.length → admitAll jen little c i ds = .ok ds' → ds'.map (·.v) = ds.map (·.v)
  | [], ds', i, _, h => by cases h; rfl
  | d :: ds, ds', i, hi, h => by
    simp only [List.length_cons] at hi
    unfold admitAll at h
    obtain ⟨d1, h1, h⟩ := bind_eq_ok h
    obtain ⟨ds1, h2, h⟩ := bind_eq_ok h
    cases h
    rw [List.map_cons, List.map_cons, admitAll_ok hl (by omega) h2]
    congr 1
    rcases admit_cases jen little c d (i := i) (by omega) hl with ⟨-, d2, h3, h4, -⟩ | ⟨-, -, h3⟩
    · rw [h3] at h1; cases h1; exact h4
    · rw [h3] at h1; cases h1

/-- The features that a request makes: one value for each parameter of the features space, given by the variables. -/
theorem requestFeatures_ok {st : State} {r : Region} {cv : List Var} {b : Binding} {key : List Nat}
    (ht : Table r.fctx) (howned : ∀ x ∈ r.fctx.params, ∃ id ∈ key, look st.features id = some x.1)
    (hkey : ∀ id ∈ key, ∀ a, look st.features id = some a → ∃ x ∈ cv, x.id = id) (hlen : cv.length < 2 ^ 32)
    (h : requestFeatures jen little st r cv = .ok b) :
    b.context = r.fspace ∧ b.values.length = r.fctx.params.length ∧
    ∀ x ∈ cv, ∃ a i d, look st.features x.id = some a ∧ r.fctx.index a = .ok i ∧ b.values[i]? = some d ∧ x.value.value x.type = .ok d.v := by
  unfold requestFeatures at h
  obtain ⟨vs, h1, h⟩ := bind_eq_ok h
  obtain ⟨ps, h2, rfl, h3⟩ := featuresLoop_ok h1
  simp only [List.length_replicate] at h3
  have hwl : (writes (List.replicate cv.length noneDatum) ps).length = cv.length := by rw [writes_length]; simp
  simp only [createBinding] at h
  split at h
  · cases h
  next hl =>
  obtain ⟨vs', h4, h⟩ := bind_eq_ok h
  cases h
  have hl' : r.fctx.params.length = cv.length := by rw [hwl] at hl; omega
  have hmap := admitAll_ok (by omega) (by rw [hwl]; omega) h4
  have hnd : (ps.map (·.1)).Nodup := by
    have hsub : List.range r.fctx.params.length ⊆ ps.map (·.1) := by
      intro i hi
      have hi := List.mem_range.1 hi
      obtain ⟨id, hid, hlook⟩ := howned _ (List.getElem_mem hi)
      obtain ⟨x, hx, rfl⟩ := hkey id hid _ hlook
      obtain ⟨p, hp, a, h5, h6, -⟩ := forall₂_left h2 hx
      rw [hlook] at h5
      cases h5
      refine List.mem_map.2 ⟨p, hp, ?_⟩
      have hh : Holds r.fctx i r.fctx.params[i].1 r.fctx.params[i].2 := List.getElem?_eq_getElem hi
      rcases ht.index r.fctx.params[i].1 with ⟨j, q, h7, h8⟩ | ⟨h7, -⟩
      · rw [h8] at h6
        cases h6
        exact ht.handle_inj h7 hh
      · exact absurd hh (h7 _ _)
    exact ((List.nodup_range.subperm hsub).perm_of_length_le (by simp [← h2.length_eq, hl'])).nodup_iff.1 List.nodup_range
  have hlen' : vs'.length = r.fctx.params.length := by
    have := congrArg List.length hmap
    simp only [List.length_map, hwl] at this
    omega
  refine ⟨rfl, hlen', fun x hx => ?_⟩
  obtain ⟨p, hp, a, h5, h6, h7⟩ := forall₂_left h2 hx
  have h8 := h3 p hp
  have h9 := writes_get hnd hp (vs := List.replicate cv.length noneDatum) (by simpa using h8)
  have h10 : (vs'.map (·.v))[p.1]? = some p.2.v := by rw [hmap, List.getElem?_map, h9]; rfl
  rw [List.getElem?_map, Option.map_eq_some_iff] at h10
  obtain ⟨d, h11, h12⟩ := h10
  refine ⟨a, p.1, d, h5, h6, h11, ?_⟩
  unfold extractValue at h7
  obtain ⟨v, h13, h7⟩ := bind_eq_ok h7
  rw [h12, h13]
  rw [← Out.ok.inj h7]

/-! ### Values sent -/

/-- The value of a tuning variable in a configuration of the space. -/
def Sends (st : State) (s : Space) (vals : List Value) (outputs : List (Nat × Bytes × Info)) (x : Nat × Raw) : Prop :=
  ∃ name info a i v, (x.1, name, info) ∈ outputs ∧ look st.parameters x.1 = some a ∧ s.getIndex a = .ok i ∧ vals[i]? = some v ∧
    setValue info.type v = .ok x.2

/-- The value of a context variable in the features. -/
def Gives (st : State) (c : Ctx) (b : Binding) (inputs : List (Nat × Bytes × Info)) (x : Nat × Raw) : Prop :=
  ∃ name info a i d, (x.1, name, info) ∈ inputs ∧ look st.features x.1 = some a ∧ c.index a = .ok i ∧ b.values[i]? = some d ∧
    x.2.value info.type = .ok d.v

theorem sendLoop_ok {st : State} {s : Space} {vs : List Value} : ∀ {xs : List Var} {sent : List Raw}, sendLoop st s vs xs = .ok sent →
    List.Forall₂ (fun (x : Var) r => ∃ a i v, look st.parameters x.id = some a ∧ s.getIndex a = .ok i ∧ vs[i]? = some v ∧
      setValue x.type v = .ok r) xs sent
  | [], sent, h => by cases h; exact .nil
  | x :: xs, sent, h => by
    unfold sendLoop at h
    obtain ⟨a, h1, h⟩ := bind_eq_ok h
    obtain ⟨i, h2, h⟩ := bind_eq_ok h
    split at h
    · cases h
    next v hv =>
    obtain ⟨r, h3, h⟩ := bind_eq_ok h
    obtain ⟨rs, h4, h⟩ := bind_eq_ok h
    cases h
    refine .cons ⟨a, i, v, ?_, h2, hv, h3⟩ (sendLoop_ok h4)
    unfold handleOf at h1
    split at h1
    · next h5 => cases h1; exact h5
    · cases h1

theorem zip_sent {α : Type} {R : Var → α → Prop} {xs : List Var} {rs : List α} (h : List.Forall₂ R xs rs) :
    (∀ y ∈ (xs.map (·.id)).zip rs, ∃ x ∈ xs, x.id = y.1 ∧ R x y.2) ∧ ((xs.map (·.id)).zip rs).map (·.1) = xs.map (·.id) ∧
    ∀ x ∈ xs, ∃ y ∈ (xs.map (·.id)).zip rs, x.id = y.1 := by
  induction h with
  | nil => simp
  | @cons x r xs rs h _ ih =>
    obtain ⟨h1, h2, h3⟩ := ih
    simp only [List.map_cons, List.zip_cons_cons]
    refine ⟨fun y hy => ?_, by rw [h2], fun z hz => ?_⟩
    · rcases List.mem_cons.1 hy with rfl | hy
      · exact ⟨x, by simp, rfl, h⟩
      · obtain ⟨z, h4, h5⟩ := h1 y hy
        exact ⟨z, List.mem_cons_of_mem _ h4, h5⟩
    · rcases List.mem_cons.1 hz with rfl | hz
      · exact ⟨(z.id, r), by simp, rfl⟩
      · obtain ⟨y, h4, h5⟩ := h3 z hz
        exact ⟨y, List.mem_cons_of_mem _ h4, h5⟩

/-! ### The objective space and the comparison of evaluations -/

/-- The objective space of a region. -/
def IsTime (s : ObjSpace) : Prop := ∃ h e p, s.ctx.params = [(h, p)] ∧ s.objectives = [⟨.var e h p, 0#32⟩]

theorem timeSpace_ok {mem : BitVec 64 → Param} {h : BitVec 64} {e : ObjMeta} {p : Param × ObjSpace}
    (hp : timeSpace ops mem h e = .ok p) : IsTime p.2 := by
  unfold timeSpace at hp
  obtain ⟨q, -, hp⟩ := bind_eq_ok hp
  simp only [ObjSpace.addParameter, ObjSpace.empty, Ctx.add, Ctx.empty, List.any_nil, Bool.false_eq_true, if_false, ObjSpace.addObjective,
    ObjSpace.handles, store_same, List.nil_append] at hp
  split at hp
  · next s' hs =>
    split at hs
    · next u hu =>
      simp only [Prod.mk.injEq, and_true] at hs
      cases hp
      rw [← hs]
      exact ⟨h, e, q, rfl, rfl⟩
    · simp at hs
    · simp at hs
  · cases hp
  · cases hp

theorem isTime_value {s : ObjSpace} (hs : IsTime s) (v : Value) (d : Datum) (hd : d.v = v) :
    ∀ o ∈ s.objectives, objectiveValue ops jen little s [d] o.expression = .ok v := by
  obtain ⟨h, e, p, h1, h2⟩ := hs
  intro o ho
  rw [h2, List.mem_singleton] at ho
  subst ho
  simp only [objectiveValue, ObjSpace.handles, h1, List.map_cons, List.map_nil, hd]
  simp [eval, Env.lookup, paramIndex]

/-- The time of an evaluation. -/
def timeOf (st : State) (e : BitVec 64) : Int :=
  match (st.evals e).evaluation.binding.values with
  | [⟨.int ns, _, _, _⟩] => ns.toInt
  | _ => 0

/-- The evaluations have the same features. -/
def SameGiven (st : State) (e f : BitVec 64) : Prop := SameBinding (st.feats (st.evals e).features) (st.feats (st.evals f).features)

/-- An evaluation of a region: its result and its only value. -/
structure IsTimed (st : State) (ospace : BitVec 64) (e : BitVec 64) : Prop where
  result : (st.evals e).evaluation.result = 0#32
  context : (st.evals e).evaluation.binding.context = ospace
  value : ∃ ns, (st.evals e).evaluation.binding.values = [⟨.int ns, false, false, false⟩]

theorem compare_timed {st : State} {ospace : BitVec 64} (hs : IsTime (st.ospaces ospace)) {x y : BitVec 64} (hx : IsTimed st ospace x)
    (hy : IsTimed st ospace y) (hne : x ≠ y) :
    (State.env ops jen little st).compare x y = .ok (if ¬ bindingCmp little st.feats (st.evals x).features (st.evals y).features = .eq
      then .notComparable else if timeOf st x < timeOf st y then .better else if timeOf st y < timeOf st x then .worse else .equivalent) := by
  obtain ⟨a, ha⟩ := hx.value
  obtain ⟨b, hb⟩ := hy.value
  simp only [State.env, compareFeaturesEvaluations]
  rw [if_neg hne, if_neg (by rw [hx.result, hy.result]; simp), if_neg (by rw [hx.context, hy.context]; simp)]
  by_cases hf : bindingCmp little st.feats (st.evals x).features (st.evals y).features = .eq
  · rw [if_neg (by simpa using hf), if_neg (by simpa using hf), hx.context, ha, hb]
    obtain ⟨h, e, p, h1, h2⟩ := id hs
    have va := isTime_value (ops := ops) (jen := jen) (little := little) hs (.int a) ⟨.int a, false, false, false⟩ rfl
    have vb := isTime_value (ops := ops) (jen := jen) (little := little) hs (.int b) ⟨.int b, false, false, false⟩ rfl
    rw [h2] at va vb ⊢
    simp only [List.mem_singleton, forall_eq] at va vb
    simp only [compareLoop, va, vb, Out.bind_ok, numericCompare, timeOf, ha, hb, intCmp, orient]
    by_cases h3 : a.toInt < b.toInt
    · simp [h3, mergeOne, Comparison.ofCmp]
    · by_cases h4 : b.toInt < a.toInt <;> simp [h3, h4, mergeOne, Comparison.ofCmp]
  · rw [if_pos hf, if_pos hf]

/-- The optima of a region: the fastest evaluations for their features, for all the features. -/
structure Fastest (st : State) (t : Tuner) : Prop where
  best : ∀ o ∈ t.optima, o ∈ t.history ∧ ∀ e ∈ t.history, SameGiven st e o → timeOf st o ≤ timeOf st e
  cover : ∀ e ∈ t.history, ∃ o ∈ t.optima, SameGiven st e o

theorem SameGiven.symm {st : State} {e f : BitVec 64} (h : SameGiven st e f) : SameGiven st f e := ⟨h.1.symm, h.2.symm⟩

theorem SameGiven.trans {st : State} {e f g : BitVec 64} (h : SameGiven st e f) (h' : SameGiven st f g) : SameGiven st e g :=
  ⟨h.1.trans h'.1, h.2.trans h'.2⟩

theorem Fastest.learn {st : State} {t t' : Tuner} {e ospace : BitVec 64} (hs : IsTime (st.ospaces ospace))
    (hh : ∀ f ∈ t.history, IsTimed st ospace f ∧ e ≠ f) (he : IsTimed st ospace e)
    (hf : Fastest st t) (h : t.learn (State.env ops jen little st) e = .ok t') : Fastest st t' := by
  have hcmp := fun o (ho : o ∈ t.optima) => compare_timed (ops := ops) (jen := jen) (little := little) hs he
    (hh o (hf.best o ho).1).1 (hh o (hf.best o ho).1).2
  have hsame : ∀ o, bindingCmp little st.feats (st.evals e).features (st.evals o).features = .eq ↔ SameGiven st e o := fun o =>
    (bindingCmp_total little st.feats).eq_iff _ _
  have hno : ∀ o ∈ t.optima, ¬ SameGiven st e o → (State.env ops jen little st).compare e o = .ok .notComparable := fun o ho h1 => by
    rw [hcmp o ho, if_pos (by rw [hsame]; exact h1)]
  have hyes : ∀ o ∈ t.optima, SameGiven st e o → (State.env ops jen little st).compare e o =
      .ok (if timeOf st e < timeOf st o then .better else if timeOf st o < timeOf st e then .worse else .equivalent) := fun o ho h1 => by
    rw [hcmp o ho, if_neg (by rw [hsame]; simpa using h1)]
  unfold Tuner.learn at h
  by_cases hx : ∃ o ∈ t.optima, SameGiven st e o ∧ timeOf st o ≤ timeOf st e
  · obtain ⟨o, ho, h1, h2⟩ := hx
    have hle : ∀ o' ∈ t.optima, SameGiven st e o' → timeOf st o' ≤ timeOf st e := fun o' ho' h3 =>
      Int.le_trans ((hf.best o' ho').2 o (hf.best o ho).1 (h1.symm.trans h3)) h2
    rw [keepLoop_all _ e t.optima (fun o' ho' => ?_) ⟨o, ho, ?_⟩] at h
    · cases h
      simp only [if_true]
      refine ⟨fun o' ho' => ⟨List.mem_append_left _ (hf.best o' ho').1, fun f hfm h3 => ?_⟩, fun f hfm => ?_⟩
      · rcases List.mem_append.1 hfm with hfm | hfm
        · exact (hf.best o' ho').2 f hfm h3
        · rw [List.mem_singleton.1 hfm] at h3 ⊢
          exact hle o' ho' h3
      · rcases List.mem_append.1 hfm with hfm | hfm
        · exact hf.cover f hfm
        · rw [List.mem_singleton.1 hfm]; exact ⟨o, ho, h1⟩
    · rw [hyes o ho h1, if_neg (by omega)]
      split
      · exact .inr rfl
      · exact .inl rfl
    · by_cases h3 : SameGiven st e o'
      · have := hle o' ho' h3
        refine ⟨_, hyes o' ho' h3, ?_⟩
        rw [if_neg (by omega)]
        split <;> simp
      · exact ⟨_, hno o' ho' h3, by simp⟩
  · have hlt : ∀ o ∈ t.optima, SameGiven st e o → timeOf st e < timeOf st o := fun o ho h1 => by
      rcases Int.lt_or_le (timeOf st e) (timeOf st o) with h2 | h2
      · exact h2
      · exact absurd ⟨o, ho, h1, h2⟩ hx
    let p : BitVec 64 → Bool := fun o => @decide (¬ SameGiven st e o) (Classical.propDecidable _)
    have hp : ∀ o, p o = true ↔ ¬ SameGiven st e o := fun o => by simp [p]
    rw [keepLoop_filter _ e p t.optima fun o ho => ?_] at h
    · cases h
      simp only [Bool.false_eq_true, if_false]
      refine ⟨fun o ho => ?_, fun f hfm => ?_⟩
      · rcases List.mem_append.1 ho with ho | ho
        · obtain ⟨h1, h2⟩ := List.mem_filter.1 ho
          refine ⟨List.mem_append_left _ (hf.best o h1).1, fun f hfm h3 => ?_⟩
          rcases List.mem_append.1 hfm with hfm | hfm
          · exact (hf.best o h1).2 f hfm h3
          · rw [List.mem_singleton.1 hfm] at h3
            exact absurd h3 ((hp o).1 h2)
        · rw [List.mem_singleton.1 ho]
          refine ⟨by simp, fun f hfm h3 => ?_⟩
          rcases List.mem_append.1 hfm with hfm | hfm
          · obtain ⟨o', h4, h5⟩ := hf.cover f hfm
            have := hlt o' h4 (h3.symm.trans h5)
            have := (hf.best o' h4).2 f hfm h5
            omega
          · rw [List.mem_singleton.1 hfm]; exact Int.le_refl _
      · rcases List.mem_append.1 hfm with hfm | hfm
        · obtain ⟨o', h4, h5⟩ := hf.cover f hfm
          by_cases h6 : SameGiven st e o'
          · exact ⟨e, by simp, h5.trans h6.symm⟩
          · exact ⟨o', List.mem_append_left _ (List.mem_filter.2 ⟨h4, (hp o').2 h6⟩), h5⟩
        · rw [List.mem_singleton.1 hfm]; exact ⟨e, by simp, rfl, rfl⟩
    · by_cases h1 : SameGiven st e o
      · left
        rw [hyes o ho h1, if_pos (hlt o ho h1)]
        exact ⟨rfl, by simp [p, h1]⟩
      · right
        rw [hno o ho h1]
        exact ⟨rfl, (hp o).2 h1⟩

/-! ### The invariant -/

/-- What is kept of a context: its features at address `fa` and its configuration at address `ca`. -/
structure TrialKept (st : State) (j : Journal) (k : List Nat) (r : Region) (o : Trial) (fa ca : BitVec 64) : Prop where
  vars : uniqNat o.vars = k
  fit : Fit r.space (st.configs ca)
  sent : ∀ x ∈ o.sent, Sends st r.space (st.configs ca) j.outputs x
  given : ∀ x ∈ o.given, Gives st r.fctx (st.feats fa) j.inputs x
  context : (st.feats fa).context = r.fspace
  length : (st.feats fa).values.length = r.fctx.params.length

/-- What is kept of a context that was measured, in the evaluation at address `e`. -/
structure EvalKept (st : State) (j : Journal) (k : List Nat) (r : Region) (e : BitVec 64) (m : Trial × Int) : Prop where
  timed : IsTimed st r.ospace e
  time : timeOf st e = m.2
  trial : TrialKept st j k r m.1 (st.evals e).features (st.evals e).evaluation.configuration

/-- The contexts measured for the region with the key. -/
def keyDone (j : Journal) (k : List Nat) : List (Trial × Int) := j.done.filter fun m => decide (uniqNat m.1.vars = k)

theorem of_key (j : Journal) (vars : List Nat) : j.of vars = keyDone j (uniqNat vars) := by
  unfold Journal.of keyDone
  congr 1
  funext m
  simp only [uniqNat_eq_iff]

variable (ops jen little) in
/-- What is kept for a region. -/
structure RegionKept (st : State) (j : Journal) (k : List Nat) (r : Region) : Prop where
  plain : Plain ops jen little st r.space
  table : Table r.fctx
  owned : ∀ x ∈ r.fctx.params, ∃ id ∈ k, look st.features id = some x.1
  held : ∀ x ∈ r.fctx.params, x.2 = st.params x.1
  objective : IsTime (st.ospaces r.ospace)
  history : List.Forall₂ (EvalKept st j k r) r.tuner.history (keyDone j k)
  fastest : Fastest st r.tuner

variable (ops jen little) in
/-- The regions and the contexts. -/
structure Core (st : State) (j : Journal) : Prop where
  tuners : ∀ k t c, look st.tuners k = some (t, c) → RegionKept ops jen little st j k (st.regions t) ∧
    (c = true → 500 ≤ (st.regions t).tuner.history.length)
  distinct : ∀ k k' t c c', look st.tuners k = some (t, c) → look st.tuners k' = some (t, c') → k = k'
  absent : ∀ k, look st.tuners k = none → keyDone j k = []
  opened : ∀ c x, look st.contexts c = some x → ∃ o k b, look j.opened c = some o ∧ look st.tuners k = some (x.tuner, b) ∧
    o.start = x.start ∧ o.measured = !x.converged ∧ TrialKept st j k (st.regions x.tuner) o x.features x.configuration
  closed : ∀ c, look st.contexts c = none → look j.opened c = none

variable (ops toInt jen little) in
/-- The declarations. -/
structure Declared (st : State) (j : Journal) : Prop where
  outputs : ∀ id a, look st.parameters id = some a → ∃ name info, (id, name, info) ∈ j.outputs ∧
    variableParameter ops toInt jen little name info = .ok (st.params a) ∧ Props.Usable ops jen little (st.params a)
  inputs : ∀ id a, look st.features id = some a → ∃ name info, (id, name, info) ∈ j.inputs ∧
    variableParameter ops toInt jen little name info = .ok (st.params a)
  outputsOnce : ∀ x ∈ j.outputs, ∀ y ∈ j.outputs, x.1 = y.1 → x = y
  inputsOnce : ∀ x ∈ j.inputs, ∀ y ∈ j.inputs, x.1 = y.1 → x = y
  apart : ∀ x ∈ j.inputs, ∀ y ∈ j.outputs, x.1 ≠ y.1

/-- More is declared. -/
structure Grows (st st' : State) (j j' : Journal) : Prop where
  parameters : ∀ id a, look st.parameters id = some a → look st'.parameters id = some a
  features : ∀ id a, look st.features id = some a → look st'.features id = some a
  outputs : ∀ x ∈ j.outputs, x ∈ j'.outputs
  inputs : ∀ x ∈ j.inputs, x ∈ j'.inputs
  params : ∀ a, ParameterInUse st a → st'.params a = st.params a

theorem Grows.refl {st st' : State} {j j' : Journal} (h1 : st'.parameters = st.parameters) (h2 : st'.features = st.features)
    (h3 : j'.outputs = j.outputs) (h4 : j'.inputs = j.inputs) (h5 : st'.params = st.params) : Grows st st' j j' :=
  ⟨by rw [h1]; simp, by rw [h2]; simp, by rw [h3]; simp, by rw [h4]; simp, by rw [h5]; simp⟩

theorem Sends.mono {st st' : State} {j j' : Journal} (hg : Grows st st' j j') {s : Space} {vals : List Value} {x : Nat × Raw}
    (h : Sends st s vals j.outputs x) : Sends st' s vals j'.outputs x := by
  obtain ⟨name, info, a, i, v, h1, h2, h3⟩ := h
  exact ⟨name, info, a, i, v, hg.outputs _ h1, hg.parameters _ _ h2, h3⟩

theorem Gives.mono {st st' : State} {j j' : Journal} (hg : Grows st st' j j') {c : Ctx} {b : Binding} {x : Nat × Raw}
    (h : Gives st c b j.inputs x) : Gives st' c b j'.inputs x := by
  obtain ⟨name, info, a, i, v, h1, h2, h3⟩ := h
  exact ⟨name, info, a, i, v, hg.inputs _ h1, hg.features _ _ h2, h3⟩

theorem Plain.mono {st st' : State} {j j' : Journal} (hg : Grows st st' j j') {s : Space} (h : Plain ops jen little st s) :
    Plain ops jen little st' s := by
  refine ⟨good_congr h.good fun w hw => ?_, h.ok, h.free, h.clauses, h.usable, h.behaved, fun w hw => ?_⟩
  · obtain ⟨id, hid⟩ := h.owned w hw
    exact hg.params _ ⟨id, .inr hid⟩
  · obtain ⟨id, hid⟩ := h.owned w hw
    exact ⟨id, hg.parameters _ _ hid⟩

theorem TrialKept.mono {st st' : State} {j j' : Journal} (hg : Grows st st' j j') {k : List Nat} {r r' : Region} {o : Trial} {fa ca : BitVec 64}
    (h : TrialKept st j k r o fa ca) (hc : st'.configs ca = st.configs ca) (hf : st'.feats fa = st.feats fa) (h1 : r'.space = r.space)
    (h2 : r'.fctx = r.fctx) (h3 : r'.fspace = r.fspace) : TrialKept st' j' k r' o fa ca := by
  refine ⟨h.vars, by rw [h1, hc]; exact h.fit, fun x hx => ?_, fun x hx => ?_, by rw [hf, h3]; exact h.context, by rw [hf, h2]; exact h.length⟩
  · rw [h1, hc]; exact (h.sent x hx).mono hg
  · rw [h2, hf]; exact (h.given x hx).mono hg

theorem EvalKept.mono {st st' : State} {j j' : Journal} (hg : Grows st st' j j') {k : List Nat} {r r' : Region} {e : BitVec 64}
    {m : Trial × Int} (h : EvalKept st j k r e m) (he : st'.evals e = st.evals e)
    (hc : st'.configs (st.evals e).evaluation.configuration = st.configs (st.evals e).evaluation.configuration)
    (hf : st'.feats (st.evals e).features = st.feats (st.evals e).features) (h1 : r'.space = r.space)
    (h2 : r'.fctx = r.fctx) (h3 : r'.fspace = r.fspace) (h4 : r'.ospace = r.ospace) : EvalKept st' j' k r' e m := by
  refine ⟨⟨by rw [he]; exact h.timed.result, by rw [he, h4]; exact h.timed.context, by rw [he]; exact h.timed.value⟩, ?_, ?_⟩
  · rw [← h.time]; unfold timeOf; rw [he]
  · rw [he]; exact h.trial.mono hg hc hf h1 h2 h3

theorem Fastest.congr {st st' : State} {t : Tuner} (h : Fastest st t) (he : ∀ e ∈ t.history, st'.evals e = st.evals e)
    (hf : ∀ e ∈ t.history, st'.feats (st.evals e).features = st.feats (st.evals e).features) : Fastest st' t := by
  have ht : ∀ e ∈ t.history, timeOf st' e = timeOf st e := fun e hm => by unfold timeOf; rw [he e hm]
  have hs : ∀ e ∈ t.history, ∀ f ∈ t.history, SameGiven st' e f ↔ SameGiven st e f := fun e hm f hm' => by
    unfold SameGiven; rw [he e hm, he f hm', hf e hm, hf f hm']
  refine ⟨fun o ho => ?_, fun e hm => ?_⟩
  · obtain ⟨h1, h2⟩ := h.best o ho
    refine ⟨h1, fun e hm h3 => ?_⟩
    rw [ht o h1, ht e hm]
    exact h2 e hm ((hs e hm o h1).1 h3)
  · obtain ⟨o, h1, h2⟩ := h.cover e hm
    exact ⟨o, h1, (hs e hm o (h.best o h1).1).2 h2⟩

theorem forall₂_imp_mem {α β : Type} {R S : α → β → Prop} {a : List α} {b : List β} (h : List.Forall₂ R a b)
    (hi : ∀ x ∈ a, ∀ y, R x y → S x y) : List.Forall₂ S a b := by
  induction h with
  | nil => exact .nil
  | cons h _ ih => exact .cons (hi _ (by simp) _ h) (ih fun x hx => hi x (List.mem_cons_of_mem _ hx))

theorem RegionKept.mono {st st' : State} {j j' : Journal} (hg : Grows st st' j j') {k : List Nat} {r : Region}
    (h : RegionKept ops jen little st j k r) (hos : st'.ospaces r.ospace = st.ospaces r.ospace)
    (he : ∀ e ∈ r.tuner.history, st'.evals e = st.evals e)
    (hc : ∀ e ∈ r.tuner.history, st'.configs (st.evals e).evaluation.configuration = st.configs (st.evals e).evaluation.configuration)
    (hf : ∀ e ∈ r.tuner.history, st'.feats (st.evals e).features = st.feats (st.evals e).features)
    (hd : keyDone j' k = keyDone j k) : RegionKept ops jen little st' j' k r := by
  refine ⟨h.plain.mono hg, h.table, fun x hx => ?_, fun x hx => ?_, by rw [hos]; exact h.objective, ?_, h.fastest.congr he hf⟩
  · obtain ⟨id, h1, h2⟩ := h.owned x hx
    exact ⟨id, h1, hg.features _ _ h2⟩
  · obtain ⟨id, h1, h2⟩ := h.owned x hx
    rw [hg.params _ ⟨id, .inl h2⟩]
    exact h.held x hx
  · rw [hd]
    exact forall₂_imp_mem h.history fun e hm m hk => hk.mono hg (he e hm) (hc e hm) (hf e hm) rfl rfl rfl rfl

theorem Core.mono {st st' : State} {j j' : Journal} (hg : Grows st st' j j') (h : Core ops jen little st j)
    (h1 : st'.tuners = st.tuners) (h2 : st'.regions = st.regions) (h3 : st'.contexts = st.contexts) (h4 : j'.done = j.done)
    (h5 : j'.opened = j.opened) (hos : ∀ t, TunerInUse st t → st'.ospaces (st.regions t).ospace = st.ospaces (st.regions t).ospace)
    (he : ∀ e, EvaluationInUse st e → st'.evals e = st.evals e) (hc : ∀ a, ConfigurationInUse st a → st'.configs a = st.configs a)
    (hf : ∀ a, FeaturesInUse st a → st'.feats a = st.feats a) : Core ops jen little st' j' := by
  have hd : ∀ k, keyDone j' k = keyDone j k := fun k => by unfold keyDone; rw [h4]
  refine ⟨fun k t c hk => ?_, by rw [h1]; exact h.distinct, fun k hk => ?_, fun c x hx => ?_, by rw [h3, h5]; exact h.closed⟩
  · rw [h1] at hk
    rw [h2]
    obtain ⟨h6, h7⟩ := h.tuners k t c hk
    have hu : ∀ e ∈ (st.regions t).tuner.history, EvaluationInUse st e := fun e hm => ⟨t, ⟨k, c, hk⟩, hm⟩
    exact ⟨h6.mono hg (hos t ⟨k, c, hk⟩) (fun e hm => he e (hu e hm)) (fun e hm => hc _ (.inl ⟨e, hu e hm, rfl⟩))
      (fun e hm => hf _ (.inl ⟨e, hu e hm, rfl⟩)) (hd k), h7⟩
  · rw [hd]; rw [h1] at hk; exact h.absent k hk
  · rw [h3] at hx
    obtain ⟨o, k, b, h6, h7, h8, h9, h10⟩ := h.opened c x hx
    rw [h1, h2, h5]
    exact ⟨o, k, b, h6, h7, h8, h9, h10.mono hg (hc _ (.inr ⟨c, x, hx, rfl⟩)) (hf _ (.inr ⟨c, x, hx, rfl⟩)) rfl rfl rfl⟩

theorem Declared.congr {st st' : State} {j j' : Journal} (h : Declared ops toInt jen little st j) (h1 : st'.parameters = st.parameters)
    (h2 : st'.features = st.features) (h3 : j'.outputs = j.outputs) (h4 : j'.inputs = j.inputs)
    (h5 : ∀ a, ParameterInUse st a → st'.params a = st.params a) : Declared ops toInt jen little st' j' := by
  refine ⟨fun id a hl => ?_, fun id a hl => ?_, by rw [h3]; exact h.outputsOnce, by rw [h4]; exact h.inputsOnce, by rw [h3, h4]; exact h.apart⟩
  · rw [h1] at hl
    rw [h3, h5 a ⟨id, .inr hl⟩]
    exact h.outputs id a hl
  · rw [h2] at hl
    rw [h4, h5 a ⟨id, .inl hl⟩]
    exact h.inputs id a hl

/-! ### Declarations -/

theorem setDatums_created {t : ValueType} : ∀ {rs : List Raw} {ds : List Datum}, setDatums t rs = .ok ds →
    List.Forall₂ (fun r d => r.value t = .ok d.v) rs ds
  | [], ds, h => by cases h; exact .nil
  | r :: rs, ds, h => by
    unfold setDatums at h
    obtain ⟨v, h1, h⟩ := bind_eq_ok h
    obtain ⟨ds', h2, h⟩ := bind_eq_ok h
    cases h
    exact .cons h1 (setDatums_created h2)

/-- What a declaration makes: a parameter with the name, created with the API. -/
theorem variableParameter_created {name : Bytes} {info : Info} {p : Param} (h : variableParameter ops toInt jen little name info = .ok p) :
    p.name = name ∧ Created ops jen little p := by
  unfold variableParameter at h
  split at h
  · unfold setParameter at h
    obtain ⟨ds, -, h⟩ := bind_eq_ok h
    obtain ⟨d, -, h1, -⟩ := createCategorical_ok h
    exact ⟨by rw [h1], .categorical h⟩
  · split at h
    · unfold doubleRange at h
      split at h
      · exact ⟨by rw [createNumerical_ok h], .numerical h⟩
      · cases h
    · unfold intRange at h
      split at h
      · cases h
      · obtain ⟨l, -, h⟩ := bind_eq_ok h
        obtain ⟨u, -, h⟩ := bind_eq_ok h
        exact ⟨by rw [createNumerical_ok h], .numerical h⟩
    · cases h
  · unfold unboundedParameter at h
    split at h
    · exact ⟨by rw [createNumerical_ok h], .numerical h⟩
    · exact ⟨by rw [createNumerical_ok h], .numerical h⟩
    · cases h; exact ⟨rfl, .string _⟩

theorem core_declareOutput {st : State} {j : Journal} {name : Bytes} {id : Nat} {info : Info} {a : BitVec 64} {p : Param} {rep : Reply}
    (hc : Core ops jen little st j) (hd : Declared ops toInt jen little st j) (ha : Allocated st (.declareOutput name id info a))
    (hn : Orderly ops toInt jen little j (.declareOutput name id info a)) (hp : variableParameter ops toInt jen little name info = .ok p) :
    Core ops jen little { st with params := store st.params a p, parameters := put st.parameters id a } (j.next (.declareOutput name id info a) rep) ∧
    Declared ops toInt jen little { st with params := store st.params a p, parameters := put st.parameters id a }
      (j.next (.declareOutput name id info a) rep) := by
  obtain ⟨hn1, hn2⟩ := hn
  have hfree : ∀ (_ : Nat) a', ParameterInUse st a' → store st.params a p a' = st.params a' := fun _ a' hu =>
    store_ne fun e => ha (e ▸ hu)
  have hnew : ∀ id' a', look st.parameters id' = some a' → id' ≠ id := fun id' a' hl e => by
    obtain ⟨nm, inf, h1, -⟩ := hd.outputs id' a' hl
    exact hn1 _ (List.mem_append_right _ h1) e
  have hl : ∀ id' a', look st.parameters id' = some a' → look (put st.parameters id a) id' = some a' := fun id' a' hl' => by
    rw [look_put, if_neg (hnew id' a' hl')]; exact hl'
  refine ⟨hc.mono ⟨hl, fun _ _ h => h, fun x hx => List.mem_cons_of_mem _ hx, fun x hx => hx, hfree 0⟩
    rfl rfl rfl rfl rfl (fun _ _ => rfl) (fun _ _ => rfl) (fun _ _ => rfl) (fun _ _ => rfl), ⟨fun id' a' h => ?_, fun id' a' h => ?_, ?_, ?_, ?_⟩⟩
  · simp only [look_put] at h
    split at h
    · next e =>
      cases h
      refine ⟨name, info, by rw [e]; exact List.mem_cons_self, ?_⟩
      simp only [store_same]
      exact ⟨hp, (variableParameter_created hp).2, hn2 p hp⟩
    · obtain ⟨nm, inf, h1, h2⟩ := hd.outputs id' a' h
      refine ⟨nm, inf, List.mem_cons_of_mem _ h1, ?_⟩
      simp only [hfree id' a' ⟨id', .inr h⟩]
      exact h2
  · obtain ⟨nm, inf, h1, h2⟩ := hd.inputs id' a' h
    refine ⟨nm, inf, h1, ?_⟩
    simp only [hfree id' a' ⟨id', .inl h⟩]
    exact h2
  · intro x hx y hy e
    rcases List.mem_cons.1 hx with rfl | hx <;> rcases List.mem_cons.1 hy with rfl | hy
    · rfl
    · exact absurd e.symm (hn1 y (List.mem_append_right _ hy))
    · exact absurd e (hn1 x (List.mem_append_right _ hx))
    · exact hd.outputsOnce x hx y hy e
  · exact hd.inputsOnce
  · intro x hx y hy
    rcases List.mem_cons.1 hy with rfl | hy
    · exact hn1 x (List.mem_append_left _ hx)
    · exact hd.apart x hx y hy

theorem core_declareInput {st : State} {j : Journal} {name : Bytes} {id : Nat} {info : Info} {a : BitVec 64} {p : Param} {rep : Reply}
    (hc : Core ops jen little st j) (hd : Declared ops toInt jen little st j) (ha : Allocated st (.declareInput name id info a))
    (hn : Orderly ops toInt jen little j (.declareInput name id info a)) (hp : variableParameter ops toInt jen little name info = .ok p) :
    Core ops jen little { st with params := store st.params a p, features := put st.features id a } (j.next (.declareInput name id info a) rep) ∧
    Declared ops toInt jen little { st with params := store st.params a p, features := put st.features id a }
      (j.next (.declareInput name id info a) rep) := by
  obtain ⟨hn1, hn2⟩ := hn
  have hfree : ∀ (_ : Nat) a', ParameterInUse st a' → store st.params a p a' = st.params a' := fun _ a' hu =>
    store_ne fun e => ha (e ▸ hu)
  have hnew : ∀ id' a', look st.features id' = some a' → id' ≠ id := fun id' a' hl e => by
    obtain ⟨nm, inf, h1, -⟩ := hd.inputs id' a' hl
    exact hn1 _ (List.mem_append_left _ h1) e
  have hl : ∀ id' a', look st.features id' = some a' → look (put st.features id a) id' = some a' := fun id' a' hl' => by
    rw [look_put, if_neg (hnew id' a' hl')]; exact hl'
  have hg : Grows st { st with params := store st.params a p, features := put st.features id a } j (j.next (.declareInput name id info a) rep) :=
    ⟨fun _ _ h => h, hl, fun x hx => hx, fun x hx => List.mem_cons_of_mem _ hx, hfree 0⟩
  refine ⟨hc.mono hg
    rfl rfl rfl rfl rfl (fun _ _ => rfl) (fun _ _ => rfl) (fun _ _ => rfl) (fun _ _ => rfl), ⟨fun id' a' h => ?_, fun id' a' h => ?_, ?_, ?_, ?_⟩⟩
  · obtain ⟨nm, inf, h1, h2⟩ := hd.outputs id' a' h
    refine ⟨nm, inf, h1, ?_⟩
    simp only [hfree id' a' ⟨id', .inr h⟩]
    exact h2
  · simp only [look_put] at h
    split at h
    · next e =>
      cases h
      refine ⟨name, info, by rw [e]; exact List.mem_cons_self, ?_⟩
      simp only [store_same]
      exact hp
    · obtain ⟨nm, inf, h1, h2⟩ := hd.inputs id' a' h
      refine ⟨nm, inf, List.mem_cons_of_mem _ h1, ?_⟩
      simp only [hfree id' a' ⟨id', .inl h⟩]
      exact h2
  · exact hd.outputsOnce
  · intro x hx y hy e
    rcases List.mem_cons.1 hx with rfl | hx <;> rcases List.mem_cons.1 hy with rfl | hy
    · rfl
    · exact absurd e.symm (hn1 y (List.mem_append_left _ hy))
    · exact absurd e (hn1 x (List.mem_append_left _ hx))
    · exact hd.inputsOnce x hx y hy e
  · intro x hx y hy
    rcases List.mem_cons.1 hx with rfl | hx
    · exact (hn1 y (List.mem_append_right _ hy)).symm
    · exact hd.apart x hx y hy

/-! ### Ends -/

theorem sub64_ok {a b c : BitVec 64} (h : sub64 a b = .ok c) : c.toInt = a.toInt - b.toInt := by
  unfold sub64 at h
  split at h
  · next hr =>
    cases h
    rw [BitVec.toInt_sub]
    exact Int.bmod_eq_of_le (by omega) (by omega)
  · cases h

theorem mul64_ok {a b c : BitVec 64} (h : mul64 a b = .ok c) : c.toInt = a.toInt * b.toInt := by
  unfold mul64 at h
  split at h
  · next hr =>
    cases h
    rw [BitVec.toInt_mul]
    exact Int.bmod_eq_of_le (by omega) (by omega)
  · cases h

theorem elapsed_ok {start stop : Timespec} {ns : BitVec 64} (h : elapsed start stop = .ok ns) :
    ns.toInt = nanoseconds stop - nanoseconds start := by
  unfold elapsed at h
  obtain ⟨s, h1, h⟩ := bind_eq_ok h
  obtain ⟨n, h2, h⟩ := bind_eq_ok h
  obtain ⟨a, h3, h⟩ := bind_eq_ok h
  have h4 : a.toInt = n.toInt + stop.nsec.toInt := by
    unfold add64 at h3
    split at h3
    · next hr =>
      cases h3
      rw [BitVec.toInt_add]
      exact Int.bmod_eq_of_le (by omega) (by omega)
    · cases h3
  have h5 := sub64_ok h
  have h6 := mul64_ok h2
  have h7 := sub64_ok h1
  rw [h5, h4, h6, h7, show (1000000000#64).toInt = 1000000000 from rfl]
  unfold nanoseconds
  rw [Int.sub_mul]
  omega

/-- Closing a context that is not measured. -/
theorem core_drop {st : State} {j : Journal} {cid : Nat} {stack : List Bool} (hc : Core ops jen little st j) :
    Core ops jen little { st with stack := stack, contexts := drop st.contexts cid } { j with opened := drop j.opened cid } := by
  have hg : Grows st { st with stack := stack, contexts := drop st.contexts cid } j { j with opened := drop j.opened cid } :=
    Grows.refl rfl rfl rfl rfl rfl
  refine ⟨fun k t c hk => ?_, hc.distinct, hc.absent, fun c x hx => ?_, fun c hx => ?_⟩
  · obtain ⟨h1, h2⟩ := hc.tuners k t c hk
    exact ⟨h1.mono hg rfl (fun _ _ => rfl) (fun _ _ => rfl) (fun _ _ => rfl) rfl, h2⟩
  · simp only [look_drop] at hx ⊢
    split at hx
    · cases hx
    · next hne =>
      obtain ⟨o, k, b, h1, h2, h3, h4, h5⟩ := hc.opened c x hx
      refine ⟨o, k, b, by rw [if_neg hne]; exact h1, h2, h3, h4, ?_⟩
      exact h5.mono hg rfl rfl rfl rfl rfl
  · simp only [look_drop] at hx ⊢
    split at hx
    · next he => rw [if_pos he]
    · next hne => rw [if_neg hne]; exact hc.closed c hx

/-- Recording a context. -/
theorem core_report {st st' : State} {j : Journal} {x : Open} {o : Trial} {k : List Nat} {b : Bool} {stop : Timespec} {e : BitVec 64}
    (hc : Core ops jen little st j) (hk : look st.tuners k = some (x.tuner, b)) (hs : o.start = x.start)
    (ht : TrialKept st j k (st.regions x.tuner) o x.features x.configuration) (he : ¬ EvaluationInUse st e)
    (h : report ops jen little st x stop e = .ok st') :
    Core ops jen little st' { j with done := j.done ++ [(o, nanoseconds stop - nanoseconds o.start)] } := by
  obtain ⟨ns, bd, t', h1, h2, -, h3, rfl⟩ := report_ok h
  obtain ⟨hr, hflag⟩ := hc.tuners _ _ _ hk
  have hgrow : Grows st { st with
      evals := store st.evals e ⟨⟨bd, x.configuration, 0#32⟩, x.features⟩
      regions := store st.regions x.tuner { st.regions x.tuner with tuner := t' } } j
      { j with done := j.done ++ [(o, nanoseconds stop - nanoseconds o.start)] } := Grows.refl rfl rfl rfl rfl rfl
  have hbd : bd = ⟨(st.regions x.tuner).ospace, [⟨.int ns, false, false, false⟩]⟩ := by
    obtain ⟨h5, e5, p5, h6, h7⟩ := hr.objective
    simp only [createBinding, h6, List.length_singleton, ne_eq, not_true_eq_false, if_false, admitAll, Ctx.admit, Out.bind_ok] at h2
    exact (Out.ok.inj h2).symm
  have hne : ∀ f, EvaluationInUse st f → store st.evals e ⟨⟨bd, x.configuration, 0#32⟩, x.features⟩ f = st.evals f := fun f hf =>
    store_ne fun h => he (h ▸ hf)
  have hin : ∀ f ∈ (st.regions x.tuner).tuner.history, EvaluationInUse st f := fun f hf => ⟨_, ⟨_, _, hk⟩, hf⟩
  have hdone : ∀ k', keyDone { j with done := j.done ++ [(o, nanoseconds stop - nanoseconds o.start)] } k' =
      keyDone j k' ++ if k = k' then [(o, nanoseconds stop - nanoseconds o.start)] else [] := fun k' => by
    unfold keyDone
    simp only [List.filter_append, List.filter_cons, List.filter_nil, ht.vars, decide_eq_true_eq]
  have htimed : IsTimed { st with
      evals := store st.evals e ⟨⟨bd, x.configuration, 0#32⟩, x.features⟩
      regions := store st.regions x.tuner { st.regions x.tuner with tuner := t' } } (st.regions x.tuner).ospace e :=
    ⟨by simp only [store_same], by simp only [store_same, hbd], ⟨ns, by simp only [store_same, hbd]⟩⟩
  refine ⟨fun k' t c hk' => ?_, hc.distinct, fun k' hk' => ?_, fun c y hy => ?_, hc.closed⟩
  · by_cases hkk : k = k'
    · subst hkk
      rw [hk] at hk'
      simp only [Option.some.injEq, Prod.mk.injEq] at hk'
      obtain ⟨rfl, rfl⟩ := hk'
      simp only [store_same]
      have hlh := learn_history h3
      refine ⟨⟨hr.plain.mono hgrow, hr.table, hr.owned, hr.held, hr.objective, ?_, ?_⟩, fun hb => ?_⟩
      · rw [hdone, if_pos rfl, hlh]
        refine List.rel_append ?_ (.cons ⟨htimed, ?_, ?_⟩ .nil)
        · refine forall₂_imp_mem hr.history fun f hf m hm => ?_
          refine hm.mono hgrow (hne f (hin f hf)) rfl rfl rfl rfl rfl rfl
        · simp only [timeOf, store_same, hbd]
          rw [elapsed_ok h1, hs]
        · simp only [store_same]
          exact ht.mono hgrow rfl rfl rfl rfl rfl
      · have hl := h3
        refine Fastest.learn (ops := ops) (jen := jen) (little := little) (e := e) (t := (st.regions x.tuner).tuner)
          (ospace := (st.regions x.tuner).ospace) hr.objective (fun f hf => ⟨?_, fun h => he (h ▸ hin f hf)⟩) htimed
          (hr.fastest.congr (fun f hf => hne f (hin f hf)) fun f hf => rfl) hl
        obtain ⟨m, -, hm⟩ := forall₂_left hr.history hf
        exact ⟨by simp only [hne f (hin f hf)]; exact hm.timed.result, by simp only [hne f (hin f hf)]; exact hm.timed.context,
          by simp only [hne f (hin f hf)]; exact hm.timed.value⟩
      · rw [hlh, List.length_append]
        have := hflag hb
        omega
    · have hne' : t ≠ x.tuner := fun e => hkk (hc.distinct _ _ _ _ _ hk (e ▸ hk'))
      simp only [store_ne hne']
      obtain ⟨h5, h6⟩ := hc.tuners k' t c hk'
      refine ⟨h5.mono hgrow rfl (fun f hf => hne f ⟨t, ⟨_, _, hk'⟩, hf⟩) (fun _ _ => rfl) (fun _ _ => rfl) ?_, h6⟩
      rw [hdone, if_neg hkk, List.append_nil]
  · rw [hdone, if_neg (fun hkk => by subst hkk; simp only [hk] at hk'; cases hk'), hc.absent k' hk']
    rfl
  · obtain ⟨o', k', b', h5, h6, h7, h8, h9⟩ := hc.opened c y hy
    refine ⟨o', k', b', h5, h6, h7, h8, ?_⟩
    by_cases hty : y.tuner = x.tuner
    · simp only [hty, store_same]
      rw [hty] at h9
      exact h9.mono hgrow rfl rfl rfl rfl rfl
    · simp only [store_ne hty]
      exact h9.mono hgrow rfl rfl rfl rfl rfl

theorem next_end {j : Journal} {cid : Nat} {stop : Timespec} {e : BitVec 64} {rep : Reply} :
    j.next (.endContext cid stop e) rep = match look j.opened cid with
      | none => j
      | some o => { j with
          opened := drop j.opened cid
          done := if o.measured then j.done ++ [(o, nanoseconds stop - nanoseconds o.start)] else j.done } := by
  unfold Journal.next look
  simp only
  cases j.opened.find? fun o => decide (o.1 = cid) with
  | none => rfl
  | some o => rfl

theorem core_end {st st' : State} {j : Journal} {cid : Nat} {stop : Timespec} {e : BitVec 64} {rep : Reply}
    (hc : Core ops jen little st j) (hd : Declared ops toInt jen little st j) (ha : Allocated st (.endContext cid stop e))
    (h : endContext ops jen little st cid stop e = .ok st') :
    Core ops jen little st' (j.next (.endContext cid stop e) rep) ∧ Declared ops toInt jen little st' (j.next (.endContext cid stop e) rep) := by
  rw [next_end]
  unfold endContext at h
  cases hx : look st.contexts cid with
  | none =>
    rw [hx] at h
    cases h
    rw [hc.closed cid hx]
    exact ⟨hc, hd⟩
  | some x =>
    obtain ⟨o, k, b, h1, h2, h3, h4, h5⟩ := hc.opened cid x hx
    rw [hx] at h
    rw [h1]
    simp only at h ⊢
    split at h
    · cases h
    next top rest hst =>
    have hc' := core_drop (cid := cid) (stack := rest) hc
    split at h
    · next hcv =>
      cases h
      have : o.measured = false := by rw [h4, hcv]; rfl
      rw [this]
      exact ⟨hc', hd.congr rfl rfl rfl rfl fun _ _ => rfl⟩
    · next hcv =>
      have : o.measured = true := by rw [h4]; simpa using hcv
      rw [this]
      have hg : Grows st { st with stack := rest, contexts := drop st.contexts cid } j { j with opened := drop j.opened cid } :=
        Grows.refl rfl rfl rfl rfl rfl
      refine ⟨core_report (o := o) hc' h2 h3 (h5.mono hg rfl rfl rfl rfl rfl) ha h, ?_⟩
      obtain ⟨ns, bd, t', -, -, -, -, rfl⟩ := report_ok h
      exact hd.congr rfl rfl rfl rfl fun _ _ => rfl

end

end CCS.Kokkos
