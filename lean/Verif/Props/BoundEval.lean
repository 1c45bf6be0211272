import Verif.Props.BoundTree
import Verif.Props.BoundValues
import Verif.Props.Evaluation
import Verif.Spec.BoundEval

/-!
# Objective spaces and evaluations used from Python and Ruby

Property C153.
-/

namespace CCS.Props.BoundEval

open CCS CCS.Spec CCS.BoundInterval CCS.BoundTree CCS.BoundEval CCS.BoundEval.Spec CCS.Props

/-! ## Integers of 32 bits -/

theorem int32Given_small (lang : Lang) {i : Int} (h : Small i) : int32Given lang i = .ok (BitVec.ofInt 32 i) := by
  cases lang with
  | python => rfl
  | ruby => exact if_pos h

theorem ofInt_small {i : Int} (h : Small i) : (BitVec.ofInt 32 i).toInt = i := by
  obtain ⟨h1, h2⟩ := h
  rw [BitVec.toInt_ofInt]
  exact Int.bmod_eq_of_le (by omega) (by omega)

/-- **C153** (partial) The result given to an evaluation is read back.  Missing: integers of more than 32 bits from Python (below). -/
theorem C153_result_partial (lang : Lang) (e : Evaluation) {r : Int} (hr : Small r) :
    (setResult lang e r).2 = .ok () ∧ result (setResult lang e r).1 = r ∧ (setResult lang e r).1.binding = e.binding ∧
      (setResult lang e r).1.configuration = e.configuration := by
  simp only [setResult, int32Given_small lang hr]
  exact ⟨trivial, ofInt_small hr, trivial, trivial⟩

/-- **C153** Ruby refuses the others and changes nothing. -/
theorem C153_ruby_result (e : Evaluation) {r : Int} (hr : ¬ Small r) : setResult .ruby e r = (e, .err .external) := by
  have : int32Given .ruby r = .err .external := if_neg hr
  simp only [setResult, this]

/-- **C153, violated** Python keeps the low 32 bits of a result: 2^32 marks an evaluation as successful. -/
theorem C153_python_result_wraps (e : Evaluation) (r k : Int) : setResult .python e (r + k * 2 ^ 32) = setResult .python e r ∧
    result (setResult .python e (2 ^ 32)).1 = 0 := by
  have h : BitVec.ofInt 32 (r + k * 2 ^ 32) = BitVec.ofInt 32 r := by
    apply BitVec.eq_of_toInt_eq
    rw [BitVec.toInt_ofInt, BitVec.toInt_ofInt]
    exact Int.add_mul_bmod_self_right _ _ _
  refine ⟨by simp only [setResult, int32Given, h], ?_⟩
  simp only [setResult, int32Given, result]
  decide

/-! ## Objectives -/

/-- **C153** An objective that mentions parameters of the space only comes last, with its type, or MINIMIZE if none is given; the others are
refused, and nothing changes. -/
theorem C153_add_objective (lang : Lang) (s : ObjSpace) {e : Expr} (he : Built e) (type : Option Int) (ht : ∀ i, type = some i → Small i) :
    (ObjKnown s ⟨e, 0#32⟩ → (addObjective lang s e type).2 = .ok () ∧
      objectives (addObjective lang s e type).1 = objectives s ++ [(e, type.getD minimize)] ∧ (addObjective lang s e type).1.ctx = s.ctx) ∧
    (¬ ObjKnown s ⟨e, 0#32⟩ → addObjective lang s e type = (s, .err .invalidParameter)) := by
  have hs : Small (type.getD 0) := by
    cases type with
    | none => exact ⟨by decide, by decide⟩
    | some i => exact ht i rfl
  have hadd : addObjective lang s e type = s.addObjective ⟨e, BitVec.ofInt 32 (type.getD 0)⟩ := by
    simp only [addObjective, int32Given_small lang hs]
  obtain ⟨h1, h2⟩ := C81_add_objective s ⟨e, BitVec.ofInt 32 (type.getD 0)⟩ he
  rw [hadd]
  refine ⟨fun hk => ?_, fun hk => h2 hk⟩
  rw [h1 hk]
  refine ⟨rfl, ?_, rfl⟩
  simp [objectives, ofInt_small hs, minimize]

theorem typesGiven_small (lang : Lang) : ∀ {ts : List Int}, (∀ i ∈ ts, Small i) → typesGiven lang ts = .ok (ts.map (BitVec.ofInt 32))
  | [], _ => rfl
  | i :: ts, h => by
    simp only [typesGiven, int32Given_small lang (h i List.mem_cons_self), Out.bind_ok,
      typesGiven_small lang fun j hj => h j (List.mem_cons_of_mem _ hj), List.map_cons]

theorem zip_objectives : ∀ (es : List Expr) (ts : List Int), ts.length = es.length → (∀ i ∈ ts, Small i) →
    (List.zipWith Objective.mk es (ts.map (BitVec.ofInt 32))).map (fun o => (o.expression, o.type.toInt)) = es.zip ts
  | [], [], _, _ => rfl
  | e :: es, i :: ts, hl, h => by
    simp only [List.map_cons, List.zipWith_cons_cons, List.zip_cons_cons]
    rw [zip_objectives es ts (by simpa using hl) fun j hj => h j (List.mem_cons_of_mem _ hj), ofInt_small (h i List.mem_cons_self)]

theorem mem_zip_expr {es : List Expr} {bs : List (BitVec 32)} {o : Objective} (h : o ∈ List.zipWith Objective.mk es bs) :
    o.expression ∈ es := by
  induction es generalizing bs with
  | nil => simp at h
  | cons e es ih =>
    cases bs with
    | nil => simp at h
    | cons b bs =>
      simp only [List.zipWith_cons_cons, List.mem_cons] at h
      rcases h with rfl | h
      · exact List.mem_cons_self
      · exact List.mem_cons_of_mem _ (ih h)

/-- **C153** (partial) Objectives given together come last in order, each with its type, MINIMIZE when the types are left out; types that are not as
many as the objectives are refused, and nothing changes.
Missing: an empty list of types from Python (below). -/
theorem C153_add_objectives_partial (lang : Lang) (s : ObjSpace) {es : List Expr} (he : ∀ e ∈ es, Built e)
    (hk : ∀ e ∈ es, ObjKnown s ⟨e, 0#32⟩) :
    ((addObjectives lang s es none).2 = .ok () ∧
      objectives (addObjectives lang s es none).1 = objectives s ++ es.map (fun e => (e, minimize))) ∧
    (∀ ts : List Int, ts.length = es.length → (∀ i ∈ ts, Small i) → (addObjectives lang s es (some ts)).2 = .ok () ∧
      objectives (addObjectives lang s es (some ts)).1 = objectives s ++ es.zip ts) ∧
    (∀ ts : List Int, ts ≠ [] → es ≠ [] → ts.length ≠ es.length → addObjectives lang s es (some ts) = (s, .err .invalidValue)) := by
  have add : ∀ bs : List (BitVec 32), s.addObjectives (List.zipWith Objective.mk es bs) =
      ({ s with objectives := s.objectives ++ List.zipWith Objective.mk es bs }, .ok ()) := fun bs =>
    (C81_add_objectives s _ fun o ho => he _ (mem_zip_expr ho)).1 fun o ho => hk _ (mem_zip_expr ho)
  refine ⟨?_, fun ts hl hts => ?_, fun ts h0 h1 hl => ?_⟩
  · by_cases h0 : es = []
    · subst h0; exact ⟨rfl, by simp [addObjectives]⟩
    · have hz : es.length ≠ 0 := by simpa using h0
      have ht : typesChosen lang es.length none = .ok (List.replicate es.length 0#32) := by cases lang <;> rfl
      simp only [addObjectives, if_neg hz, ht, add]
      refine ⟨trivial, ?_⟩
      simp only [objectives, List.map_append, List.append_cancel_left_eq]
      clear add hk he ht h0 hz
      induction es with
      | nil => rfl
      | cons e es ih =>
        simp only [List.length_cons, List.replicate_succ, List.zipWith_cons_cons, List.map_cons, ih]
        rfl
  · by_cases h0 : es = []
    · subst h0; exact ⟨rfl, by simp [addObjectives]⟩
    · have hz : es.length ≠ 0 := by simpa using h0
      have ht : typesChosen lang es.length (some ts) = .ok (ts.map (BitVec.ofInt 32)) := by
        cases ts with
        | nil => exact absurd hl.symm hz
        | cons i ts =>
          cases lang <;> simp only [typesChosen] <;> rw [if_neg (by simpa using hl)] <;> exact typesGiven_small _ hts
      simp only [addObjectives, if_neg hz, ht, add]
      refine ⟨trivial, ?_⟩
      simp only [objectives, List.map_append, List.append_cancel_left_eq]
      exact zip_objectives es ts hl hts
  · have hz : es.length ≠ 0 := by simpa using h1
    have ht : typesChosen lang es.length (some ts) = .err .invalidValue := by
      cases ts with
      | nil => exact absurd rfl h0
      | cons i ts => cases lang <;> simp only [typesChosen] <;> rw [if_pos hl]
    simp only [addObjectives, if_neg hz, ht]

/-- **C153, violated** In Python an empty list of types is not a wrong number of types: all objectives are minimized.  Ruby refuses it. -/
theorem C153_empty_types (s : ObjSpace) (es : List Expr) :
    addObjectives .python s es (some []) = addObjectives .python s es none ∧
    (es ≠ [] → addObjectives .ruby s es (some []) = (s, .err .invalidValue)) := by
  refine ⟨rfl, fun h => ?_⟩
  have hz : es.length ≠ 0 := by simpa using h
  have : typesChosen .ruby es.length (some []) = .err .invalidValue := by
    simp only [typesChosen]
    rw [if_pos (by simpa using fun e => hz e.symm)]
  simp only [addObjectives, if_neg hz, this]

/-- **C153** From Ruby, the objective at a position is that of the list of objectives, and there is none past its end. -/
theorem C153_ruby_get_objective (s : ObjSpace) {i : Nat} (hi : i < 4294967296) :
    (∀ x, (objectives s)[i]? = some x → getObjective .ruby s (i : Int) = .ok x) ∧
    (numObjectives s ≤ i → getObjective .ruby s (i : Int) = .err .outOfBounds) ∧ (objectives s).length = numObjectives s := by
  have hs := BoundTree.sizeGiven_nat .ruby (i := i) (by omega)
  have hu : toUint i = i := by unfold toUint; omega
  refine ⟨fun x hx => ?_, fun hi => ?_, by simp [objectives, numObjectives]⟩
  · simp only [objectives, List.getElem?_map, Option.map_eq_some_iff] at hx
    obtain ⟨o, ho, rfl⟩ := hx
    simp only [getObjective, hs, Out.bind_ok, ObjSpace.getObjective, hu, ho]
  · have : s.objectives[i]? = none := List.getElem?_eq_none hi
    simp only [getObjective, hs, Out.bind_ok, ObjSpace.getObjective, hu, this, Out.bind_err]

/-- **C153, violated** Python never answers which objective is at a position. -/
theorem C153_python_get_objective (s : ObjSpace) (i : Int) (x : Expr × Int) : getObjective .python s i ≠ .ok x := nofun

/-! ## Creation -/

theorem giveAll_python : ∀ vs : List Py.Val, BoundEval.giveAll python vs = Py.giveAll vs
  | [] => rfl
  | v :: vs => by
    unfold BoundEval.giveAll Py.giveAll
    rw [giveAll_python vs]
    rfl

theorem giveAll_ruby : ∀ vs : List Rb.Val, BoundEval.giveAll ruby vs = Rb.giveAll vs
  | [] => rfl
  | v :: vs => by
    unfold BoundEval.giveAll Rb.giveAll
    rw [giveAll_ruby vs]
    rfl

section
variable (jen : Bytes → BitVec 32) (little : Bool)

/-- **C153** An evaluation created from Python has the result, the configuration, the objective space and the values given; a text that
the parameter does not have is refused, and so is a wrong number of values. -/
theorem C153_python_create (space : BitVec 64) {s : ObjSpace} (hl : s.ctx.params.length < 4294967296) (configuration : BitVec 64) {r : Int}
    (hr : Small r) {vs : List Py.Val} (h0 : vs ≠ []) (hv : ∀ v ∈ vs, Py.Spec.Representable v) :
    (vs.length = s.ctx.params.length → (∀ (i : Nat) v, vs[i]? = some v → Py.Spec.Takes s.ctx i v) →
      ∃ e, create python jen little space s configuration r (some vs) = .ok e ∧ e.binding.context = space ∧
        e.configuration = configuration ∧ result e = r ∧ Py.valuesOf e.binding = .ok vs) ∧
    (vs.length = s.ctx.params.length → ¬ (∀ (i : Nat) v, vs[i]? = some v → Py.Spec.Takes s.ctx i v) →
      create python jen little space s configuration r (some vs) = .err .invalidValue) ∧
    (vs.length ≠ s.ctx.params.length → create python jen little space s configuration r (some vs) = .err .invalidValue) := by
  obtain ⟨ds, h1, h2, h3⟩ := Py.giveAll_some hv
  have hsent : valuesSent python (some vs) = .ok (some ds) := by
    cases vs with
    | nil => exact absurd rfl h0
    | cons v vs => simp only [valuesSent, giveAll_python, h1, Out.bind_ok]
  have hacc : (∀ (i : Nat) d, ds[i]? = some d → Accepts s.ctx i d) ↔ ∀ (i : Nat) v, vs[i]? = some v → Py.Spec.Takes s.ctx i v := by
    have one : ∀ (i : Nat) v d, vs[i]? = some v → ds[i]? = some d → (Accepts s.ctx i d ↔ Py.Spec.Takes s.ctx i v) := fun i v d hx hd => by
      obtain ⟨d', g1, -, g2⟩ := Py.toDatum_some (hv v (List.mem_of_getElem? hx))
      have := h3 i v d hx hd
      rw [g1] at this
      cases this
      exact g2 s.ctx i
    constructor
    · intro h i v hx
      have hi := (List.getElem?_eq_some_iff.1 hx).1
      have hd : ds[i]? = some ds[i] := List.getElem?_eq_getElem (h2 ▸ hi)
      exact (one i v _ hx hd).1 (h i _ hd)
    · intro h i d hd
      have hi := (List.getElem?_eq_some_iff.1 hd).1
      have hx : vs[i]? = some vs[i] := List.getElem?_eq_getElem (h2 ▸ hi)
      exact (one i _ d hx hd).2 (h i _ hx)
  have hcreate : create python jen little space s configuration r (some vs) =
      (createBinding jen little space s.ctx (some ds) >>= fun b => .ok ⟨b, configuration, BitVec.ofInt 32 r⟩) := by
    simp only [BoundEval.create, hsent, Out.bind_ok, int32Given_small _ hr]
  obtain ⟨-, hwrong, hright⟩ := C58_create jen little space s.ctx hl
  refine ⟨fun hn ht => ?_, fun hn ht => ?_, fun hn => ?_⟩
  · rcases hright ds (h2.trans hn) with ⟨-, b, hb, hctx, hvals⟩ | ⟨⟨i, d, hd, hna⟩, -⟩
    · refine ⟨⟨b, configuration, BitVec.ofInt 32 r⟩, by rw [hcreate, hb]; rfl, hctx, rfl, ofInt_small hr, ?_⟩
      have hlen : b.values.length = ds.length := by have := congrArg List.length hvals; simpa using this
      have hread : Py.valuesOf b = Py.readAll b.values := by
        unfold Py.valuesOf
        split
        · rename_i h; rw [List.length_eq_zero_iff.1 h]; rfl
        · unfold Binding.getAll; simp
      rw [hread, Py.readAll_iff]
      refine ⟨by omega, fun i v d hx hd => ?_⟩
      have hi := (List.getElem?_eq_some_iff.1 hx).1
      have hd' : ds[i]? = some ds[i] := List.getElem?_eq_getElem (h2 ▸ hi)
      obtain ⟨d', g1, g2, -⟩ := Py.toDatum_some (hv v (List.mem_of_getElem? hx))
      have hsame := h3 i v _ hx hd'
      rw [g1] at hsame
      cases hsame
      have hv' : d.v = ds[i].v := by
        have h := congrArg (fun l => l[i]?) hvals
        simp only [List.getElem?_map, hd, hd', Option.map_some] at h
        exact Option.some.inj h
      rw [Py.fromDatum_congr hv']
      exact g2
    · exact absurd (hacc.2 ht i d hd) hna
  · rcases hright ds (h2.trans hn) with ⟨hall, -⟩ | ⟨-, hb⟩
    · exact absurd (hacc.1 hall) ht
    · rw [hcreate, hb]; rfl
  · rw [hcreate, hwrong ds (by omega)]; rfl

/-- **C153** The same from Ruby, where the values are read back equal. -/
theorem C153_ruby_create (space : BitVec 64) {s : ObjSpace} (hl : s.ctx.params.length < 4294967296) (configuration : BitVec 64) {r : Int}
    (hr : Small r) {vs : List Rb.Val} (h0 : vs ≠ []) (hv : ∀ v ∈ vs, Rb.Spec.Representable v ∧ Rb.Spec.Plain v) :
    (vs.length = s.ctx.params.length → (∀ (i : Nat) v, vs[i]? = some v → Rb.Spec.Takes s.ctx i v) →
      ∃ e, create ruby jen little space s configuration r (some vs) = .ok e ∧ e.binding.context = space ∧
        e.configuration = configuration ∧ result e = r ∧ e.binding.values.length = vs.length ∧
        ∀ (i : Nat) v refs, vs[i]? = some v → ∃ w, (e.binding.get i >>= Rb.fromDatum refs) = .ok (w, refs) ∧ Rb.Spec.same w v = true) ∧
    (vs.length = s.ctx.params.length → ¬ (∀ (i : Nat) v, vs[i]? = some v → Rb.Spec.Takes s.ctx i v) →
      create ruby jen little space s configuration r (some vs) = .err .invalidValue) ∧
    (vs.length ≠ s.ctx.params.length → create ruby jen little space s configuration r (some vs) = .err .invalidValue) := by
  obtain ⟨ds, h1, h2, h3⟩ := Rb.giveAll_some hv
  have hsent : valuesSent ruby (some vs) = .ok (some ds) := by
    cases vs with
    | nil => exact absurd rfl h0
    | cons v vs => simp only [valuesSent, giveAll_ruby, h1, Out.bind_ok]
  have hacc : (∀ (i : Nat) d, ds[i]? = some d → Accepts s.ctx i d) ↔ ∀ (i : Nat) v, vs[i]? = some v → Rb.Spec.Takes s.ctx i v := by
    have one : ∀ (i : Nat) v d, vs[i]? = some v → ds[i]? = some d → (Accepts s.ctx i d ↔ Rb.Spec.Takes s.ctx i v) := fun i v d hx hd => by
      obtain ⟨d', g1, -, g2⟩ := Rb.toDatum_plain (hv v (List.mem_of_getElem? hx)).1 (hv v (List.mem_of_getElem? hx)).2
      have := h3 i v d hx hd
      rw [g1] at this
      cases this
      exact g2 s.ctx i
    constructor
    · intro h i v hx
      have hi := (List.getElem?_eq_some_iff.1 hx).1
      have hd : ds[i]? = some ds[i] := List.getElem?_eq_getElem (h2 ▸ hi)
      exact (one i v _ hx hd).1 (h i _ hd)
    · intro h i d hd
      have hi := (List.getElem?_eq_some_iff.1 hd).1
      have hx : vs[i]? = some vs[i] := List.getElem?_eq_getElem (h2 ▸ hi)
      exact (one i _ d hx hd).2 (h i _ hx)
  have hcreate : create ruby jen little space s configuration r (some vs) =
      (createBinding jen little space s.ctx (some ds) >>= fun b => .ok ⟨b, configuration, BitVec.ofInt 32 r⟩) := by
    simp only [BoundEval.create, hsent, Out.bind_ok, int32Given_small _ hr]
  obtain ⟨-, hwrong, hright⟩ := C58_create jen little space s.ctx hl
  refine ⟨fun hn ht => ?_, fun hn ht => ?_, fun hn => ?_⟩
  · rcases hright ds (h2.trans hn) with ⟨-, b, hb, hctx, hvals⟩ | ⟨⟨i, d, hd, hna⟩, -⟩
    · have hlen : b.values.length = ds.length := by have := congrArg List.length hvals; simpa using this
      refine ⟨⟨b, configuration, BitVec.ofInt 32 r⟩, by rw [hcreate, hb]; rfl, hctx, rfl, ofInt_small hr, hlen.trans h2, fun i v refs hx => ?_⟩
      have hi := (List.getElem?_eq_some_iff.1 hx).1
      have hd : b.values[i]? = some b.values[i] := List.getElem?_eq_getElem (by omega)
      have hd' : ds[i]? = some ds[i] := List.getElem?_eq_getElem (h2 ▸ hi)
      obtain ⟨d', g1, g2, -⟩ := Rb.toDatum_plain (hv v (List.mem_of_getElem? hx)).1 (hv v (List.mem_of_getElem? hx)).2
      have hsame := h3 i v _ hx hd'
      rw [g1] at hsame
      cases hsame
      have hv' : b.values[i].v = ds[i].v := by
        have h := congrArg (fun l => l[i]?) hvals
        simp only [List.getElem?_map, hd, hd', Option.map_some] at h
        exact Option.some.inj h
      obtain ⟨w, hw, hs⟩ := g2 b.values[i] refs hv'
      exact ⟨w, by simp only [get_of_some hd, Out.bind_ok]; exact hw, hs⟩
    · exact absurd (hacc.2 ht i d hd) hna
  · rcases hright ds (h2.trans hn) with ⟨hall, -⟩ | ⟨-, hb⟩
    · exact absurd (hacc.1 hall) ht
    · rw [hcreate, hb]; rfl
  · rw [hcreate, hwrong ds (by omega)]; rfl

/-- **C153** Without values, all are `None` in Python and `nil` in Ruby. -/
theorem C153_create_empty {α : Type} (t : Tongue α) (space : BitVec 64) (s : ObjSpace) (configuration : BitVec 64) {r : Int} (hr : Small r) :
    ∃ e, create t jen little space s configuration r none = .ok e ∧ e.binding.context = space ∧ e.configuration = configuration ∧
      result e = r ∧ e.binding.values.map (·.v) = List.replicate s.ctx.params.length .none := by
  refine ⟨⟨⟨space, List.replicate s.ctx.params.length noneDatum⟩, configuration, BitVec.ofInt 32 r⟩, ?_, rfl, rfl, ofInt_small hr, ?_⟩
  · simp only [BoundEval.create, valuesSent, Out.bind_ok, int32Given_small _ hr, createBinding]
  · simp [noneDatum]

/-- **C153, violated** In Python an empty list of values is not a wrong number of values: the evaluation is created without values, whatever the
number of parameters.  Ruby refuses it, even in a space without parameters, for which it is the right list. -/
theorem C153_empty_values (space : BitVec 64) (s : ObjSpace) (configuration : BitVec 64) (r : Int) :
    create python jen little space s configuration r (some []) = create python jen little space s configuration r none ∧
    create ruby jen little space s configuration r (some []) = .err .invalidValue := ⟨rfl, rfl⟩

end

/-! ## Objective values -/

/-- Both languages show the ordinary values. -/
theorem C153_shows : Shows python ShowsPy ∧ Shows ruby ShowsRb := by
  constructor
  · intro v hv
    cases v with
    | str s => cases s with
      | none => cases hv
      | some s => exact ⟨_, rfl, rfl⟩
    | obj h => cases hv
    | _ => exact ⟨_, rfl, rfl⟩
  · intro v hv
    cases v with
    | str s => cases s with
      | none => cases hv
      | some s => exact ⟨_, rfl, rfl⟩
    | obj h => cases hv
    | _ => exact ⟨_, rfl, rfl⟩

theorem takeAll_shown {α : Type} {t : Tongue α} {shows : Value → α → Prop} (ht : Shows t shows) : ∀ {vs : List Value},
    (∀ v ∈ vs, Ordinary v) → ∃ xs, takeAll t vs = .ok xs ∧ AllShown shows vs xs
  | [], _ => ⟨[], rfl, trivial⟩
  | v :: vs, h => by
    obtain ⟨x, h1, h2⟩ := ht v (h v List.mem_cons_self)
    obtain ⟨xs, h3, h4⟩ := takeAll_shown ht fun w hw => h w (List.mem_cons_of_mem _ hw)
    exact ⟨x :: xs, by simp only [takeAll, h1, h3, Out.bind_ok], h2, h4⟩

section
variable (ops : FloatOps) (jen : Bytes → BitVec 32) (little : Bool)

theorem numObjectiveValues_kept (w : World) (ds : List Datum) :
    (numObjectiveValues ops jen little w ds).2 = .ok (w.kept.getD w.space.objectives.length) ∧
    (numObjectiveValues ops jen little w ds).1 = ⟨w.space, some (w.kept.getD w.space.objectives.length)⟩ := by
  rcases w with ⟨s, k⟩
  cases k with
  | none => exact ⟨rfl, rfl⟩
  | some n => exact ⟨rfl, rfl⟩

theorem objectiveValues_kept {α : Type} (t : Tongue α) (w : World) (ds : List Datum) :
    objectiveValues t ops jen little w ds = (⟨w.space, some (w.kept.getD w.space.objectives.length)⟩,
      valuesRead t ops jen little w.space ds (w.kept.getD w.space.objectives.length)) := by
  obtain ⟨h1, h2⟩ := numObjectiveValues_kept ops jen little w ds
  unfold objectiveValues
  cases h : numObjectiveValues ops jen little w ds with
  | mk w' r =>
    rw [h] at h1 h2
    simp only at h1 h2
    subst h1 h2
    rfl

/-- **C153** (partial) An object `Evaluation` that has not been asked for its objective values, or whose space has got no objective since, gives them
all, in order.
Missing: spaces that have got objectives since (below). -/
theorem C153_objective_values_partial {α : Type} {t : Tongue α} {shows : Value → α → Prop} (ht : Shows t shows) (w : World) (ds : List Datum)
    (hk : w.kept = none ∨ w.kept = some w.space.objectives.length) {vs : List Value} (hv : Rated ops jen little w.space ds vs)
    (ho : ∀ v ∈ vs, Ordinary v) :
    (numObjectiveValues ops jen little w ds).2 = .ok vs.length ∧
    ∃ xs, (objectiveValues t ops jen little w ds).2 = .ok xs ∧ AllShown shows vs xs := by
  have hn : w.kept.getD w.space.objectives.length = w.space.objectives.length := by rcases hk with h | h <;> rw [h] <;> rfl
  obtain ⟨xs, h1, h2⟩ := takeAll_shown ht ho
  refine ⟨by rw [(numObjectiveValues_kept ops jen little w ds).1, hn, hv.1], xs, ?_, h2⟩
  rw [objectiveValues_kept, hn]
  simp only [valuesRead]
  split
  · rename_i h0
    have : vs = [] := List.length_eq_zero_iff.1 (hv.1.trans h0)
    subst this
    cases h1
    rfl
  · rw [(C62_exact_size_partial ops jen little w.space ds (List.replicate w.space.objectives.length .none) vs false hv (by simp)).1, Out.bind_ok]
    exact h1

theorem addObjectives_grow : ∀ (os : List Objective) (s : ObjSpace),
    ∃ more, (s.addObjectives os).1.objectives = s.objectives ++ more
  | [], s => ⟨[], by simp [ObjSpace.addObjectives]⟩
  | o :: os, s => by
    have hone : ∃ more, (s.addObjective o).1.objectives = s.objectives ++ more := by
      unfold ObjSpace.addObjective
      split
      · exact ⟨[o], rfl⟩
      · exact ⟨[], by simp⟩
      · exact ⟨[], by simp⟩
    obtain ⟨m1, h1⟩ := hone
    unfold ObjSpace.addObjectives
    split
    · rename_i s' he
      rw [he] at h1
      obtain ⟨m2, h2⟩ := addObjectives_grow os s'
      exact ⟨m1 ++ m2, by rw [h2, h1, List.append_assoc]⟩
    · rename_i s' e he
      rw [he] at h1
      exact ⟨m1, h1⟩
    · rename_i s' he
      rw [he] at h1
      exact ⟨m1, h1⟩

/-- What an action can change: objectives are added at the end, and a number kept stays. -/
theorem act_grows {α : Type} (t : Tongue α) (mem : BitVec 64 → Param) (ds : List Datum) (w : World) (a : Act) :
    (∃ more, (act t ops jen little mem ds w a).space.objectives = w.space.objectives ++ more) ∧
    ((act t ops jen little mem ds w a).kept = w.kept ∨
      w.kept = none ∧ (act t ops jen little mem ds w a).kept = some w.space.objectives.length) := by
  have hkeep : (some (w.kept.getD w.space.objectives.length) = w.kept ∨
      w.kept = none ∧ some (w.kept.getD w.space.objectives.length) = some w.space.objectives.length) := by
    cases w.kept with
    | none => exact .inr ⟨rfl, rfl⟩
    | some n => exact .inl rfl
  cases a with
  | objectives es types =>
    refine ⟨?_, .inl rfl⟩
    show ∃ more, (BoundEval.addObjectives t.lang w.space es types).1.objectives = _
    unfold BoundEval.addObjectives
    split
    · exact ⟨[], by simp⟩
    · split
      · exact addObjectives_grow _ _
      · exact ⟨[], by simp⟩
      · exact ⟨[], by simp⟩
  | parameter h => exact ⟨⟨[], by simp [act, ObjSpace.addParameter]⟩, .inl rfl⟩
  | count =>
    simp only [act, (numObjectiveValues_kept ops jen little w ds).2]
    exact ⟨⟨[], by simp⟩, hkeep⟩
  | values =>
    simp only [act, objectiveValues_kept]
    exact ⟨⟨[], by simp⟩, hkeep⟩

/-- **C153** Whatever a program does, the number an evaluation keeps is at most that of the objectives of its space. -/
theorem C153_kept {α : Type} (t : Tongue α) (mem : BitVec 64 → Param) (ds : List Datum) (s : ObjSpace) (as : List Act) :
    ∀ n, (acts t ops jen little mem ds ⟨s, none⟩ as).kept = some n → n ≤ (acts t ops jen little mem ds ⟨s, none⟩ as).space.objectives.length := by
  have key : ∀ (as : List Act) (w : World), (∀ n, w.kept = some n → n ≤ w.space.objectives.length) →
      ∀ n, (acts t ops jen little mem ds w as).kept = some n → n ≤ (acts t ops jen little mem ds w as).space.objectives.length := by
    intro as
    induction as with
    | nil => exact fun w h => h
    | cons a as ih =>
      intro w h
      refine ih _ fun n hn => ?_
      obtain ⟨⟨more, hm⟩, hk⟩ := act_grows ops jen little t mem ds w a
      rw [hm, List.length_append]
      rcases hk with hk | ⟨-, hk⟩
      · have := h n (hk ▸ hn); omega
      · rw [hk] at hn; cases hn; omega
  exact key as ⟨s, none⟩ nofun

/-- **C153, violated** An evaluation that was asked for its objective values before its space got more objectives makes the library write past
the end of the array of the binding, or, if there were no objectives then, still answers that there are none. -/
theorem C153_stale {α : Type} (t : Tongue α) (w : World) (ds : List Datum) {n : Nat} (hk : w.kept = some n) (hn : n < w.space.objectives.length)
    {vs : List Value} (hv : Rated ops jen little w.space ds vs) :
    (numObjectiveValues ops jen little w ds).2 = .ok n ∧
    (n ≠ 0 → (objectiveValues t ops jen little w ds).2 = .ub) ∧ (n = 0 → (objectiveValues t ops jen little w ds).2 = .ok []) := by
  have hg : w.kept.getD w.space.objectives.length = n := by rw [hk]; rfl
  refine ⟨by rw [(numObjectiveValues_kept ops jen little w ds).1, hg], fun h0 => ?_, fun h0 => ?_⟩
  · rw [objectiveValues_kept, hg]
    simp only [valuesRead]
    rw [if_neg h0, C62_smaller_overflows ops jen little w.space ds _ vs false hv (by simpa using hn)]
    rfl
  · rw [objectiveValues_kept, hg]
    simp only [valuesRead]
    rw [if_pos h0]

end

/-- A program that adds an objective between two questions, in Python and in Ruby: one parameter minimized, then another maximized. -/
theorem C153_stale_reached {α : Type} (t : Tongue α) (ds : List Datum) (hd : ds = (exEval (.int 1#64) (.int 5#64)).binding.values) :
    let s := ((ObjSpace.empty.addParameter exParam 1#64).1.addParameter exParam 2#64).1
    let w := acts t exOps exJen true exParam ds ⟨s, none⟩ [.objectives [exVar 1#64] (some [0]), .values, .objectives [exVar 2#64] (some [1])]
    w.kept = some 1 ∧ w.space = exObj ∧ (objectiveValues t exOps exJen true w ds).2 = .ub := by
  intro s w
  have hw : w = ⟨exObj, some 1⟩ := by
    simp only [w, acts, act, objectiveValues_kept]
    rcases t with ⟨lang, give, take⟩
    cases lang <;> rfl
  rw [hw]
  refine ⟨rfl, rfl, ?_⟩
  subst hd
  exact (C153_stale exOps exJen true t ⟨exObj, some 1⟩ _ (n := 1) rfl (by decide +kernel) (exRated (.int 1#64) (.int 5#64))).2.1 (by decide)

/-! ## Checks -/

theorem py_asValue {v : Py.Val} (h : Py.Spec.Representable v) {d : Datum} (hd : Py.toDatum v = .ok d) : d.v = Py.Spec.asValue v := by
  cases v with
  | str s =>
    cases hd
    have hs := Py.nul_free h
    show Value.str (some (s.takeWhile (· ≠ 0#8))) = _
    rw [hs]
    rfl
  | other => cases h
  | bool b => cases hd; cases b <;> rfl
  | _ => cases hd; rfl

theorem rb_asValue {v : Rb.Val} (h : Rb.Spec.Representable v) (hp : Rb.Spec.Plain v) {d : Datum} (hd : Rb.toDatum v = .ok d) :
    d.v = Rb.Spec.asValue v := by
  obtain ⟨d', h1, h2, -⟩ := Rb.toDatum_ok h
  rw [h1] at hd
  cases hd
  rw [h2]
  cases v with
  | str s b => show Value.str (some (s.takeWhile (· ≠ 0#8))) = _; rw [Py.nul_free h.1]; rfl
  | obj o => cases hp
  | ident o => cases hp
  | other => cases h
  | _ => rfl

theorem legal_shown {α : Type} {c : Ctx} {vs : List α} {ds : List Datum} {as : α → Value} (hl : ds.length = vs.length)
    (h : ∀ (i : Nat) v d, vs[i]? = some v → ds[i]? = some d → d.v = as v) :
    AllLegal c ds ↔ ∀ (i : Nat) h p v, Holds c i h p → vs[i]? = some v → Legal p (as v) := by
  constructor
  · intro ha i k p v hh hx
    have hi := (List.getElem?_eq_some_iff.1 hx).1
    have hd : ds[i]? = some ds[i] := List.getElem?_eq_getElem (hl ▸ hi)
    rw [← h i v _ hx hd]
    exact ha i k p _ hh hd
  · intro ha i k p d hh hd
    have hi := (List.getElem?_eq_some_iff.1 hd).1
    have hx : vs[i]? = some vs[i] := List.getElem?_eq_getElem (hl ▸ hi)
    rw [h i _ d hx hd]
    exact ha i k p _ hh hx

section
variable (jen : Bytes → BitVec 32) (little : Bool)

/-- **C153** (partial) An evaluation is valid exactly when every value is one of its parameter.  Missing: evaluations with features from Python, and
spaces that have got parameters since (refused). -/
theorem C153_check_partial (lang : Lang) (k : Class) (hk : ¬ (lang = .python ∧ k = .features)) (s : ObjSpace) {ds : List Datum}
    (hl : ds.length = s.ctx.params.length) : ∃ r, check jen little lang k s ds = .ok r ∧ (r = true ↔ AllLegal s.ctx ds) := by
  have : check jen little lang k s ds = checkEvaluation jen little s.ctx ds := by
    cases lang <;> cases k <;> first | rfl | exact absurd ⟨rfl, rfl⟩ hk
  rw [this]
  exact (C80_check_evaluation jen little s.ctx ds).2 hl

/-- **C153, violated** Python never checks an evaluation with features. -/
theorem C153_python_features_check (s : ObjSpace) (ds : List Datum) (b : Bool) : check jen little .python .features s ds ≠ .ok b := nofun

/-- **C153** A list of values is valid for a space exactly when each is one of its parameter; another number of values is refused. -/
theorem C153_python_check_values (s : ObjSpace) {vs : List Py.Val} (hv : ∀ v ∈ vs, Py.Spec.Representable v) :
    (vs.length ≠ s.ctx.params.length → BoundEval.checkValues python jen little s vs = .err .invalidValue) ∧
    (vs.length = s.ctx.params.length → ∃ r, BoundEval.checkValues python jen little s vs = .ok r ∧
      (r = true ↔ ∀ (i : Nat) h p v, Holds s.ctx i h p → vs[i]? = some v → Legal p (Py.Spec.asValue v))) := by
  refine ⟨fun h => if_pos h, fun h => ?_⟩
  obtain ⟨ds, h1, h2, h3⟩ := Py.giveAll_some hv
  obtain ⟨r, hr, hleg⟩ := (C80_check_evaluation jen little s.ctx ds).2 (h2.trans h)
  refine ⟨r, ?_, hleg.trans ?_⟩
  · unfold BoundEval.checkValues
    rw [if_neg (by simpa using h), giveAll_python, h1, Out.bind_ok, hr]
  · exact legal_shown h2 fun i v d hx hd => py_asValue (hv v (List.mem_of_getElem? hx)) (h3 i v d hx hd)

/-- **C153** The same from Ruby. -/
theorem C153_ruby_check_values (s : ObjSpace) {vs : List Rb.Val} (hv : ∀ v ∈ vs, Rb.Spec.Representable v ∧ Rb.Spec.Plain v) :
    (vs.length ≠ s.ctx.params.length → BoundEval.checkValues ruby jen little s vs = .err .invalidValue) ∧
    (vs.length = s.ctx.params.length → ∃ r, BoundEval.checkValues ruby jen little s vs = .ok r ∧
      (r = true ↔ ∀ (i : Nat) h p v, Holds s.ctx i h p → vs[i]? = some v → Legal p (Rb.Spec.asValue v))) := by
  refine ⟨fun h => if_pos h, fun h => ?_⟩
  obtain ⟨ds, h1, h2, h3⟩ := Rb.giveAll_some hv
  obtain ⟨r, hr, hleg⟩ := (C80_check_evaluation jen little s.ctx ds).2 (h2.trans h)
  refine ⟨r, ?_, hleg.trans ?_⟩
  · unfold BoundEval.checkValues
    rw [if_neg (by simpa using h), giveAll_ruby, h1, Out.bind_ok, hr]
  · exact legal_shown h2 fun i v d hx hd =>
      rb_asValue (hv v (List.mem_of_getElem? hx)).1 (hv v (List.mem_of_getElem? hx)).2 (h3 i v d hx hd)

end

/-! ## Comparisons -/

/-- **C153** A comparison answers the member of the enumeration that stands for the answer of the library, and its errors are errors. -/
theorem C153_compare (lang : Lang) (asked : Out Comparison) :
    (∀ c, asked = .ok c → compareAnswer lang asked = .ok (some c)) ∧ (∀ e, asked = .err e → compareAnswer lang asked = .err e) := by
  refine ⟨fun c h => ?_, fun e h => by rw [h]; rfl⟩
  subst h
  cases lang <;> cases c <;> rfl

/-! ## Examples -/

/-- The two objectives of the example, read in both languages. -/
example : ∃ xs, (objectiveValues python exOps exJen true ⟨exObj, none⟩ (exEval (.int 1#64) (.int 5#64)).binding.values).2 = .ok xs ∧
    AllShown ShowsPy [.int 1#64, .int 5#64] xs :=
  (C153_objective_values_partial exOps exJen true C153_shows.1 ⟨exObj, none⟩ _ (.inl rfl) (exRated (.int 1#64) (.int 5#64))
    (by intro v hv; simp at hv; rcases hv with rfl | rfl <;> trivial)).2

/-- The program of the violation, in both languages. -/
example := C153_stale_reached python _ rfl
example := C153_stale_reached ruby _ rfl

/-- An evaluation with two values created from Python. -/
example : ∃ e, create python exJen true 5#64 exObj 7#64 0 (some [.int 1, .int 5]) = .ok e ∧ e.binding.context = 5#64 ∧
    e.configuration = 7#64 ∧ result e = 0 ∧ Py.valuesOf e.binding = .ok [.int 1, .int 5] :=
  (C153_python_create exJen true 5#64 (s := exObj) (by decide +kernel) 7#64 (r := 0) ⟨by decide, by decide⟩ (vs := [.int 1, .int 5]) (by simp)
    (by intro v hv; simp at hv; rcases hv with rfl | rfl <;> exact ⟨by decide, by decide⟩)).1 (by decide +kernel)
    (by
      intro i v hv t ht
      subst ht
      have := List.mem_of_getElem? hv
      simp at this)

/-- And from Ruby. -/
example := C153_ruby_create exJen true 5#64 (s := exObj) (by decide +kernel) 7#64 (r := 0) ⟨by decide, by decide⟩ (vs := [.int 1, .int 5]) (by simp)
  (by intro v hv; simp at hv; rcases hv with rfl | rfl <;> exact ⟨⟨by decide, by decide⟩, trivial⟩)

/-- Objectives on the parameters of the example space, with types and without. -/
example := C153_add_objectives_partial .python exObj (es := [exVar 1#64, exVar 2#64])
  (by intro e he; simp at he; rcases he with rfl | rfl <;> exact exVar_built (by decide))
  (by
    intro e he
    simp at he
    rcases he with rfl | rfl
    · intro h hh; cases hh; exact ⟨0, exParam 1#64, rfl⟩
    · intro h hh; cases hh; exact ⟨1, exParam 2#64, rfl⟩)

end CCS.Props.BoundEval
