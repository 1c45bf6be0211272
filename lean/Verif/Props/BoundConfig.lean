import Verif.Props.BoundEval
import Verif.Props.BoundParam
import Verif.Props.BoundTuner
import Verif.Spec.BoundConfig

/-!
# Configurations, features and generators used from Python and Ruby

Property C158.
-/

namespace CCS.Props.BoundConfig

open CCS CCS.Spec CCS.BoundTree CCS.BoundInterval CCS.BoundConfig CCS.BoundConfig.Spec CCS.Props

/-! ## Creation -/

section
variable (jen : Bytes → BitVec 32) (little : Bool)

/-- Configurations are created as evaluations are. -/
theorem create_as_eval {α : Type} (t : Tongue α) (space : BitVec 64) (c : Ctx) (values : Option (List α)) :
    BoundEval.create t jen little space ⟨c, []⟩ 0#64 0 values =
      (BoundConfig.create t jen little space c values >>= fun b => .ok ⟨b, 0#64, 0#32⟩) := by
  unfold BoundEval.create BoundConfig.create
  rw [BoundEval.int32Given_small t.lang (i := 0) ⟨by decide, by decide⟩, Out.bind_assoc]
  rfl

theorem create_of_ok {α : Type} {t : Tongue α} {space : BitVec 64} {c : Ctx} {values : Option (List α)} {e : Evaluation}
    (h : BoundEval.create t jen little space ⟨c, []⟩ 0#64 0 values = .ok e) : BoundConfig.create t jen little space c values = .ok e.binding := by
  rw [create_as_eval] at h
  cases hc : BoundConfig.create t jen little space c values with
  | err x => rw [hc] at h; cases h
  | ub => rw [hc] at h; cases h
  | ok b => rw [hc] at h; cases h; rfl

theorem create_of_err {α : Type} {t : Tongue α} {space : BitVec 64} {c : Ctx} {values : Option (List α)} {x : Err}
    (h : BoundEval.create t jen little space ⟨c, []⟩ 0#64 0 values = .err x) : BoundConfig.create t jen little space c values = .err x := by
  rw [create_as_eval] at h
  cases hc : BoundConfig.create t jen little space c values with
  | err y => rw [hc] at h; cases h; rfl
  | ub => rw [hc] at h; cases h
  | ok b => rw [hc] at h; cases h

/-- **C158** In Python, a configuration or features created with values has these values, in this order; creation raises exactly when their number is
not that of the parameters, or when a text is not a value of its parameter. -/
theorem C158_python_create (space : BitVec 64) {c : Ctx} (hl : c.params.length < 4294967296) {vs : List Py.Val} (h0 : vs ≠ [])
    (hv : ∀ v ∈ vs, Py.Spec.Representable v) :
    (vs.length = c.params.length → (∀ (i : Nat) v, vs[i]? = some v → Py.Spec.Takes c i v) →
      ∃ b, BoundConfig.create python jen little space c (some vs) = .ok b ∧ b.context = space ∧ Py.valuesOf b = .ok vs) ∧
    (vs.length = c.params.length → ¬ (∀ (i : Nat) v, vs[i]? = some v → Py.Spec.Takes c i v) →
      BoundConfig.create python jen little space c (some vs) = .err .invalidValue) ∧
    (vs.length ≠ c.params.length → BoundConfig.create python jen little space c (some vs) = .err .invalidValue) := by
  obtain ⟨h1, h2, h3⟩ := BoundEval.C153_python_create jen little space (s := ⟨c, []⟩) hl 0#64 (r := 0) ⟨by decide, by decide⟩ h0 hv
  refine ⟨fun hn ht => ?_, fun hn ht => create_of_err jen little (h2 hn ht), fun hn => create_of_err jen little (h3 hn)⟩
  obtain ⟨e, he, hc, -, -, hvals⟩ := h1 hn ht
  exact ⟨e.binding, create_of_ok jen little he, hc, hvals⟩

/-- **C158** The same in Ruby, where texts come back in the binary encoding. -/
theorem C158_ruby_create (space : BitVec 64) {c : Ctx} (hl : c.params.length < 4294967296) {vs : List Rb.Val} (h0 : vs ≠ [])
    (hv : ∀ v ∈ vs, Rb.Spec.Representable v ∧ Rb.Spec.Plain v) :
    (vs.length = c.params.length → (∀ (i : Nat) v, vs[i]? = some v → Rb.Spec.Takes c i v) →
      ∃ b, BoundConfig.create ruby jen little space c (some vs) = .ok b ∧ b.context = space ∧ b.values.length = vs.length ∧
        ∀ (i : Nat) v refs, vs[i]? = some v → ∃ w, (b.get i >>= Rb.fromDatum refs) = .ok (w, refs) ∧ Rb.Spec.same w v = true) ∧
    (vs.length = c.params.length → ¬ (∀ (i : Nat) v, vs[i]? = some v → Rb.Spec.Takes c i v) →
      BoundConfig.create ruby jen little space c (some vs) = .err .invalidValue) ∧
    (vs.length ≠ c.params.length → BoundConfig.create ruby jen little space c (some vs) = .err .invalidValue) := by
  obtain ⟨h1, h2, h3⟩ := BoundEval.C153_ruby_create jen little space (s := ⟨c, []⟩) hl 0#64 (r := 0) ⟨by decide, by decide⟩ h0 hv
  refine ⟨fun hn ht => ?_, fun hn ht => create_of_err jen little (h2 hn ht), fun hn => create_of_err jen little (h3 hn)⟩
  obtain ⟨e, he, hc, -, -, hlen, hvals⟩ := h1 hn ht
  exact ⟨e.binding, create_of_ok jen little he, hc, hlen, hvals⟩

/-- **C158** Without values, all are `None` in Python and `nil` in Ruby: these are not the defaults of the parameters. -/
theorem C158_create_blank {α : Type} (t : Tongue α) (space : BitVec 64) (c : Ctx) :
    ∃ b, BoundConfig.create t jen little space c none = .ok b ∧ b.context = space ∧
      b.values.map (·.v) = List.replicate c.params.length .none :=
  ⟨⟨space, List.replicate c.params.length noneDatum⟩, rfl, rfl, by simp [noneDatum]⟩

/-- **C158, violated** In Python an empty list of values is not a wrong number of values: a blank configuration is created, whatever the number of
parameters.  Ruby refuses it, even in a space without parameters, for which it is the right list. -/
theorem C158_empty_values (space : BitVec 64) (c : Ctx) :
    BoundConfig.create python jen little space c (some []) = .ok ⟨space, List.replicate c.params.length noneDatum⟩ ∧
    BoundConfig.create ruby jen little space c (some []) = .err .invalidValue := ⟨rfl, rfl⟩

end

/-! ## Copies -/

/-- **C158** Both languages give back what they took. -/
theorem C158_returns : Returns python ∧ Returns ruby := by
  have hofInt : ∀ x : BitVec 64, BitVec.ofInt 64 x.toInt = x := fun x => BitVec.ofInt_toInt
  have hfree : ∀ s : Bytes, 0#8 ∉ s → s.takeWhile (· ≠ 0#8) = s := fun s h => BoundParam.takeWhile_free h
  constructor
  · intro v hv
    cases v with
    | none => exact ⟨_, _, rfl, rfl, rfl, nofun⟩
    | inactive => exact ⟨_, _, rfl, rfl, rfl, nofun⟩
    | float f => exact ⟨_, _, rfl, rfl, rfl, nofun⟩
    | int i => exact ⟨_, _, rfl, rfl, congrArg Value.int (hofInt i), nofun⟩
    | bool b =>
      refine ⟨_, _, rfl, rfl, ?_, nofun⟩
      rcases hv with rfl | rfl <;> rfl
    | str s =>
      cases s with
      | none => exact absurd hv id
      | some s => exact ⟨_, _, rfl, rfl, congrArg (fun x => Value.str (some x)) (hfree s hv), fun _ => ⟨s, rfl⟩⟩
    | obj h => exact absurd hv id
  · intro v hv
    cases v with
    | none => exact ⟨_, _, rfl, rfl, rfl, nofun⟩
    | inactive => exact ⟨_, _, rfl, rfl, rfl, nofun⟩
    | float f => exact ⟨_, _, rfl, rfl, rfl, nofun⟩
    | int i =>
      have hi : Rb.int64 i.toInt = .ok i := by
        unfold Rb.int64
        rw [if_pos ⟨BitVec.le_toInt i, BitVec.toInt_lt⟩, hofInt]
      refine ⟨.int i.toInt, { v := .int i }, rfl, ?_, rfl, nofun⟩
      show (Rb.int64 i.toInt >>= fun n => Out.ok ({ v := .int n } : Datum)) = _
      rw [hi]; rfl
    | bool b =>
      refine ⟨_, _, rfl, rfl, ?_, nofun⟩
      rcases hv with rfl | rfl <;> rfl
    | str s =>
      cases s with
      | none => exact absurd hv id
      | some s => exact ⟨_, _, rfl, rfl, congrArg (fun x => Value.str (some x)) (hfree s hv), fun _ => ⟨s, rfl⟩⟩
    | obj h => exact absurd hv id

theorem returnsAll {α : Type} {t : Tongue α} (ht : Returns t) : ∀ {vals : List Value}, (∀ v ∈ vals, Faithful v) →
    ∃ xs ds, takeAll t vals = .ok xs ∧ BoundEval.giveAll t xs = .ok ds ∧ ds.map (·.v) = vals ∧ xs.length = vals.length ∧
      ∀ d ∈ ds, d.transient = true → ∃ s, d.v = .str (some s)
  | [], _ => ⟨[], [], rfl, rfl, rfl, rfl, nofun⟩
  | v :: vals, h => by
    obtain ⟨x, d, h1, h2, h3, h4⟩ := ht v (h v List.mem_cons_self)
    obtain ⟨xs, ds, g1, g2, g3, g4, g5⟩ := returnsAll ht (vals := vals) fun w hw => h w (List.mem_cons_of_mem _ hw)
    refine ⟨x :: xs, d :: ds, ?_, ?_, by rw [List.map_cons, h3, g3], by rw [List.length_cons, List.length_cons, g4], ?_⟩
    · unfold takeAll; rw [h1, g1]; rfl
    · unfold BoundEval.giveAll; rw [h2, g2]; rfl
    · intro e he
      rcases List.mem_cons.1 he with rfl | he
      · intro hd; rw [h3]; exact h4 hd
      · exact g5 e he

section
variable (jen : Bytes → BitVec 32) (little : Bool)

/-- **C158** Copying a configuration or features through the language, by creating another one with the values read, gives the same binding, provided
there is a parameter (`C158_empty_values`), and the texts are values of their parameters. -/
theorem C158_copy {α : Type} {t : Tongue α} (ht : Returns t) {c : Ctx} (hl : c.params.length < 4294967296) {b : Binding}
    (hn : b.values.length = c.params.length) (h0 : c.params ≠ []) (hf : ∀ v ∈ b.values.map (·.v), Faithful v)
    (htext : TextsLegal c (b.values.map (·.v))) :
    ∃ xs b', BoundConfig.values t b = .ok xs ∧ BoundConfig.create t jen little b.context c (some xs) = .ok b' ∧ SameBinding b' b := by
  obtain ⟨xs, ds, h1, h2, h3, h4, h5⟩ := returnsAll ht hf
  have hlen : ds.length = c.params.length := by
    have := congrArg List.length h3
    simp only [List.length_map] at this
    omega
  have hsent : BoundEval.valuesSent t (some xs) = .ok (some ds) := by
    cases xs with
    | nil =>
      rw [List.length_map] at h4
      exact absurd (List.eq_nil_of_length_eq_zero (hn.symm.trans h4.symm)) h0
    | cons x xs => simp only [BoundEval.valuesSent, h2, Out.bind_ok]
  obtain ⟨-, -, hright⟩ := C58_create jen little b.context c hl
  rcases hright ds hlen with ⟨-, b', hb, hctx, hvals⟩ | ⟨⟨i, d, hd, hna⟩, -⟩
  · refine ⟨xs, b', h1, ?_, hctx, hvals.trans h3⟩
    unfold BoundConfig.create
    rw [hsent]
    exact hb
  · refine absurd (fun htr => ?_) hna
    obtain ⟨s, hs⟩ := h5 d (List.mem_of_getElem? hd) htr
    obtain ⟨h, p, hp, hleg⟩ := htext i (some s) (by rw [← h3, List.getElem?_map, hd, Option.map_some, hs])
    exact ⟨h, p, hp, hs ▸ hleg⟩

end

/-! ## Checks -/

section
variable (ops : FloatOps) (jen : Bytes → BitVec 32) (little : Bool) (mem : BitVec 64 → Param) (mk : Nat → Param → Out Dist)

theorem texts_of_valid {s : Space} {vals : List Value} (h : Valid ops jen little s vals) : TextsLegal s.ctx vals := by
  intro i x hx
  obtain ⟨hlen, -, hleg, -⟩ := h
  have hi : i < s.params.length := hlen ▸ (List.getElem?_eq_some_iff.1 hx).1
  refine ⟨s.params[i].handle, s.params[i].param, ?_, hleg i _ _ (List.getElem?_eq_getElem hi) hx nofun⟩
  show (s.params.map fun w => (w.handle, w.param))[i]? = _
  rw [List.getElem?_map, List.getElem?_eq_getElem hi, Option.map_some]

/-- **C158** A valid configuration copied through the language is valid, and is the same. -/
theorem C158_copy_valid {α : Type} {t : Tongue α} (ht : Returns t) {s : Space} (hl : s.params.length < 4294967296) (h0 : s.params ≠ []) {b : Binding}
    (hv : Valid ops jen little s (b.values.map (·.v))) (hf : ∀ v ∈ b.values.map (·.v), Faithful v) :
    ∃ xs b', BoundConfig.values t b = .ok xs ∧ BoundConfig.create t jen little b.context s.ctx (some xs) = .ok b' ∧ SameBinding b' b ∧
      check ops jen little b.context s b' = check ops jen little b.context s b := by
  have hlen : s.ctx.params.length = s.params.length := by simp [Space.ctx]
  obtain ⟨xs, b', h1, h2, h3⟩ := C158_copy jen little ht (c := s.ctx) (by omega) (b := b) (by have := hv.1; simp at this; omega)
    (by simpa [Space.ctx] using h0) hf (texts_of_valid ops jen little hv)
  refine ⟨xs, b', h1, h2, h3, ?_⟩
  unfold check
  rw [h3.1, h3.2]

/-- **C158** Checking values is checking the configuration created with them; a configuration of another space is refused, and nothing changes. -/
theorem C158_check_created {α : Type} (t : Tongue α) (space : BitVec 64) {s : Space} (hl : s.params.length < 4294967296) {vs : List α} (h0 : vs ≠ [])
    {b : Binding} (h : BoundConfig.create t jen little space s.ctx (some vs) = .ok b) :
    check ops jen little space s b = BoundConfig.checkValues t ops jen little s vs ∧
    ∀ other, other ≠ space → check ops jen little other s b = (s, .err .invalidConfiguration) := by
  have hlen : s.ctx.params.length = s.params.length := by simp [Space.ctx]
  have hgl : ∀ {vs : List α} {ds}, BoundEval.giveAll t vs = .ok ds → ds.length = vs.length := by
    intro vs
    induction vs with
    | nil => intro ds h; cases h; rfl
    | cons v vs ih =>
      intro ds h
      unfold BoundEval.giveAll at h
      obtain ⟨d, -, h⟩ := bind_eq_ok h
      obtain ⟨ds', h', h⟩ := bind_eq_ok h
      cases h
      rw [List.length_cons, List.length_cons, ih h']
  have hsent : ∃ ds, BoundEval.giveAll t vs = .ok ds ∧ createBinding jen little space s.ctx (some ds) = .ok b := by
    cases vs with
    | nil => exact absurd rfl h0
    | cons v vs =>
      unfold BoundConfig.create BoundEval.valuesSent at h
      obtain ⟨o, ho, h⟩ := bind_eq_ok h
      obtain ⟨ds, hds, ho⟩ := bind_eq_ok ho
      cases ho
      exact ⟨ds, hds, h⟩
  obtain ⟨ds, hds, hb⟩ := hsent
  obtain ⟨-, hwrong, hright⟩ := C58_create jen little space s.ctx (by omega)
  by_cases hn : ds.length = s.ctx.params.length
  · rcases hright ds hn with ⟨-, b', hb', hctx, hvals⟩ | ⟨-, hb'⟩
    · rw [hb] at hb'
      cases hb'
      refine ⟨?_, fun other ho => ?_⟩
      · unfold check BoundConfig.checkValues
        rw [if_neg (by simpa using hctx), if_neg (by have := hgl hds; omega)]
        simp only [hds]
        rw [hvals]
      · unfold check
        rw [if_pos (by rw [hctx]; exact fun e => ho e.symm)]
    · rw [hb] at hb'; cases hb'
  · rw [hwrong ds hn] at hb; cases hb

theorem given_python : ∀ {vs : List Py.Val}, (∀ v ∈ vs, Py.Spec.Representable v) →
    ∃ ds, BoundEval.giveAll python vs = .ok ds ∧ ds.map (·.v) = vs.map Py.Spec.asValue
  | [], _ => ⟨[], rfl, rfl⟩
  | v :: vs, h => by
    obtain ⟨ds, h1, h2⟩ := given_python (vs := vs) fun w hw => h w (List.mem_cons_of_mem _ hw)
    have hv := h v List.mem_cons_self
    have : ∃ d, Py.toDatum v = .ok d ∧ d.v = Py.Spec.asValue v := by
      cases v with
      | other => exact absurd hv id
      | str s => exact ⟨_, rfl, by
          show Value.str (some (s.takeWhile (· ≠ 0#8))) = _
          rw [BoundParam.takeWhile_free hv]; rfl⟩
      | _ => exact ⟨_, rfl, rfl⟩
    obtain ⟨d, g1, g2⟩ := this
    refine ⟨d :: ds, ?_, by rw [List.map_cons, List.map_cons, g2, h2]⟩
    unfold BoundEval.giveAll
    rw [show python.give v = .ok d from g1, h1]; rfl

/-- **C158** In Python `check_values` raises when the number of values is not that of the parameters; else, where conditions and clauses have a value,
it tells whether the configuration is valid. -/
theorem C158_python_check_values (hmk : OneDimensional mk) {s : Space} (hr : Reachable ops jen little mem mk s) {vs : List Py.Val}
    (hv : ∀ v ∈ vs, Py.Spec.Representable v) :
    (vs.length ≠ s.params.length → BoundConfig.checkValues python ops jen little s vs = (s, .err .invalidValue)) ∧
    (vs.length = s.params.length → AllEvaluate ops jen little s (vs.map Py.Spec.asValue) →
      (Valid ops jen little s (vs.map Py.Spec.asValue) → (BoundConfig.checkValues python ops jen little s vs).2 = .ok true) ∧
      (¬ Valid ops jen little s (vs.map Py.Spec.asValue) → (BoundConfig.checkValues python ops jen little s vs).2 = .ok false)) := by
  obtain ⟨ds, h1, h2⟩ := given_python hv
  refine ⟨fun hn => if_pos hn, fun hn hev => ?_⟩
  have he : BoundConfig.checkValues python ops jen little s vs = checkSpace ops jen little s (vs.map Py.Spec.asValue) := by
    unfold BoundConfig.checkValues
    rw [if_neg (by omega), h1, ← h2]
  rw [he]
  exact C51_check_decides ops jen little mem mk hmk hr _ (by rw [List.length_map]; exact hn) hev

theorem given_ruby : ∀ {vs : List Rb.Val}, (∀ v ∈ vs, Rb.Spec.Representable v ∧ Rb.Spec.Plain v) →
    ∃ ds, BoundEval.giveAll ruby vs = .ok ds ∧ ds.map (·.v) = vs.map Rb.Spec.asValue
  | [], _ => ⟨[], rfl, rfl⟩
  | v :: vs, h => by
    obtain ⟨ds, h1, h2⟩ := given_ruby (vs := vs) fun w hw => h w (List.mem_cons_of_mem _ hw)
    obtain ⟨hv, hp⟩ := h v List.mem_cons_self
    have : ∃ d, Rb.toDatum v = .ok d ∧ d.v = Rb.Spec.asValue v := by
      cases v with
      | other => exact absurd hv id
      | obj x => exact absurd hp id
      | ident x => exact absurd hp id
      | int i =>
        refine ⟨{ v := .int (BitVec.ofInt 64 i) }, ?_, rfl⟩
        show (Rb.int64 i >>= fun n => Out.ok ({ v := .int n } : Datum)) = _
        rw [show Rb.int64 i = .ok (BitVec.ofInt 64 i) from if_pos hv]; rfl
      | str s b =>
        refine ⟨_, rfl, ?_⟩
        have hs : 0#8 ∉ s := hv.1
        show Value.str (some (s.takeWhile (· ≠ 0#8))) = _
        rw [BoundParam.takeWhile_free hs]; rfl
      | _ => exact ⟨_, rfl, rfl⟩
    obtain ⟨d, g1, g2⟩ := this
    refine ⟨d :: ds, ?_, by rw [List.map_cons, List.map_cons, g2, h2]⟩
    unfold BoundEval.giveAll
    rw [show ruby.give v = .ok d from g1, h1]; rfl

/-- **C158** The same in Ruby. -/
theorem C158_ruby_check_values (hmk : OneDimensional mk) {s : Space} (hr : Reachable ops jen little mem mk s) {vs : List Rb.Val}
    (hv : ∀ v ∈ vs, Rb.Spec.Representable v ∧ Rb.Spec.Plain v) :
    (vs.length ≠ s.params.length → BoundConfig.checkValues ruby ops jen little s vs = (s, .err .invalidValue)) ∧
    (vs.length = s.params.length → AllEvaluate ops jen little s (vs.map Rb.Spec.asValue) →
      (Valid ops jen little s (vs.map Rb.Spec.asValue) → (BoundConfig.checkValues ruby ops jen little s vs).2 = .ok true) ∧
      (¬ Valid ops jen little s (vs.map Rb.Spec.asValue) → (BoundConfig.checkValues ruby ops jen little s vs).2 = .ok false)) := by
  obtain ⟨ds, h1, h2⟩ := given_ruby hv
  refine ⟨fun hn => if_pos hn, fun hn hev => ?_⟩
  have he : BoundConfig.checkValues ruby ops jen little s vs = checkSpace ops jen little s (vs.map Rb.Spec.asValue) := by
    unfold BoundConfig.checkValues
    rw [if_neg (by omega), h1, ← h2]
  rw [he]
  exact C51_check_decides ops jen little mem mk hmk hr _ (by rw [List.length_map]; exact hn) hev

/-- **C158, violated** `check_values` of a features space never answers: the library expects a configuration space (C67). -/
theorem C158_features_check_values {α : Type} (t : Tongue α) (c : Ctx) (vs : List α) (r : Bool) :
    checkFeatureValues t jen little c vs ≠ .ok r := by
  unfold checkFeatureValues
  split
  · nofun
  · cases BoundEval.giveAll t vs with
    | ok ds =>
      show checkFeaturesValues jen little typeFeaturesSpace c ds ≠ .ok r
      rw [C67_always_refused]; nofun
    | err e => nofun
    | ub => nofun

/-! ## Samples -/

theorem made_values (space : BitVec 64) (vals : List Value) : (made space vals).values.map (·.v) = vals := by
  unfold made
  rw [List.map_map]
  exact List.map_id _

/-- **C158** (partial) A sample is a valid configuration of the space, which the check of the space accepts.  Missing: spaces with parameters or
distributions that C50 excludes. -/
theorem C158_sample_partial (hmk : OneDimensional mk) (hmkb : ∀ id p d, mk id p = .ok d → WellBehaved d) {history : List SpaceOp}
    (hw : ∀ op ∈ history, WellCalled op) (hgiven : ∀ op ∈ history, ∀ d ∈ SpaceOp.given op, WellBehaved d) {s : Space}
    (hs : s = Space.empty.run ops jen little mem mk history) (hu : ∀ w ∈ s.params, Usable ops jen little w.param) (space : BitVec 64) (time : Nat)
    {b : Binding} (h : (BoundConfig.sample ops jen little space s time).2 = .ok b) :
    b.context = space ∧ Valid ops jen little s (b.values.map (·.v)) ∧ (check ops jen little space s b).2 = .ok true := by
  have hval := fun v => C50_sample_valid_partial ops jen little mem mk hmk hmkb hw hgiven hs hu time (v := v)
  unfold BoundConfig.sample at h
  cases hm : sampleOne ops jen little s time with
  | mk s' r =>
    rw [hm] at hval
    simp only [hm] at h
    cases r with
    | err e => cases h
    | ub => cases h
    | ok vals =>
      cases h
      obtain ⟨h1, -, h3⟩ := hval vals rfl
      refine ⟨rfl, by rw [made_values]; exact h1, ?_⟩
      unfold check
      rw [if_neg (by simp [made]), made_values]
      exact h3

/-- **C158** (partial) The default configuration belongs to the space and is made of the default values, a parameter being active exactly when it has no
condition or its condition holds on that very configuration.  Missing: spaces in which a condition was just refused (C49). -/
theorem C158_default_partial (hmk : OneDimensional mk) {history : List SpaceOp} (hw : ∀ op ∈ history, WellCalled op)
    (hset : Settled ops jen little mem mk Space.empty True history) {s : Space} (hs : s = Space.empty.run ops jen little mem mk history)
    (hc : ∀ w ∈ s.params, Created ops jen little w.param) (space : BitVec 64) {b : Binding} (h : defaultOf ops jen little space s = .ok b) :
    b.context = space ∧ ActivityRight ops jen little s (b.values.map (·.v)) ∧ Masks (Space.defaults s) (b.values.map (·.v)) ∧
    ∀ d', ActivityRight ops jen little s d' → Masks (Space.defaults s) d' → d' = b.values.map (·.v) := by
  unfold defaultOf at h
  obtain ⟨d, hd, h⟩ := bind_eq_ok h
  cases h
  rw [made_values]
  exact ⟨rfl, C49_default_partial ops jen little mem mk hmk hw hset hs hc hd⟩

/-- The default configuration of the example: `b` is inactive. -/
example : defaultOf exOps exJen true 7 (exRun exHistory) = .ok ⟨7, [{ v := .int 0#64 }, { v := .inactive }]⟩ := by decide +kernel

/-- **C158** (partial) `samples(n)` gives `n` valid configurations, and none of those made is lost; or raises.  Missing: as for one sample, and the
calls that raise (`C158_samples_loses`). -/
theorem C158_samples_partial (hmk : OneDimensional mk) (hmkb : ∀ id p d, mk id p = .ok d → WellBehaved d) {history : List SpaceOp}
    (hw : ∀ op ∈ history, WellCalled op) (hgiven : ∀ op ∈ history, ∀ d ∈ SpaceOp.given op, WellBehaved d) {s : Space}
    (hs : s = Space.empty.run ops jen little mem mk history) (hu : ∀ w ∈ s.params, Usable ops jen little w.param) (space : BitVec 64) (time : Nat) :
    (∀ n : Nat, 100 * n < 18446744073709551616 → ∀ xs, (BoundConfig.samples ops jen little space s time (n : Int)).2.2 = .ok xs →
      xs.length = n ∧ (BoundConfig.samples ops jen little space s time (n : Int)).2.1 = [] ∧
      ∀ x ∈ xs, ∃ b, x = some b ∧ b.context = space ∧ Valid ops jen little s (b.values.map (·.v)) ∧ (check ops jen little space s b).2 = .ok true) ∧
    (∀ n : Int, n < 0 → BoundConfig.samples ops jen little space s time n = (s, [], .err .external)) := by
  obtain ⟨h1, h2⟩ := BoundTuner.C154_ask_partial ops jen little mem mk hmk hmkb hw hgiven hs hu time
  refine ⟨fun n hn xs hx => ?_, fun n hn => ?_⟩
  · unfold BoundConfig.samples at hx ⊢
    by_cases h0 : n = 0
    · subst h0
      rw [if_pos (by rfl)] at hx ⊢
      cases hx
      exact ⟨rfl, rfl, nofun⟩
    · have hi : ¬ (n : Int) = 0 := by omega
      rw [if_neg hi] at hx ⊢
      have h1 := h1 n hn
      cases ha : BoundTuner.ask ops jen little s time (n : Int) with
      | mk s' r =>
        obtain ⟨lost, r⟩ := r
        rw [ha] at h1
        simp only [ha] at hx ⊢
        cases r with
        | err e => cases hx
        | ub => cases hx
        | ok ys =>
          cases hx
          obtain ⟨g1, g2, g3⟩ := h1 ys rfl
          refine ⟨by rw [List.length_map]; exact g1, by rw [show lost = [] from g2]; rfl, fun x hx => ?_⟩
          obtain ⟨y, hy, rfl⟩ := List.mem_map.1 hx
          obtain ⟨v, rfl, gv, gc⟩ := g3 y hy
          refine ⟨made space v, rfl, rfl, by rw [made_values]; exact gv, ?_⟩
          unfold check
          rw [if_neg (by simp [made]), made_values]
          exact gc
  · unfold BoundConfig.samples
    have hi : ¬ n = 0 := by omega
    rw [if_neg hi, h2 n hn]
    rfl

/-- **C158, violated** When the sampling fails after some configurations were found, the call raises and these are lost: no object of the program
holds them, and nothing releases them. -/
theorem C158_samples_loses {s s' : Space} {time n : Nat} (h0 : n ≠ 0) (hn : n < 1152921504606846976) {vs : List (List Value)} {e : Err}
    (h : sampleMany ops jen little s time n = (s', vs, .err e)) (space : BitVec 64) :
    BoundConfig.samples ops jen little space s time (n : Int) = (s', vs.map (made space), .err e) := by
  unfold BoundConfig.samples
  have hi : ¬ (n : Int) = 0 := by omega
  rw [if_neg hi, BoundTuner.C154_ask_loses ops jen little hn h]

end

/-- A program that asks for two configurations: one is found, the other not. -/
theorem C158_samples_loses_reached : (BoundConfig.samples exOps exJen true 9#64 BoundTuner.onceSpace 0 2).2 =
    ([⟨9#64, [{ v := .int 0#64 }]⟩], .err .samplingUnsuccessful) := by decide +kernel

/-! ## Seeds -/

/-- **C158** (partial) Both languages give the library the seed that the program chose, when it is an unsigned integer of 64 bits; distinct seeds stay
distinct.  Missing: other integers (below). -/
theorem C158_seed_partial (lang : Lang) {i : Int} (h : Seed i) : ∃ n : Nat, seedGiven lang i = .ok n ∧ (n : Int) = i := by
  obtain ⟨h1, h2⟩ := h
  obtain ⟨n, rfl⟩ := Int.eq_ofNat_of_zero_le h1
  exact ⟨n, BoundTree.sizeGiven_nat lang (by omega), rfl⟩

/-- **C158** Ruby refuses integers that fit in no type of 64 bits. -/
theorem C158_ruby_seed {i : Int} (h : i < -2 ^ 63 ∨ 2 ^ 64 ≤ i) : seedGiven .ruby i = .err .external := by
  unfold seedGiven sizeGiven
  exact if_neg (by omega)

/-- **C158, violated** Python keeps the low 64 bits of a seed, so that seeds that differ by a multiple of 2^64 are the same; in both languages a
negative seed is that of a large one. -/
theorem C158_seed_wraps (i k : Int) : seedGiven .python (i + k * 2 ^ 64) = seedGiven .python i ∧
    ∀ lang, ∀ j : Int, 1 ≤ j → j ≤ 2 ^ 63 → seedGiven lang (-j) = seedGiven lang (2 ^ 64 - j) := by
  have hw : ∀ i k : Int, BitVec.ofInt 64 (i + k * 2 ^ 64) = BitVec.ofInt 64 i := fun i k => by
    apply BitVec.eq_of_toInt_eq
    rw [BitVec.toInt_ofInt, BitVec.toInt_ofInt]
    exact Int.add_mul_bmod_self_right _ _ _
  refine ⟨by simp only [seedGiven, sizeGiven, hw], fun lang j h1 h2 => ?_⟩
  have hj : BitVec.ofInt 64 (2 ^ 64 - j) = BitVec.ofInt 64 (-j) := by
    have := hw (-j) 1
    rw [← this]
    congr 1
    omega
  cases lang with
  | python => simp only [seedGiven, sizeGiven, hj]
  | ruby =>
    simp only [seedGiven, sizeGiven, hj]
    rw [if_pos (by omega), if_pos (by omega)]

/-! ## The hypotheses are met -/

/-- Two parameters: a color, `r` or `g`, and an integer. -/
def colored : Ctx := ⟨[⟨1#64, [0x63#8], 0⟩, ⟨2#64, [0x61#8], 1⟩],
  [(1#64, ⟨[0x63#8], .str (some [0x72#8]), .categorical .categorical [.str (some [0x72#8]), .str (some [0x67#8])]⟩), (2#64, parA)]⟩

/-- A configuration with a text and a parameter that is not active. -/
example : ∃ b, BoundConfig.create python exJen true 9#64 colored (some [.str [0x67#8], .inactive]) = .ok b ∧ b.context = 9#64 ∧
    Py.valuesOf b = .ok [.str [0x67#8], .inactive] :=
  (C158_python_create exJen true 9#64 (c := colored) (by decide) (vs := [.str [0x67#8], .inactive]) (by simp)
    (by intro v hv; simp at hv; rcases hv with rfl | rfl; { show 0#8 ∉ [0x67#8]; decide }; { trivial })).1 rfl
    (by
      intro i v hv s hs
      subst hs
      rcases i with _ | _ | i
      · simp at hv; subst hv; exact ⟨_, _, rfl, by show Value.str (some [0x67#8]) ∈ _; decide⟩
      · simp at hv
      · simp at hv)

/-- Another text, or another number of values, is refused. -/
example : BoundConfig.create python exJen true 9#64 colored (some [.str [0x62#8], .int 1]) = .err .invalidValue ∧
    BoundConfig.create ruby exJen true 9#64 colored (some [.str [0x62#8] false, .int 1]) = .err .invalidValue ∧
    BoundConfig.create python exJen true 9#64 colored (some [.int 1]) = .err .invalidValue := by decide +kernel

/-- The empty list from Python. -/
example : BoundConfig.create python exJen true 9#64 colored (some []) = .ok ⟨9#64, [noneDatum, noneDatum]⟩ := rfl

/-- A copy of a configuration with a text. -/
example := C158_copy exJen true C158_returns.2 (c := colored) (by decide) (b := ⟨9#64, [{ v := .str (some [0x67#8]) }, { v := .inactive }]⟩) rfl
  (by simp [colored])
  (by intro v hv; simp at hv; rcases hv with rfl | rfl; { show 0#8 ∉ [0x67#8]; decide }; { trivial })
  (by
    intro i s hv
    rcases i with _ | _ | i
    · simp at hv; subst hv; exact ⟨_, _, rfl, by show Value.str (some [0x67#8]) ∈ _; decide⟩
    · simp at hv
    · simp at hv)

/-- Checks on the example space, whose second parameter is active when the first is 1, and not to be 5. -/
example : (BoundConfig.checkValues python exOps exJen true (exRun exHistory) [.int 1, .int 4]).2 = .ok true ∧
    (BoundConfig.checkValues ruby exOps exJen true (exRun exHistory) [.int 0, .inactive]).2 = .ok true ∧
    (BoundConfig.checkValues python exOps exJen true (exRun exHistory) [.int 1, .int 5]).2 = .ok false ∧
    (BoundConfig.checkValues ruby exOps exJen true (exRun exHistory) [.int 1]).2 = .err .invalidValue := by decide +kernel

example := C158_python_check_values exOps exJen true exMem exMk exMk_one exHistory_reachable (vs := [.int 1, .int 4])
  (by intro v hv; simp at hv; rcases hv with rfl | rfl <;> exact ⟨by decide, by decide⟩)

/-- A sample, three, and the configuration without values, which is not valid. -/
example : (BoundConfig.sample exOps exJen true 9#64 (exRun exHistory) 5).2 = .ok (made 9#64 [.int 0#64, .inactive]) ∧
    (BoundConfig.samples exOps exJen true 9#64 (exRun exHistory) 5 3).2 =
      ([], .ok [some (made 9#64 [.int 0#64, .inactive]), some (made 9#64 [.int 2#64, .inactive]), some (made 9#64 [.int 4#64, .inactive])]) ∧
    (check exOps exJen true 9#64 (exRun exHistory) ⟨9#64, [noneDatum, noneDatum]⟩).2 = .ok false := by decide +kernel

example := C158_seed_partial .python (i := 18446744073709551615) ⟨by decide, by decide⟩
example := (C158_seed_wraps 7 3).2 .ruby 1 (by decide) (by decide)

end CCS.Props.BoundConfig
