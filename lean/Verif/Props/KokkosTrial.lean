import Verif.Lemmas.KokkosBest
import Verif.Props.Kokkos
import Verif.Props.KokkosRun

/-!
# C118, C119 and C120: values sent, what is recorded, and the best values

`Spec.Journal` is what a program knows from the callbacks it makes and their replies.  `Spec.Sensible` is what is asked of the program
(variables are declared once, before they are used, with their type) and of the host (new objects are not put
where others are).
-/

namespace CCS.Props

open CCS CCS.Spec

section
variable {ops : FloatOps} {toInt : F64 → Option (BitVec 64)} {jen : Bytes → BitVec 32} {little : Bool}
variable {mk : Nat → Param → Out Dist}

/-- Nothing is declared either. -/
def Kokkos.State.IsBlank (st : Kokkos.State) : Prop := Kokkos.State.IsLoaded st ∧ st.features = [] ∧ st.parameters = []

/-- The connector once initialized. -/
def Kokkos.State.started (st : Kokkos.State) : Kokkos.State := { st with stack := [true] }

theorem blank_keeps {st : Kokkos.State} (h : Kokkos.State.IsBlank st) :
    Kokkos.Keeps ops toInt jen little (Kokkos.State.started st) Journal.empty := by
  obtain ⟨⟨-, h2, h3⟩, h4, h5⟩ := h
  refine ⟨⟨fun k t c hk => ?_, fun k k' t c c' hk => ?_, fun _ _ => rfl, fun c x hx => ?_, fun _ _ => rfl⟩, ⟨fun id a hl => ?_, fun id a hl => ?_,
    fun x hx => ?_, fun x hx => ?_, fun x hx => ?_⟩⟩
  · simp [Kokkos.State.started, h3, Kokkos.look] at hk
  · simp [Kokkos.State.started, h3, Kokkos.look] at hk
  · simp [Kokkos.State.started, h2, Kokkos.look] at hx
  · simp [Kokkos.State.started, h5, Kokkos.look] at hl
  · simp [Kokkos.State.started, h4, Kokkos.look] at hl
  · cases hx
  · cases hx
  · cases hx

theorem run_init {st st' : Kokkos.State} {v : Nat} {es : List Kokkos.Event} {rs : List Kokkos.Reply} (h0 : Kokkos.State.IsBlank st)
    (h : Kokkos.run ops toInt jen little mk st (.init v :: es) = .ok (st', .nothing :: rs)) :
    Kokkos.run ops toInt jen little mk (Kokkos.State.started st) es = .ok (st', rs) := by
  unfold Kokkos.run at h
  obtain ⟨⟨st1, r⟩, h1, h⟩ := bind_eq_ok h
  obtain ⟨⟨st2, rs2⟩, h2, h⟩ := bind_eq_ok h
  cases h
  unfold Kokkos.step at h1
  obtain ⟨st3, h3, h1⟩ := bind_eq_ok h1
  cases h1
  unfold Kokkos.initLibrary at h3
  split at h3
  · cases h3
  · cases h3
    rw [h0.1.1] at h2
    exact h2

theorem run_last {st' : Kokkos.State} {e : Kokkos.Event} : ∀ {es : List Kokkos.Event} {st : Kokkos.State}
    {rs : List Kokkos.Reply}, Kokkos.run ops toInt jen little mk st (es ++ [e]) = .ok (st', rs) →
    ∃ st1 rs' r, rs = rs' ++ [r] ∧ Kokkos.run ops toInt jen little mk st es = .ok (st1, rs') ∧
      Kokkos.step ops toInt jen little mk st1 e = .ok (st', r)
  | [], st, rs, h => by
    obtain ⟨⟨st1, r1⟩, h1, h2⟩ := bind_eq_ok (show (Kokkos.step ops toInt jen little mk st e >>= _) = _ from h)
    cases h2
    exact ⟨st, [], r1, rfl, rfl, h1⟩
  | e' :: es, st, rs, h => by
    obtain ⟨⟨st1, r1⟩, h1, h2⟩ := bind_eq_ok (show (Kokkos.step ops toInt jen little mk st e' >>= _) = _ from h)
    obtain ⟨⟨st2, rs2⟩, h3, h4⟩ := bind_eq_ok h2
    cases h4
    obtain ⟨st3, rs3, r, rfl, h5, h6⟩ := run_last h3
    refine ⟨st3, r1 :: rs3, r, rfl, ?_, h6⟩
    unfold Kokkos.run
    rw [h1]
    simp only [Out.bind_ok, h5]

theorem run_snoc {st st' : Kokkos.State} {e : Kokkos.Event} {r : Kokkos.Reply} {es : List Kokkos.Event} {rs : List Kokkos.Reply}
    (h : Kokkos.run ops toInt jen little mk st (es ++ [e]) = .ok (st', rs ++ [r])) :
    ∃ st1, Kokkos.run ops toInt jen little mk st es = .ok (st1, rs) ∧ Kokkos.step ops toInt jen little mk st1 e = .ok (st', r) := by
  obtain ⟨st1, rs', r', h1, h2, h3⟩ := run_last h
  obtain ⟨rfl, h4⟩ := List.append_inj' h1 rfl
  cases h4
  exact ⟨st1, h2, h3⟩

theorem sensible_snoc {e : Kokkos.Event} : ∀ {es : List Kokkos.Event} {st st1 : Kokkos.State} {j : Journal} {rs : List Kokkos.Reply},
    Sensible ops toInt jen little mk st j (es ++ [e]) → Kokkos.run ops toInt jen little mk st es = .ok (st1, rs) →
    Sensible ops toInt jen little mk st j es ∧ Allocated st1 e ∧ Orderly ops toInt jen little (j.after (es.zip rs)) e
  | [], st, st1, j, rs, hs, h => by
    cases h
    exact ⟨trivial, hs.1, hs.2.1⟩
  | e' :: es, st, st1, j, rs, hs, h => by
    obtain ⟨h1, h2, h3⟩ := hs
    unfold Kokkos.run at h
    obtain ⟨⟨st2, r2⟩, h4, h⟩ := bind_eq_ok h
    obtain ⟨⟨st3, rs3⟩, h5, h⟩ := bind_eq_ok h
    cases h
    have h6 := sensible_snoc (h3 _ _ h4) h5
    refine ⟨⟨h1, h2, fun st' r h7 => ?_⟩, h6.2⟩
    rw [h4] at h7
    cases h7
    exact h6.1

/-- A program: callbacks `es` with replies `rs`, then a request answered by `sent`. -/
structure Program (ops : FloatOps) (toInt : F64 → Option (BitVec 64)) (jen : Bytes → BitVec 32) (little : Bool) (mk : Nat → Param → Out Dist)
    (st : Kokkos.State) (es : List Kokkos.Event) (rs : List Kokkos.Reply) (c : Nat) (cv tv : List Kokkos.Var) (g : Kokkos.Supply)
    (sent : List Kokkos.Raw) (st' : Kokkos.State) : Prop where
  blank : Kokkos.State.IsBlank st
  sensible : Sensible ops toInt jen little mk (Kokkos.State.started st) Journal.empty (es ++ [.request c cv tv g])
  run : ∃ v, Kokkos.run ops toInt jen little mk st (.init v :: (es ++ [.request c cv tv g])) = .ok (st', .nothing :: (rs ++ [.values sent]))

theorem program_request {st st' : Kokkos.State} {es : List Kokkos.Event} {rs : List Kokkos.Reply} {c : Nat} {cv tv : List Kokkos.Var}
    {g : Kokkos.Supply} {sent : List Kokkos.Raw} (hmk : OneDimensional mk) (hmkb : ∀ id p d, mk id p = .ok d → WellBehaved d)
    (h : Program ops toInt jen little mk st es rs c cv tv g sent st') :
    ∃ x, Kokkos.Core ops jen little st' ((Journal.empty.after (es.zip rs)).next (.request c cv tv g) (.values sent)) ∧
    Kokkos.Declared ops toInt jen little st' ((Journal.empty.after (es.zip rs)).next (.request c cv tv g) (.values sent)) ∧
    sent.length = tv.length ∧
    Kokkos.Requested st' (Journal.empty.after (es.zip rs)) c (uniqNat (requestVars cv tv)) x ∧
    Kokkos.RegionKept ops jen little st' ((Journal.empty.after (es.zip rs)).next (.request c cv tv g) (.values sent))
      (uniqNat (requestVars cv tv)) (st'.regions x.tuner) ∧
    Kokkos.TrialKept st' ((Journal.empty.after (es.zip rs)).next (.request c cv tv g) (.values sent)) (uniqNat (requestVars cv tv))
      (st'.regions x.tuner) ((Journal.empty.after (es.zip rs)).trial cv tv sent g.clock) x.features x.configuration := by
  obtain ⟨v, hr⟩ := h.run
  obtain ⟨st1, h1, h2⟩ := run_snoc (run_init h.blank hr)
  obtain ⟨hs, ha, hn⟩ := sensible_snoc h.sensible h1
  obtain ⟨hc, hd⟩ := Kokkos.keeps_run hmk hmkb (blank_keeps h.blank) hs h1
  unfold Kokkos.step at h2
  obtain ⟨⟨st2, sent'⟩, h3, h2⟩ := bind_eq_ok h2
  cases h2
  obtain ⟨h4, h5, h6, x, h7⟩ := Kokkos.core_request hmk hmkb hc hd ha hn h3
  refine ⟨x, h4, h5, h6, h7, (h4.tuners _ _ _ h7.tuner).1, ?_⟩
  obtain ⟨o, k, b, h8, h9, -, -, h10⟩ := h4.opened c x h7.opened
  obtain rfl := h4.distinct _ _ _ _ _ h7.tuner h9
  have : o = (Journal.empty.after (es.zip rs)).trial cv tv sent g.clock := by
    have h11 : Kokkos.look (Kokkos.put (Journal.empty.after (es.zip rs)).opened c
      ((Journal.empty.after (es.zip rs)).trial cv tv sent g.clock)) c = some o := h8
    simp only [Kokkos.look_put, if_true, Option.some.injEq] at h11
    exact h11.symm
  rw [← this]
  exact h10

/-! ## C118: values sent -/

/-- What the value of a declared variable is in the configuration, is what is sent. -/
theorem sent_means {name : Bytes} {info : Kokkos.Info} {p : Param} {v : Value} {r : Kokkos.Raw}
    (hp : Kokkos.variableParameter ops toInt jen little name info = .ok p) (hs : p.isString = false) (hl : Legal p v)
    (hr : Kokkos.setValue info.type v = .ok r) : Means info.type r v := by
  obtain ⟨t, c, cand⟩ := info
  have hnum : ∀ {ty l u q d}, createNumerical ops name ty l u q d = .ok p → (t = .double ∧ ty = .float ∨ t = .int64 ∧ ty = .int) → Means t r v := by
    intro ty l u q d hn ht
    obtain rfl := createNumerical_ok hn
    rcases ht with ⟨rfl, rfl⟩ | ⟨rfl, rfl⟩
    · obtain ⟨x, rfl, -⟩ := hl
      cases hr
      exact .double x
    · obtain ⟨x, rfl, -⟩ := hl
      cases hr
      exact .int64 x
  cases cand with
  | set values =>
    have hp' : Kokkos.setParameter jen little name t c values = .ok p := hp
    unfold Kokkos.setParameter at hp'
    obtain ⟨ds, h1, hp'⟩ := bind_eq_ok hp'
    obtain ⟨d, -, h2, -⟩ := createCategorical_ok hp'
    rw [h2] at hl
    obtain ⟨d, h3, rfl⟩ := List.mem_map.1 hl
    obtain ⟨a, -, h4⟩ := Kokkos.forall₂_right (Kokkos.setDatums_created h1) h3
    generalize d.v = v at h4 hr
    cases t <;> cases a <;> simp only [Kokkos.Raw.value] at h4
    · cases h4; cases hr; exact .double _
    · cases h4
    · cases h4; cases hr; exact .int64 _
    · cases h4
    · cases h4
    · split at h4
      · next hlen =>
        cases h4; cases hr
        rw [List.take_of_length_le (by omega)]
        exact .string _ hlen
      · cases h4
  | range rg =>
    cases t with
    | double =>
      have hp' : Kokkos.doubleRange ops name rg = .ok p := hp
      unfold Kokkos.doubleRange at hp'
      split at hp'
      · exact hnum hp' (.inl ⟨rfl, rfl⟩)
      · cases hp'
    | int64 =>
      have hp' : Kokkos.intRange ops toInt name rg = .ok p := hp
      unfold Kokkos.intRange at hp'
      split at hp'
      · cases hp'
      · obtain ⟨l, -, hp'⟩ := bind_eq_ok hp'
        obtain ⟨u, -, hp'⟩ := bind_eq_ok hp'
        exact hnum hp' (.inr ⟨rfl, rfl⟩)
    | string => cases hp
  | unbounded =>
    cases t with
    | double => exact hnum (show createNumerical ops name .float 0xfff0000000000000#64 0x7ff0000000000000#64 0#64 0xfff0000000000000#64 = .ok p from hp) (.inl ⟨rfl, rfl⟩)
    | int64 => exact hnum (show createNumerical ops name .int 0x8000000000000000#64 0x7fffffffffffffff#64 0#64 0x8000000000000000#64 = .ok p from hp) (.inr ⟨rfl, rfl⟩)
    | string => cases hp; cases hs

/-- **C118** Each request of any program is answered with one value for each of its tuning variables, in order.  Each value is that of a
legal value of the parameter declared for its own variable, of its type. -/
theorem C118_values_sent {st st' : Kokkos.State} {es : List Kokkos.Event} {rs : List Kokkos.Reply} {c : Nat} {cv tv : List Kokkos.Var}
    {g : Kokkos.Supply} {sent : List Kokkos.Raw} (hmk : OneDimensional mk) (hmkb : ∀ id p d, mk id p = .ok d → WellBehaved d)
    (h : Program ops toInt jen little mk st es rs c cv tv g sent st') :
    sent.length = tv.length ∧
    ∀ y ∈ (tv.map (·.id)).zip sent, ∃ name info p v, (y.1, name, info) ∈ (Journal.empty.after (es.zip rs)).outputs ∧
      Kokkos.variableParameter ops toInt jen little name info = .ok p ∧ Legal p v ∧ Means info.type y.2 v := by
  obtain ⟨x, hc, hd, hl, -, hr, ht⟩ := program_request hmk hmkb h
  refine ⟨hl, fun y hy => ?_⟩
  obtain ⟨name, info, a, i, v, h1, h2, h3, h4, h5⟩ := ht.sent y hy
  obtain ⟨name', info', h6, h7, -⟩ := hd.outputs _ _ h2
  cases hd.outputsOnce _ h1 _ h6 rfl
  obtain ⟨w, h8, h9, h10⟩ := Kokkos.getIndex_plain hr.plain h3
  have hleg := ht.fit.2 i w v h8 h4
  have hstr := (hr.plain.good.tables.mem w (List.mem_of_getElem? h8)).2
  rw [h10] at hleg hstr
  exact ⟨name, info, _, v, h1, h7, hleg, sent_means h7 hstr hleg h5⟩

/-- A program declared the variables once. -/
theorem program_once {st st' : Kokkos.State} {es : List Kokkos.Event} {rs : List Kokkos.Reply} {c : Nat} {cv tv : List Kokkos.Var}
    {g : Kokkos.Supply} {sent : List Kokkos.Raw} (hmk : OneDimensional mk) (hmkb : ∀ id p d, mk id p = .ok d → WellBehaved d)
    (h : Program ops toInt jen little mk st es rs c cv tv g sent st') :
    ∀ x ∈ (Journal.empty.after (es.zip rs)).outputs, ∀ y ∈ (Journal.empty.after (es.zip rs)).outputs, x.1 = y.1 → x = y := by
  obtain ⟨x, hc, hd, -⟩ := program_request hmk hmkb h
  exact hd.outputsOnce

/-- **C118** The value sent for a variable declared with a set of candidates is one of them. -/
theorem C118_candidates {st st' : Kokkos.State} {es : List Kokkos.Event} {rs : List Kokkos.Reply} {c : Nat} {cv tv : List Kokkos.Var}
    {g : Kokkos.Supply} {sent : List Kokkos.Raw} (hmk : OneDimensional mk) (hmkb : ∀ id p d, mk id p = .ok d → WellBehaved d)
    (h : Program ops toInt jen little mk st es rs c cv tv g sent st') {y : Nat × Kokkos.Raw} (hy : y ∈ (tv.map (·.id)).zip sent)
    {name : Bytes} {t : Kokkos.ValueType} {k : Kokkos.Category} {values : List Kokkos.Raw}
    (hd : (y.1, name, ⟨t, k, .set values⟩) ∈ (Journal.empty.after (es.zip rs)).outputs) (hv : ∀ r ∈ values, ∃ v, Means t r v) :
    y.2 ∈ values := by
  obtain ⟨name', info, p, v, h1, h2, h3, h4⟩ := (C118_values_sent hmk hmkb h).2 y hy
  cases program_once hmk hmkb h _ hd _ h1 rfl
  obtain ⟨-, h5⟩ := C114_set ops toInt jen little (name := name) (c := k) hv
  obtain ⟨r, h6, h7⟩ := ((h5 p h2).2.1 v).1 h3
  rw [means_inj h4 h7]
  exact h6

/-- **C118** The value sent for a variable declared with a range of integers is an integer within it (with an upper bound included, a
step more: see C114). -/
theorem C118_integers_partial {st st' : Kokkos.State} {es : List Kokkos.Event} {rs : List Kokkos.Reply} {c : Nat} {cv tv : List Kokkos.Var}
    {g : Kokkos.Supply} {sent : List Kokkos.Raw} (hmk : OneDimensional mk) (hmkb : ∀ id p d, mk id p = .ok d → WellBehaved d)
    (h : Program ops toInt jen little mk st es rs c cv tv g sent st') {y : Nat × Kokkos.Raw} (hy : y ∈ (tv.map (·.id)).zip sent)
    {name : Bytes} {k : Kokkos.Category} {r : Kokkos.Range} (hr : r.openUpper = true ∨ r.step ≠ 0#64)
    (hd : (y.1, name, ⟨.int64, k, .range r⟩) ∈ (Journal.empty.after (es.zip rs)).outputs) :
    ∃ x : BitVec 64, y.2 = .word x ∧ r.lower.toInt ≤ x.toInt ∧
      x.toInt < r.upper.toInt + (if r.openUpper then 0 else r.step.toInt) := by
  obtain ⟨name', info, p, v, h1, h2, h3, h4⟩ := (C118_values_sent hmk hmkb h).2 y hy
  cases program_once hmk hmkb h _ hd _ h1 rfl
  obtain ⟨x, rfl, h5, h6⟩ := (C114_int_domain_partial ops toInt jen little hr h2 v).1 h3
  obtain ⟨l, u, -, -, -, hs, -⟩ := intRange_made ops toInt hr h2
  generalize hraw : y.2 = raw at h4
  cases h4
  refine ⟨x, rfl, ?_, h6⟩
  split at h5
  · split at h5 <;> omega
  · omega

/-- **C118** The value sent for a variable declared with a range of doubles is a number within it: at least the lower bound, and less than
the upper one when it is excluded. -/
theorem C118_doubles_partial {st st' : Kokkos.State} {es : List Kokkos.Event} {rs : List Kokkos.Reply} {c : Nat} {cv tv : List Kokkos.Var}
    {g : Kokkos.Supply} {sent : List Kokkos.Raw} (hmk : OneDimensional mk) (hmkb : ∀ id p d, mk id p = .ok d → WellBehaved d)
    (h : Program ops toInt jen little mk st es rs c cv tv g sent st') {y : Nat × Kokkos.Raw} (hy : y ∈ (tv.map (·.id)).zip sent)
    {name : Bytes} {k : Kokkos.Category} {r : Kokkos.Range} (hl : r.openLower = false) (hr : r.openUpper = true)
    (hd : (y.1, name, ⟨.double, k, .range r⟩) ∈ (Journal.empty.after (es.zip rs)).outputs) :
    ∃ x : BitVec 64, y.2 = .word x ∧ Mem ⟨.float, r.lower, r.upper, 1#32, 0#32⟩ x := by
  obtain ⟨name', info, p, v, h1, h2, h3, h4⟩ := (C118_values_sent hmk hmkb h).2 y hy
  cases program_once hmk hmkb h _ hd _ h1 rfl
  simp only [Kokkos.variableParameter, Kokkos.doubleRange, hl, hr, Bool.false_eq_true, if_false, if_true] at h2
  split at h2
  · obtain rfl := createNumerical_ok h2
    obtain ⟨x, rfl, h5⟩ := h3
    generalize hraw : y.2 = raw at h4
    cases h4
    exact ⟨x, rfl, h5⟩
  · cases h2

/-! ## C119: what is recorded -/

/-- The evaluation records the context: it succeeded, its only objective is the time, the configuration has the values that were sent
and the features have the values that were given, each under the name of its variable. -/
structure Records (st : Kokkos.State) (j : Journal) (r : Kokkos.Region) (e : BitVec 64) (m : Trial × Int) : Prop where
  result : (st.evals e).evaluation.result = 0#32
  time : ∃ d ns, (st.evals e).evaluation.binding.values = [d] ∧ d.v = .int ns ∧ ns.toInt = m.2
  sent : ∀ x ∈ m.1.sent, ∃ (name : Bytes) (info : Kokkos.Info) (i : Nat) (w : PWrap) (v : Value), (x.1, name, info) ∈ j.outputs ∧
    r.space.params[i]? = some w ∧ w.param.name = name ∧ (st.configs (st.evals e).evaluation.configuration)[i]? = some v ∧ Means info.type x.2 v
  given : ∀ x ∈ m.1.given, ∃ (name : Bytes) (info : Kokkos.Info) (i : Nat) (h : BitVec 64) (p : Param) (d : Datum), (x.1, name, info) ∈ j.inputs ∧
    r.fctx.params[i]? = some (h, p) ∧ p.name = name ∧ (st.feats (st.evals e).features).values[i]? = some d ∧ Means info.type x.2 d.v

/-- A value as given and its meaning. -/
theorem value_means {t : Kokkos.ValueType} {r : Kokkos.Raw} {v : Value} (h : r.value t = .ok v) : Means t r v := by
  cases t <;> cases r <;> simp only [Kokkos.Raw.value] at h
  · cases h; exact .double _
  · cases h
  · cases h; exact .int64 _
  · cases h
  · cases h
  · split at h
    · next hl => cases h; exact .string _ hl
    · cases h

/-- **C119** After any program, the history of the tuner of a region is, in order, the contexts of the region that ended while it was
measured, whatever the other regions did in between: with their time, the values that were sent and the values that were given.  A region without
a tuner has no such context.  (Two requests are of the same region when their tuners have the same key.) -/
theorem C119_recorded {st st' : Kokkos.State} {v : Nat} {es : List Kokkos.Event} {rs : List Kokkos.Reply} (hmk : OneDimensional mk)
    (hmkb : ∀ id p d, mk id p = .ok d → WellBehaved d) (h0 : Kokkos.State.IsBlank st)
    (hs : Sensible ops toInt jen little mk (Kokkos.State.started st) Journal.empty es)
    (h : Kokkos.run ops toInt jen little mk st (.init v :: es) = .ok (st', .nothing :: rs)) (vars : List Nat) :
    match Kokkos.look st'.tuners (uniqNat vars) with
    | none => (Journal.empty.after (es.zip rs)).of vars = []
    | some (t, _) => List.Forall₂ (Records st' (Journal.empty.after (es.zip rs)) (st'.regions t)) (st'.regions t).tuner.history
        ((Journal.empty.after (es.zip rs)).of vars) := by
  obtain ⟨hc, hd⟩ := Kokkos.keeps_run hmk hmkb (blank_keeps h0) hs (run_init h0 h)
  rw [Kokkos.of_key]
  cases hk : Kokkos.look st'.tuners (uniqNat vars) with
  | none => exact hc.absent _ hk
  | some x =>
    obtain ⟨t, b⟩ := x
    obtain ⟨hr, -⟩ := hc.tuners _ _ _ hk
    refine Kokkos.forall₂_imp_mem hr.history fun e he m hm => ⟨hm.timed.result, ?_, fun x hx => ?_, fun x hx => ?_⟩
    · have ht := hm.time
      obtain ⟨ns, h1⟩ := hm.timed.value
      unfold Kokkos.timeOf at ht
      rw [h1] at ht
      exact ⟨_, ns, h1, rfl, ht⟩
    · obtain ⟨name, info, a, i, v, h1, h2, h3, h4, h5⟩ := hm.trial.sent x hx
      obtain ⟨name', info', h6, h7, -⟩ := hd.outputs _ _ h2
      cases hd.outputsOnce _ h1 _ h6 rfl
      obtain ⟨w, h8, h9, h10⟩ := Kokkos.getIndex_plain hr.plain h3
      have hleg := hm.trial.fit.2 i w v h8 h4
      have hstr := (hr.plain.good.tables.mem w (List.mem_of_getElem? h8)).2
      refine ⟨name, info, i, w, v, h1, h8, ?_, h4, ?_⟩
      · rw [h10]; exact (Kokkos.variableParameter_created h7).1
      · rw [h10] at hleg hstr
        exact sent_means h7 hstr hleg h5
    · obtain ⟨name, info, a, i, d, h1, h2, h3, h4, h5⟩ := hm.trial.given x hx
      obtain ⟨name', info', h6, h7⟩ := hd.inputs _ _ h2
      cases hd.inputsOnce _ h1 _ h6 rfl
      rcases hr.table.index a with ⟨i', p, h8, h9⟩ | ⟨-, h9⟩
      · rw [h9] at h3
        cases h3
        refine ⟨name, info, i, a, p, d, h1, h8, ?_, h4, value_means h5⟩
        have := hr.held _ (List.mem_of_getElem? h8)
        simp only at this
        rw [this]
        exact (Kokkos.variableParameter_created h7).1
      · rw [h9] at h3; cases h3

/-! ## C120: the best values -/

/-- Two contexts of a region have the same features when their variables were given the same values. -/
theorem given_iff {st : Kokkos.State} {j : Journal} {k : List Nat} {r : Kokkos.Region} {o o' : Trial} {fa ca fa' ca' : BitVec 64}
    (hd : Kokkos.Declared ops toInt jen little st j) (hr : Kokkos.RegionKept ops jen little st j k r) (h : Kokkos.TrialKept st j k r o fa ca)
    (h' : Kokkos.TrialKept st j k r o' fa' ca') : SameBinding (st.feats fa) (st.feats fa') ↔ SameValues o.given o'.given := by
  have hin : ∀ {o : Trial} {fa ca : BitVec 64}, Kokkos.TrialKept st j k r o fa ca → ∀ id ∈ k, ∀ name info, (id, name, info) ∈ j.inputs →
      ∃ x ∈ o.given, x.1 = id := fun {o fa ca} ht id hid name info hi => by
    rw [← ht.vars, mem_uniqNat] at hid
    rcases List.mem_append.1 hid with hid | hid
    · exact List.mem_map.1 hid
    · obtain ⟨x, h1, h2⟩ := List.mem_map.1 hid
      obtain ⟨name', info', a, i, v, h3, -⟩ := ht.sent x h1
      exact absurd h2.symm (hd.apart _ hi _ h3)
  have hk : ∀ {o : Trial} {fa ca : BitVec 64}, Kokkos.TrialKept st j k r o fa ca → ∀ x ∈ o.given, x.1 ∈ k := fun {o fa ca} ht x hx => by
    rw [← ht.vars, mem_uniqNat]
    exact List.mem_append_left _ (List.mem_map.2 ⟨x, hx, rfl⟩)
  have hgive : ∀ {o o' : Trial} {fa ca fa' ca' : BitVec 64}, Kokkos.TrialKept st j k r o fa ca → Kokkos.TrialKept st j k r o' fa' ca' →
      (st.feats fa).values.map (·.v) = (st.feats fa').values.map (·.v) → ∀ x ∈ o.given, x ∈ o'.given := by
    intro o o' fa ca fa' ca' ht ht' he x hx
    obtain ⟨name, info, a, i, d, h1, h2, h3, h4, h5⟩ := ht.given x hx
    obtain ⟨y, hy, h6⟩ := hin ht' x.1 (hk ht x hx) _ _ h1
    obtain ⟨name', info', a', i', d', h1', h2', h3', h4', h5'⟩ := ht'.given y hy
    rw [h6] at h1' h2'
    cases hd.inputsOnce _ h1 _ h1' rfl
    rw [h2] at h2'
    cases h2'
    rw [h3] at h3'
    cases h3'
    have : some d.v = some d'.v := by
      have := congrArg (fun l => l[i]?) he
      simpa [List.getElem?_map, h4, h4'] using this
    have h7 : x.2 = y.2 := means_inj (value_means h5) (by rw [Option.some.inj this]; exact value_means h5')
    have : x = y := Prod.ext h6.symm h7
    rw [this]
    exact hy
  constructor
  · rintro ⟨-, he⟩
    exact ⟨hgive h h' he, hgive h' h he.symm⟩
  · rintro ⟨h1, h2⟩
    refine ⟨by rw [h.context, h'.context], List.ext_getElem? fun i => ?_⟩
    by_cases hi : i < r.fctx.params.length
    · obtain ⟨id, h3, h4⟩ := hr.owned _ (List.getElem_mem hi)
      obtain ⟨name, info, h5, -⟩ := hd.inputs _ _ h4
      obtain ⟨x, hx, rfl⟩ := hin h id h3 _ _ h5
      obtain ⟨name1, info1, a1, i1, d1, h6, h7, h8, h9, h10⟩ := h.given x hx
      obtain ⟨name2, info2, a2, i2, d2, h6', h7', h8', h9', h10'⟩ := h'.given x (h1 x hx)
      cases hd.inputsOnce _ h6 _ h6' rfl
      rw [h4] at h7 h7'
      cases h7
      cases h7'
      rw [h8] at h8'
      cases h8'
      have hii : i1 = i := by
        rcases hr.table.index r.fctx.params[i].1 with ⟨i', p, h11, h12⟩ | ⟨-, h12⟩
        · rw [h12] at h8
          cases h8
          exact hr.table.handle_inj h11 (List.getElem?_eq_getElem hi)
        · rw [h12] at h8; cases h8
      subst hii
      rw [h10] at h10'
      simp only [List.getElem?_map, h9, h9', Option.map_some]
      rw [Out.ok.inj h10']
    · rw [List.getElem?_eq_none (by rw [List.length_map, h.length]; omega), List.getElem?_eq_none (by rw [List.length_map, h'.length]; omega)]

/-- Two contexts of a region with the same configuration were sent the same values. -/
theorem sent_same {st : Kokkos.State} {j : Journal} {k : List Nat} {r : Kokkos.Region} {o o' : Trial} {fa fa' ca : BitVec 64}
    (hd : Kokkos.Declared ops toInt jen little st j) (h : Kokkos.TrialKept st j k r o fa ca)
    (h' : Kokkos.TrialKept st j k r o' fa' ca) : SameValues o.sent o'.sent := by
  have key : ∀ {o o' : Trial} {fa fa' : BitVec 64}, Kokkos.TrialKept st j k r o fa ca → Kokkos.TrialKept st j k r o' fa' ca →
      ∀ x ∈ o.sent, x ∈ o'.sent := by
    intro o o' fa fa' ht ht' x hx
    obtain ⟨name, info, a, i, v, h1, h2, h3, h4, h5⟩ := ht.sent x hx
    have hk : x.1 ∈ uniqNat o'.vars := by
      rw [ht'.vars, ← ht.vars, mem_uniqNat]
      exact List.mem_append_right _ (List.mem_map.2 ⟨x, hx, rfl⟩)
    rcases List.mem_append.1 (mem_uniqNat.1 hk) with hk | hk
    · obtain ⟨y, h6, h7⟩ := List.mem_map.1 hk
      obtain ⟨name', info', a', i', d', h8, -⟩ := ht'.given y h6
      exact absurd h7 (hd.apart _ h8 _ h1)
    · obtain ⟨y, hy, h7⟩ := List.mem_map.1 hk
      obtain ⟨name', info', a', i', v', h1', h2', h3', h4', h5'⟩ := ht'.sent y hy
      rw [h7] at h1' h2'
      cases hd.outputsOnce _ h1 _ h1' rfl
      rw [h2] at h2'
      cases h2'
      rw [h3] at h3'
      cases h3'
      rw [h4] at h4'
      cases h4'
      rw [h5] at h5'
      have : x = y := Prod.ext h7.symm (Out.ok.inj h5')
      rw [this]
      exact hy
  exact ⟨key h h', key h' h⟩

/-- **C120** Once 500 contexts of a region were measured, each further request of the region is sent the values of a context that was measured
with the same values given and took the least time among these, unless none was measured with the same values given. -/
theorem C120_best {st st' : Kokkos.State} {es : List Kokkos.Event} {rs : List Kokkos.Reply} {c : Nat} {cv tv : List Kokkos.Var}
    {g : Kokkos.Supply} {sent : List Kokkos.Raw} (hmk : OneDimensional mk) (hmkb : ∀ id p d, mk id p = .ok d → WellBehaved d)
    (h : Program ops toInt jen little mk st es rs c cv tv g sent st')
    (hn : 500 ≤ ((Journal.empty.after (es.zip rs)).of (requestVars cv tv)).length) :
    (∃ m ∈ (Journal.empty.after (es.zip rs)).of (requestVars cv tv),
      SameValues m.1.given (cv.map fun x => (x.id, x.value)) ∧ SameValues m.1.sent ((tv.map (·.id)).zip sent) ∧
      ∀ m' ∈ (Journal.empty.after (es.zip rs)).of (requestVars cv tv),
        SameValues m'.1.given (cv.map fun x => (x.id, x.value)) → m.2 ≤ m'.2) ∨
    ∀ m ∈ (Journal.empty.after (es.zip rs)).of (requestVars cv tv), ¬ SameValues m.1.given (cv.map fun x => (x.id, x.value)) := by
  obtain ⟨x, hc, hd, -, hq, hr, ht⟩ := program_request hmk hmkb h
  rw [Kokkos.of_key] at hn ⊢
  have hist : List.Forall₂ (Kokkos.EvalKept st' ((Journal.empty.after (es.zip rs)).next (.request c cv tv g) (.values sent))
    (uniqNat (requestVars cv tv)) (st'.regions x.tuner)) (st'.regions x.tuner).tuner.history
    (Kokkos.keyDone (Journal.empty.after (es.zip rs)) (uniqNat (requestVars cv tv))) := hr.history
  rcases hq.choice (hq.converged.2 hn) with ⟨o, ho, h1, h2⟩ | h1
  · left
    obtain ⟨ho1, ho2⟩ := hr.fastest.best o ho
    obtain ⟨m, hm, hmk⟩ := Kokkos.forall₂_left hist ho1
    refine ⟨m, hm, (given_iff hd hr hmk.trial ht).1 ⟨h1.1.symm, h1.2.symm⟩, ?_, fun m' hm' h3 => ?_⟩
    · have htr := hmk.trial
      rw [← h2] at htr
      exact sent_same hd htr ht
    · obtain ⟨e, he, hek⟩ := Kokkos.forall₂_right hist hm'
      have h4 := (given_iff hd hr hek.trial ht).2 h3
      rw [← hmk.time, ← hek.time]
      exact ho2 e he ⟨h4.1.trans h1.1, h4.2.trans h1.2⟩
  · right
    intro m hm h3
    obtain ⟨e, he, hek⟩ := Kokkos.forall₂_right hist hm
    obtain ⟨o, ho, h4⟩ := hr.fastest.cover e he
    have h5 := (given_iff hd hr hek.trial ht).2 h3
    exact h1 o ho ⟨h5.1.symm.trans h4.1, h5.2.symm.trans h4.2⟩

end

end CCS.Props
