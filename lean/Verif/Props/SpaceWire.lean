import Verif.Lemmas.SpaceSame
import Verif.Props.DistWire

/-!
# C87, C88: serialization of configuration spaces and of random generators
-/

namespace CCS.Props

open CCS CCS.Spec

variable {σ : Type} {H : Host σ} {little : Bool} {mem mem' : BitVec 64 → Param} {mk : Nat → Param → Out Dist} {hp : Heap} {o : SpaceObj}

/-! ## C88: random generators -/

/-- **C88** A random generator is written in exactly the announced number of bytes.  Read where its type is known, it comes
back with its name and user data; with its state if the two machines have the same byte order and the same size of state,
else, without any error, with the state of a new generator.  Where its type is not known, reading is refused. -/
theorem C88_rng_outcome (little little' : Bool) (gens : List (Bytes × Bytes)) (h : BitVec 64) {r : RngObj} (hr : StorableRng r) :
    ∃ bs, WritesBytes (serRng little h r) bs ∧ bs.length = szRng little h r ∧
      (∀ fresh, newGenerator gens r.name = .ok fresh →
        (little = little' → r.state.length = fresh.length → ReadsBack (deRng little' gens) bs (h, r)) ∧
        (¬ (little = little' ∧ r.state.length = fresh.length) → ReadsBack (deRng little' gens) bs (h, ⟨r.name, fresh, r.data⟩))) ∧
      ((∀ g ∈ gens, g.1 ≠ r.name) → ∀ tail, deRng little' gens (bs ++ tail) = .err .invalidValue) := by
  refine ⟨rngBytes little h r, writes_rng _ _ _, length_rng _ _ _, fun fresh hf => ⟨fun h1 h2 tail => ?_, fun hne tail => ?_⟩,
    fun hg tail => ?_⟩
  · have := readsAs_rng little little' gens h hr tail
    rw [this, hf, Out.bind_ok, if_pos ⟨h1, h2⟩]
  · have := readsAs_rng little little' gens h hr tail
    rw [this, hf, Out.bind_ok, if_neg hne]
  · have := readsAs_rng little little' gens h hr tail
    have hn : newGenerator gens r.name = .err .invalidValue := by
      unfold newGenerator
      cases hf : gens.find? (fun g => decide (g.1 = r.name)) with
      | none => rfl
      | some g => 
        have := List.find?_some hf
        exact absurd (of_decide_eq_true this) (hg g (List.mem_of_find?_eq_some hf))
    rw [this, hn]
    rfl

/-- A generator with a state of four bytes, and the types known. -/
def exGen : RngObj := ⟨[0x6d#8], [1#8, 2#8, 3#8, 4#8], [9#8]⟩
def exGens : List (Bytes × Bytes) := [([0x72#8], [0#8]), ([0x6d#8], [0#8, 0#8, 0#8, 0#8])]

theorem exGen_storable : StorableRng exGen := ⟨⟨by decide, by decide⟩, by decide, by decide⟩

/-- The hypotheses are met, and the state is lost between machines of different byte orders. -/
example : StorableRng exGen ∧ newGenerator exGens exGen.name = .ok [0#8, 0#8, 0#8, 0#8] ∧
    (deRng true exGens (rngBytes true 7#64 exGen)) = .ok ((7#64, exGen), []) ∧
    (deRng false exGens (rngBytes true 7#64 exGen)) = .ok ((7#64, { exGen with state := [0#8, 0#8, 0#8, 0#8] }), []) :=
  ⟨exGen_storable, by decide, by decide +kernel, by decide +kernel⟩

/-! ## C87: configuration spaces -/

/-- **C87** A space made by any calls, whose objects have different addresses, is written in exactly the announced number of
bytes, and reading them gives what making the same calls again in the reading process gives, whatever the byte orders. -/
theorem C87_reads_as_rebuilt (h : Stored H little mem mem' mk hp o) (hn : (written o).Nodup) :
    ∃ bs, WritesBytes (serSpace H.M.ops little hp o) bs ∧ szSpace H.M.ops little hp o = .ok bs.length ∧
      ReadsAs (deSpace H) bs (rebuilt H mem' little hp o) := by
  have hr := readable_of h.one h.reach h.storable
  refine ⟨spaceBytes H.M.ops little hp o, writes_space hr, length_space hr, ?_⟩
  have := readsAs_space H h.sound.addresses hr
  rwa [readOutcome_fresh hn h.placed fun ds hd => placed_dims h.sound h.holds h.good.parts hd] at this

/-- **C87** Making the calls again succeeds exactly when the type of the generator is known, the distributions can be created
again, and there are no clauses or all have a value on the default configuration.  The space is then the same up to the
addresses of its parameters, and is a space made by calls in the reading process. -/
theorem C87_rebuilt_exactly (h : Stored H H.little mem mem' mk hp o) :
    ((∃ r, rebuilt H mem' H.little hp o = .ok r) ↔
      (∃ fresh, newGenerator H.gens o.rng.name = .ok fresh) ∧
      (∃ ds, recreateAll H.M (o.space.dists.map fun w => hp.dist w.dist.handle) = .ok ds) ∧
      (o.space.clauses = [] ∨ DefaultEvaluates H.M.ops H.jen H.little o.space)) ∧
    ∀ r, rebuilt H mem' H.little hp o = .ok r →
      r.handle = o.handle ∧ r.name = o.name ∧ r.data = o.data ∧ r.rng.name = o.rng.name ∧ r.rng.data = o.rng.data ∧
      r.paramData = (o.space.params.map fun w => hp.data w.handle) ∧
      recreateAll H.M (o.space.dists.map fun w => hp.dist w.dist.handle) = .ok r.dists ∧
      Twin H.paramAt (placed H r.dists) o.space r.space ∧ r.space.graphOk = true ∧
      Reachable H.M.ops H.jen H.little mem' H.defaultDist r.space := by
  have hw := reachable_witnessed h.one h.reach
  have hcr := fun w hm => (h.storable.params w hm).1.created
  have hb := fun c hc => (h.storable.clauses c hc).1
  constructor
  · constructor
    · rintro ⟨r, hr⟩
      unfold rebuilt at hr
      obtain ⟨fresh, h1, hr⟩ := bind_eq_ok hr
      obtain ⟨ds, h2, hr⟩ := bind_eq_ok hr
      obtain ⟨s', h3, -⟩ := bind_eq_ok hr
      obtain ⟨d1, d2⟩ := h.dims h2
      exact ⟨⟨fresh, h1⟩, ⟨ds, h2⟩, (recreation_twin h.setting h.honest hw hcr hb d1 d2 h.nonempty).1.mp ⟨s', h3⟩⟩
    · rintro ⟨⟨fresh, h1⟩, ⟨ds, h2⟩, h3⟩
      obtain ⟨d1, d2⟩ := h.dims h2
      obtain ⟨s', h4⟩ := (recreation_twin h.setting h.honest hw hcr hb d1 d2 h.nonempty).1.mpr h3
      unfold rebuilt
      rw [h1, Out.bind_ok, h2, Out.bind_ok, h4, Out.bind_ok]
      exact ⟨_, rfl⟩
  · intro r hr
    unfold rebuilt at hr
    obtain ⟨fresh, h1, hr⟩ := bind_eq_ok hr
    obtain ⟨ds, h2, hr⟩ := bind_eq_ok hr
    obtain ⟨s', h3, hr⟩ := bind_eq_ok hr
    obtain rfl := Out.ok.inj hr
    obtain ⟨d1, d2⟩ := h.dims h2
    obtain ⟨-, k2, k3⟩ := (recreation_twin h.setting h.honest hw hcr hb d1 d2 h.nonempty).2 s' h3
    exact ⟨rfl, rfl, rfl, rfl, rfl, rfl, h2, k2, k3, _, recreation_called h.setting hb d2 h.nonempty, perform_run h3⟩

/-- **C87 (partial)** Between processes of the same byte order and with IEEE arithmetic, a space whose objects have different
addresses and whose clauses have a value on its default configuration comes back the same up to the addresses of its
parameters: same name, user data, generator and generator state, parameters with their user data, conditions, clauses, and
the very same distributions.

Missing for the full statement: spaces whose objects share addresses (undefined behaviour, `C87_shared_undefined`), clauses
without a value on the default configuration (refused, `C87_clause_refused`), and distributions that do not come back
identical (C84). -/
theorem C87_round_trip_partial (h : Stored H H.little mem mem' mk hp o) (hn : (written o).Nodup) (hM : H.M.ops = ieee)
    (hd : ∀ w ∈ o.space.dists, SteadyDist (hp.dist w.dist.handle))
    {fresh : Bytes} (hg : newGenerator H.gens o.rng.name = .ok fresh) (hsize : o.rng.state.length = fresh.length)
    (hc : o.space.clauses = [] ∨ DefaultEvaluates H.M.ops H.jen H.little o.space) :
    ∃ bs r, WritesBytes (serSpace H.M.ops H.little hp o) bs ∧ szSpace H.M.ops H.little hp o = .ok bs.length ∧
      ReadsBack (deSpace H) bs r ∧ r.handle = o.handle ∧ r.name = o.name ∧ r.data = o.data ∧ r.rng = o.rng ∧
      r.paramData = (o.space.params.map fun w => hp.data w.handle) ∧
      r.dists = (o.space.dists.map fun w => hp.dist w.dist.handle) ∧
      Twin H.paramAt (placed H r.dists) o.space r.space ∧
      Reachable H.M.ops H.jen H.little mem' H.defaultDist r.space := by
  obtain ⟨bs, a1, a2, a3⟩ := C87_reads_as_rebuilt h hn
  have hall : recreateAll H.M (o.space.dists.map fun w => hp.dist w.dist.handle) =
      .ok (o.space.dists.map fun w => hp.dist w.dist.handle) := by
    refine DistObj.recreateAll_same fun c hm => ?_
    obtain ⟨w, hw, rfl⟩ := List.mem_map.mp hm
    exact DistObj.recreate_same hM (h.holds w hw).1 (hd w hw)
  obtain ⟨r, hr⟩ := (C87_rebuilt_exactly h).1.mpr ⟨⟨fresh, hg⟩, ⟨_, hall⟩, hc⟩
  obtain ⟨b1, b2, b3, b4, b5, b6, b7, b8, -, b9⟩ := (C87_rebuilt_exactly h).2 r hr
  refine ⟨bs, r, a1, a2, fun tail => ?_, b1, b2, b3, ?_, b6, ?_, b8, b9⟩
  · rw [a3 tail, hr]
  · unfold rebuilt at hr
    obtain ⟨fresh', h1, hr⟩ := bind_eq_ok hr
    obtain ⟨ds, h2, hr⟩ := bind_eq_ok hr
    obtain ⟨s', h3, hr⟩ := bind_eq_ok hr
    obtain rfl := Out.ok.inj hr
    obtain rfl := Out.ok.inj (h1.symm.trans hg)
    simp only [true_and, if_pos hsize]
  · exact (Out.ok.inj (hall.symm.trans b7)).symm

/-- **C87** The space read back behaves like the one written, when its distributions come back identical: its default
configuration is the one made of default values with the parameters active as their conditions say; it accepts the same
configurations; and it draws the same configurations from the same random stream. -/
theorem C87_same_behaviour (h : Stored H H.little mem mem' mk hp o) (hv : ShowsDists H hp o.space)
    (hall : recreateAll H.M (o.space.dists.map fun w => hp.dist w.dist.handle) =
      .ok (o.space.dists.map fun w => hp.dist w.dist.handle))
    {r : ReadSpace} (hr : rebuilt H mem' H.little hp o = .ok r) :
    (∀ d, getDefault H.M.ops H.jen H.little r.space = .ok d ↔
      Masks (o.space.params.map (·.param.default)) d ∧ ActivityRight H.M.ops H.jen H.little o.space d ∧
      ∀ (i : Nat) w e, o.space.params[i]? = some w → w.condition = some e → ∃ x, evalOn H.M.ops H.jen H.little o.space d e = .ok x) ∧
    (o.space.graphOk = true → ∀ d, getDefault H.M.ops H.jen H.little r.space = .ok d ↔ getDefault H.M.ops H.jen H.little o.space = .ok d) ∧
    (∀ vals, (checkSpace H.M.ops H.jen H.little r.space vals).2 = .ok true ↔
      (checkSpace H.M.ops H.jen H.little o.space vals).2 = .ok true) ∧
    (∀ t v, (sampleOne H.M.ops H.jen H.little r.space t).2 = .ok v ↔ (sampleOne H.M.ops H.jen H.little o.space t).2 = .ok v) := by
  obtain ⟨-, -, -, -, -, -, b7, b8, b9, b10⟩ := (C87_rebuilt_exactly h).2 r hr
  have hds := Out.ok.inj (hall.symm.trans b7)
  have hs := h.setting
  have hw := reachable_witnessed h.one h.reach
  have hcr := fun w hm => (h.storable.params w hm).1.created
  have hg' := reachable_good h.sound.one b10
  have hc := twin_copied b8
  have ho : EvalOrder (Spec.conditions o.space) r.space.sorted := copied_order hs hg' hc b9
  have hdef := copied_default (ops := H.M.ops) (jen := H.jen) (little := H.little) hs hg' hc h.honest b9
  obtain ⟨s₁, he₁, hg₁, hsame, hok₁⟩ := ensure_effect h.good
  have ho₁ := hg₁.graph.full hok₁
  have hord : EvalOrder (Spec.conditions (reordered o.space r.space)) (reordered o.space r.space).sorted := by
    rw [(reordered_same o.space r.space).conditions]
    exact ho
  have hsame₂ : SameSpace s₁ (reordered o.space r.space) := hsame.symm.trans (reordered_same _ _)
  have hpar : Parts (reordered o.space r.space) := (reordered_same o.space r.space).parts h.good.parts
  have hsd : SameDists o.space (placed H r.dists) := by
    refine ⟨by rw [placed_length, ← hds, List.length_map], fun j d w hj hwj => ?_⟩
    obtain ⟨x, hx, rfl⟩ := placed_get hj
    rw [← hds, List.getElem?_map, hwj] at hx
    obtain rfl := Option.some.inj hx
    exact hv w (List.mem_of_getElem? hwj) _
  refine ⟨fun d => ?_, fun hok d => ?_, fun vals => ?_, fun t v => ?_⟩
  · rw [hdef d]
    constructor
    · intro hsol
      obtain ⟨a1, a2, a3⟩ := setActives_right ho (by simp) (CCS.defaults_active h.good hcr) ((setActives_iff ho (by simp)).mpr hsol)
      exact ⟨a2, a1, a3⟩
    · rintro ⟨a1, a2, a3⟩
      exact solves_of_right (by simp) a2 a1 a3
  · rw [hdef d]
    exact (setActives_iff (h.good.graph.full hok) (by simp)).symm
  · have e1 : (checkSpace H.M.ops H.jen H.little o.space vals).2 = checkBody H.M.ops H.jen H.little s₁ vals := by
      unfold checkSpace; rw [he₁]
    have e2 : (checkSpace H.M.ops H.jen H.little r.space vals).2 = checkBody H.M.ops H.jen H.little (reordered o.space r.space) vals := by
      unfold checkSpace ensureGraph
      rw [if_pos b9]
      show checkBody _ _ _ r.space vals = _
      unfold checkBody
      rw [hc.length, twin_check hs hg' b8 h.honest hw]
      rw [show checkLoop H.M.ops H.jen H.little o.space vals r.space.sorted =
        checkLoop H.M.ops H.jen H.little (reordered o.space r.space) vals (reordered o.space r.space).sorted from
        ((same_checkLoop (reordered_same _ _) vals r.space.sorted)).symm]
      rfl
    rw [e1, e2, (checkBody_spec hord vals).1, (checkBody_spec ho₁ vals).1, hsame₂.valid, hsame₂.allEvaluate]
  · have e1 : (sampleOne H.M.ops H.jen H.little o.space t).2 = sampleLoop H.M.ops H.jen H.little s₁ 99 t s₁.blank := by
      unfold sampleOne; rw [he₁]
    have e2 : (sampleOne H.M.ops H.jen H.little r.space t).2 =
        sampleLoop H.M.ops H.jen H.little (reordered o.space r.space) 99 t (reordered o.space r.space).blank := by
      unfold sampleOne ensureGraph
      rw [if_pos b9]
      have hbl : r.space.blank = (reordered o.space r.space).blank := by
        unfold Space.blank
        rw [hc.length]
        rfl
      show sampleLoop _ _ _ r.space 99 t r.space.blank = _
      rw [hbl]
      exact sampleLoop_eq (fun t vals => twin_attempt hs hg' b8 h.honest hw hsd t vals) 99 t _
    rw [e1, e2]
    exact ⟨sampleLoop_same _ _ _ hsame₂.symm hpar hg₁.parts hord ho₁ 99 t, sampleLoop_same _ _ _ hsame₂ hg₁.parts hpar ho₁ hord 99 t⟩

/-- **C87** is violated: a space in which two of the objects written have the same address (for instance one expression used
as a condition and as a clause) is written without error, and reading what was written is undefined behaviour. -/
theorem C87_shared_undefined (h : Stored H little mem mem' mk hp o) (hn : ¬ (written o).Nodup)
    {fresh : Bytes} (hg : newGenerator H.gens o.rng.name = .ok fresh)
    (hr : ∀ w ∈ o.space.dists, ∃ d, recreate H.M (hp.dist w.dist.handle) = .ok d) :
    ∃ bs, WritesBytes (serSpace H.M.ops little hp o) bs ∧ szSpace H.M.ops little hp o = .ok bs.length ∧
      ∀ tail, deSpace H (bs ++ tail) = .ub := by
  have hrd := readable_of h.one h.reach h.storable
  refine ⟨spaceBytes H.M.ops little hp o, writes_space hrd, length_space hrd, fun tail => ?_⟩
  have := readsAs_space H h.sound.addresses hrd tail
  rwa [readOutcome_clash hn hg hr] at this

/-- **C87** is violated: a space with clauses that do not all have a value on the default configuration (which the calls
allow, when conditions come after clauses) is written without error, and reading what was written never gives a space. -/
theorem C87_clause_refused (h : Stored H H.little mem mem' mk hp o) (hn : (written o).Nodup) (hc : o.space.clauses ≠ [])
    (hd : ¬ DefaultEvaluates H.M.ops H.jen H.little o.space) :
    ∃ bs, WritesBytes (serSpace H.M.ops H.little hp o) bs ∧ szSpace H.M.ops H.little hp o = .ok bs.length ∧
      ∀ tail x, deSpace H (bs ++ tail) ≠ .ok x := by
  obtain ⟨bs, a1, a2, a3⟩ := C87_reads_as_rebuilt h hn
  refine ⟨bs, a1, a2, fun tail x hx => ?_⟩
  rw [a3 tail] at hx
  cases hr : rebuilt H mem' H.little hp o with
  | ok r =>
    rcases ((C87_rebuilt_exactly h).1.mp ⟨r, hr⟩).2.2 with h1 | h1
    · exact hc h1
    · exact hd h1
  | err e => rw [hr] at hx; cases hx
  | ub => rw [hr] at hx; cases hx

/-! An instance: the parameters `a` and `b` over `[0, 10)`, with their default distributions. -/

/-- The uniform distribution over `[0, 10)`. -/
def exTen : DistObj := .uniform ⟨.int, 0#64, 10#64, false, 0#64, 0#64, 10#64, false⟩ []

theorem exTen_built : BuiltDist exMachine exTen :=
  .uniform (type := .int) (lower := 0#64) (upper := 10#64) (log := false) (quantization := 0#64)
    (d := .uniform ⟨.int, 0#64, 10#64, false, 0#64, 0#64, 10#64, false⟩ []) (by
      have h1 : Uniform.check exMachine .int 0#64 10#64 false 0#64 = .ok () := by decide +kernel
      have h2 : Uniform.fill exMachine .int 0#64 10#64 false 0#64 = .ok ⟨.int, 0#64, 10#64, false, 0#64, 0#64, 10#64, false⟩ := by
        decide +kernel
      rw [DistObj.newUniform, h1, Out.bind_ok, h2, Out.bind_ok]) []

/-- What a distribution at an address does in the examples. -/
def exView (a : BitVec 64) (d : DistObj) : Dist :=
  ⟨a, (DistObj.sampler exMachine d).dim, [⟨.int, 0#64, 10#64, 1#32, 0#32⟩],
    fun t k n => .ok [(List.range n).map fun i => BitVec.ofNat 64 ((t + 3 * k + i) % 10)]⟩

def exDefault (id : Nat) (_ : Param) : Out Dist := .ok (exView (BitVec.ofNat 64 (100 + id)) exTen)

/-- The reading process of the examples: it gives the address `3 + i` to the `i`-th parameter. -/
def exHost : Host Nat where
  M := exMachine
  jen := exJen
  little := true
  gens := exGens
  defaultDist := exDefault
  paramAt := fun i => BitVec.ofNat 64 (3 + i % 1000)
  distAt := fun i => BitVec.ofNat 64 (200 + i)
  view := exView

def exStore : Heap := ⟨fun _ => [7#8], fun _ => exTen, fun _ _ => 0#64⟩

/-- `parameter at h = v`, at address `k`. -/
def isValueAt (k h : BitVec 64) (p : Param) (v : BitVec 64) : Expr :=
  .node ⟨k, []⟩ .equal [.var ⟨k + 1#64, []⟩ h p, .literal ⟨k + 2#64, []⟩ (.int v)]

theorem isValueAt_built (k : BitVec 64) {h : BitVec 64} (hh : h ≠ 0#64) (p : Param) (v : BitVec 64) : Built (isValueAt k h p v) :=
  .expression (o := ⟨k, []⟩) (os := [⟨k + 1#64, []⟩, ⟨k + 2#64, []⟩]) (type := 2) (nodes := [.param h p, .value (.int v)])
    (by simp [createExpression, Op.ofCode, arityMismatch, Op.arity, Node.refusal, Value.tag, hh, makeNodes, isValueAt,
      createVariable, createLiteral]) (by simp)

/-- `parameter at h IN [parameter at h', 1]`, at address `k`. -/
def isAmong (k h : BitVec 64) (p : Param) (h' : BitVec 64) (p' : Param) : Expr :=
  .node ⟨k, []⟩ .isIn [.var ⟨k + 1#64, []⟩ h p,
    .node ⟨k + 2#64, []⟩ .list [.var ⟨k + 3#64, []⟩ h' p', .literal ⟨k + 4#64, []⟩ (.int 1#64)]]

theorem isAmong_built (k : BitVec 64) {h h' : BitVec 64} (hh : h ≠ 0#64) (hh' : h' ≠ 0#64) (p p' : Param) :
    Built (isAmong k h p h' p') := by
  have hl : Built (.node ⟨k + 2#64, []⟩ .list [.var ⟨k + 3#64, []⟩ h' p', .literal ⟨k + 4#64, []⟩ (.int 1#64)]) :=
    .expression (o := ⟨k + 2#64, []⟩) (os := [⟨k + 3#64, []⟩, ⟨k + 4#64, []⟩]) (type := 17)
      (nodes := [.param h' p', .value (.int 1#64)])
      (by simp [createExpression, Op.ofCode, arityMismatch, Op.arity, Node.refusal, Value.tag, hh', makeNodes,
        createVariable, createLiteral]) (by simp)
  refine .expression (o := ⟨k, []⟩) (os := [⟨k + 1#64, []⟩, ⟨k + 2#64, []⟩]) (type := 16)
      (nodes := [.param h p, .expr (.node ⟨k + 2#64, []⟩ .list [.var ⟨k + 3#64, []⟩ h' p', .literal ⟨k + 4#64, []⟩ (.int 1#64)])])
      (by simp [createExpression, Op.ofCode, arityMismatch, Op.arity, Node.refusal, Value.tag, hh, makeNodes, isAmong,
        createVariable, createLiteral]) ?_
  intro x hx
  simp only [List.mem_cons, List.not_mem_nil, or_false, Node.expr.injEq] at hx
  rcases hx with hx | rfl
  · cases hx
  · exact hl

/-- What is asked of the expressions of the examples. -/
def Ordinary (e : Expr) : Prop := Built e ∧ StorableExpr e ∧ Honest exMem e

theorem isValueAt_usable (k : BitVec 64) {h : BitVec 64} (hh : h ≠ 0#64) (v : BitVec 64) : Ordinary (isValueAt k h (exMem h) v) := by
  refine ⟨isValueAt_built k hh _ v, ?_, ?_⟩
  · refine .node (by simp) (by simp) fun a ha => ?_
    simp only [List.mem_cons, List.not_mem_nil, or_false] at ha
    rcases ha with rfl | rfl
    · exact .var (by simp)
    · exact .literal (by simp) (by simp [StorableValue])
  · intro x p hx
    cases hx with
    | inside ha hx =>
      simp only [List.mem_cons, List.not_mem_nil, or_false] at ha
      rcases ha with rfl | rfl
      · cases hx; rfl
      · cases hx

theorem isAmong_usable (k : BitVec 64) {h h' : BitVec 64} (hh : h ≠ 0#64) (hh' : h' ≠ 0#64) :
    Ordinary (isAmong k h (exMem h) h' (exMem h')) := by
  refine ⟨isAmong_built k hh hh' _ _, ?_, ?_⟩
  · refine .node (by simp) (by simp) fun a ha => ?_
    simp only [List.mem_cons, List.not_mem_nil, or_false] at ha
    rcases ha with rfl | rfl
    · exact .var (by simp)
    · refine .node (by simp) (by simp) fun a ha => ?_
      simp only [List.mem_cons, List.not_mem_nil, or_false] at ha
      rcases ha with rfl | rfl
      · exact .var (by simp)
      · exact .literal (by simp) (by simp [StorableValue])
  · intro x p hx
    cases hx with
    | inside ha hx =>
      simp only [List.mem_cons, List.not_mem_nil, or_false] at ha
      rcases ha with rfl | rfl
      · cases hx; rfl
      · cases hx with
        | inside ha hx =>
          simp only [List.mem_cons, List.not_mem_nil, or_false] at ha
          rcases ha with rfl | rfl
          · cases hx; rfl
          · cases hx

theorem exMem_storable (h : BitVec 64) : StorableParam ieee exJen true (exMem h) := by
  have key : ∀ p, p = parA ∨ p = parB → StorableParam ieee exJen true p := by
    rintro p (rfl | rfl)
    · exact ⟨.numerical (by decide +kernel : createNumerical ieee parA.name .int 0#64 10#64 0#64 0#64 = .ok parA),
        ⟨by decide, by decide⟩, (fun k vals s h => by cases h), (fun k vals s h => by cases h), (fun k vals h => by cases h), (fun k vals f g h => by cases h)⟩
    · exact ⟨.numerical (by decide +kernel : createNumerical ieee parB.name .int 0#64 10#64 0#64 5#64 = .ok parB),
        ⟨by decide, by decide⟩, (fun k vals s h => by cases h), (fun k vals s h => by cases h), (fun k vals h => by cases h), (fun k vals f g h => by cases h)⟩
  apply key
  unfold exMem
  split
  · exact .inl rfl
  · exact .inr rfl

/-- The space made by some calls, as an object. -/
def exSpace (history : List SpaceOp) : Space := Space.empty.run ieee exJen true exMem exDefault history
def exSpaceObj (history : List SpaceOp) : SpaceObj := ⟨1000#64, [0x73#8], 90#64, exGen, exSpace history, []⟩

/-- The parameters of the reading process. -/
def exMem' (h : BitVec 64) : Param := if h = 3#64 then parA else parB

theorem exDefault_one : OneDimensional exDefault := by
  intro id p d h
  cases h
  rfl

theorem exHost_sound : SoundHost exHost where
  addresses := by
    intro i h
    have := congrArg BitVec.toNat h
    simp only [exHost, BitVec.toNat_ofNat] at this
    omega
  dim := fun a d => rfl
  one := exDefault_one
  default := fun id p _ _ => ⟨_, rfl⟩

/-- A space of the examples is one of a view. -/
def Ten (d : Dist) : Prop := ∃ a, d = exView a exTen

theorem exTen_dists {history : List SpaceOp} (hc : ∀ op ∈ history, WellCalled op) (hg : ∀ op ∈ history, SpaceOp.given op = []) :
    ∀ w ∈ (exSpace history).dists, Ten w.dist :=
  run_dists (ops := ieee) (jen := exJen) (little := true) (mem := exMem) exDefault_one (Q := Ten)
    (fun id p d h => ⟨_, (Out.ok.inj h).symm⟩) history Space.empty (good_empty _) hc
    (fun op hop d hd => by rw [hg op hop] at hd; cases hd) (by simp [Space.empty])

theorem exStored {history : List SpaceOp} (hc : ∀ op ∈ history, WellCalled op) (hg : ∀ op ∈ history, SpaceOp.given op = [])
    (hq : ∀ op ∈ history, ∀ e, givenExpr op = some e → Ordinary e) (hh : (exSpace history).handles = [1#64, 2#64])
    (hs : 16 * (exSpace history).params.length + 16 * (conditionsOf (exSpace history)).length + 16 * (exSpace history).dists.length +
      8 * (exSpace history).clauses.length < 2 ^ 64) : Stored exHost true exMem exMem' exDefault exStore (exSpaceObj history) := by
  have hr : Reachable ieee exJen true exMem exDefault (exSpace history) := ⟨history, hc, rfl⟩
  have hgood := reachable_good exDefault_one hr
  have hex : AllExprs Ordinary (exSpace history) := run_exprs exDefault_one history Space.empty (good_empty _) hc hq
    ⟨by simp [Spec.conditions, Space.empty], by simp [Space.empty]⟩
  have hcond : ∀ w ∈ (exSpace history).params, ∀ e, w.condition = some e → Ordinary e := fun w hw e he =>
    hex.1 (w.handle, w.condition) (List.mem_map.mpr ⟨w, hw, rfl⟩) e he
  have hlen : (exSpace history).params.length = 2 := by
    have := congrArg List.length hh
    simpa [Space.handles] using this
  have hten := exTen_dists hc hg
  refine ⟨exDefault_one, hr, ⟨⟨by simp [exSpaceObj], by simp [exSpaceObj]⟩, exGen_storable, by simp [exSpaceObj], fun w hw => ⟨?_, by simp [exStore]⟩,
    fun w hw e he => (hcond w hw e he).2.1, fun w _ => ?_, fun e he => ⟨(hex.2 e he).1, (hex.2 e he).2.1⟩, hs⟩,
    ⟨fun w hw e he => (hcond w hw e he).2.2, fun e he => (hex.2 e he).2.2⟩, fun w hw => ⟨exTen_built, ?_⟩, exHost_sound, ?_, ?_, ?_⟩
  · rw [(hgood.tables.mem w hw).1]
    exact exMem_storable _
  · exact .uniform (by decide)
  · obtain ⟨a, ha⟩ := hten w hw
    rw [ha]
    rfl
  · intro i w hw
    have h1 := (hgood.tables.mem w (List.mem_of_getElem? hw)).1
    have h2 := handles_get hw
    have hi := (List.getElem?_eq_some_iff.mp hw).1
    rw [show (exSpaceObj history).space = exSpace history from rfl, hh] at h2
    rw [show (exSpaceObj history).space = exSpace history from rfl, hlen] at hi
    have : i = 0 ∨ i = 1 := by omega
    rcases this with rfl | rfl
    · simp at h2; rw [h1, ← h2]; rfl
    · simp at h2; rw [h1, ← h2]; rfl
  · intro i j hi hj h
    rw [show (exSpaceObj history).space = exSpace history from rfl, hlen] at hi hj
    have := congrArg BitVec.toNat h
    simp only [exHost, BitVec.toNat_ofNat] at this
    omega
  · rw [show (exSpaceObj history).space = exSpace history from rfl, hlen]
    decide

/-- `b` is active when `a = 1`; `b = 5` is forbidden. -/
def exPlain : List SpaceOp :=
  [.addParameter 1#64 none, .addParameter 2#64 none, .setCondition 1 (isValueAt 50#64 1#64 (exMem 1#64) 1#64),
   .addClause (isValueAt 60#64 2#64 (exMem 2#64) 5#64)]

/-- The condition of `b` is also forbidden: one expression used twice. -/
def exShared : List SpaceOp :=
  [.addParameter 1#64 none, .addParameter 2#64 none, .setCondition 1 (isValueAt 50#64 1#64 (exMem 1#64) 1#64),
   .addClause (isValueAt 50#64 1#64 (exMem 1#64) 1#64)]

/-- `a ∈ [b, 1]` is forbidden, then `b` is made active when `a = 1`. -/
def exLate : List SpaceOp :=
  [.addParameter 1#64 none, .addParameter 2#64 none, .addClause (isAmong 60#64 1#64 (exMem 1#64) 2#64 (exMem 2#64)),
   .setCondition 1 (isValueAt 50#64 1#64 (exMem 1#64) 1#64)]

theorem exCalls {history : List SpaceOp} (h : history = exPlain ∨ history = exShared ∨ history = exLate) :
    (∀ op ∈ history, WellCalled op) ∧ (∀ op ∈ history, SpaceOp.given op = []) ∧
    ∀ op ∈ history, ∀ e, givenExpr op = some e → Ordinary e := by
  have key : ∀ op ∈ history, (∃ h, op = .addParameter h none) ∨ ∃ e, Ordinary e ∧ ((∃ i, op = .setCondition i e) ∨ op = .addClause e) := by
    intro op hop
    rcases h with rfl | rfl | rfl
    all_goals
      simp only [exPlain, exShared, exLate, List.mem_cons, List.not_mem_nil, or_false] at hop
      rcases hop with rfl | rfl | rfl | rfl
    · exact .inl ⟨_, rfl⟩
    · exact .inl ⟨_, rfl⟩
    · exact .inr ⟨_, isValueAt_usable _ (by decide) _, .inl ⟨_, rfl⟩⟩
    · exact .inr ⟨_, isValueAt_usable _ (by decide) _, .inr rfl⟩
    · exact .inl ⟨_, rfl⟩
    · exact .inl ⟨_, rfl⟩
    · exact .inr ⟨_, isValueAt_usable _ (by decide) _, .inl ⟨_, rfl⟩⟩
    · exact .inr ⟨_, isValueAt_usable _ (by decide) _, .inr rfl⟩
    · exact .inl ⟨_, rfl⟩
    · exact .inl ⟨_, rfl⟩
    · exact .inr ⟨_, isAmong_usable _ (by decide) (by decide), .inr rfl⟩
    · exact .inr ⟨_, isValueAt_usable _ (by decide) _, .inl ⟨_, rfl⟩⟩
  refine ⟨fun op hop => ?_, fun op hop => ?_, fun op hop e he => ?_⟩
  · rcases key op hop with ⟨h, rfl⟩ | ⟨e, hu, ⟨i, rfl⟩ | rfl⟩
    · trivial
    · exact hu.1
    · exact hu.1
  · rcases key op hop with ⟨h, rfl⟩ | ⟨e, hu, ⟨i, rfl⟩ | rfl⟩ <;> rfl
  · rcases key op hop with ⟨h, rfl⟩ | ⟨e', hu, ⟨i, rfl⟩ | rfl⟩
    · cases he
    · obtain rfl := Option.some.inj he; exact hu
    · obtain rfl := Option.some.inj he; exact hu

theorem exPlain_stored : Stored exHost true exMem exMem' exDefault exStore (exSpaceObj exPlain) := by
  obtain ⟨h1, h2, h3⟩ := exCalls (.inl rfl : exPlain = exPlain ∨ _)
  exact exStored h1 h2 h3 (by decide +kernel) (by decide +kernel)

theorem exShared_stored : Stored exHost true exMem exMem' exDefault exStore (exSpaceObj exShared) := by
  obtain ⟨h1, h2, h3⟩ := exCalls (.inr (.inl rfl) : exShared = exPlain ∨ _)
  exact exStored h1 h2 h3 (by decide +kernel) (by decide +kernel)

theorem exLate_stored : Stored exHost true exMem exMem' exDefault exStore (exSpaceObj exLate) := by
  obtain ⟨h1, h2, h3⟩ := exCalls (.inr (.inr rfl) : exLate = exPlain ∨ _)
  exact exStored h1 h2 h3 (by decide +kernel) (by decide +kernel)

theorem exTen_back (history : List SpaceOp) : recreateAll exMachine ((exSpace history).dists.map fun w => exStore.dist w.dist.handle) =
    .ok ((exSpace history).dists.map fun w => exStore.dist w.dist.handle) := by
  refine DistObj.recreateAll_same fun c hm => ?_
  obtain ⟨w, -, rfl⟩ := List.mem_map.mp hm
  exact DistObj.recreate_same rfl exTen_built .uniform

theorem exPlain_default : DefaultEvaluates ieee exJen true (exSpace exPlain) := by
  have hst := exPlain_stored
  have ho := hst.good.graph.full (by decide +kernel)
  have hd : getDefault ieee exJen true (exSpace exPlain) = .ok [.int 0#64, .inactive] := by decide +kernel
  obtain ⟨a1, a2, a3⟩ := setActives_right ho (by simp) (CCS.defaults_active hst.good fun w hm =>
    (hst.storable.params w hm).1.created) hd
  have hall : (exSpace exPlain).clauses.all (fun c => isOk (evalOn ieee exJen true (exSpace exPlain) [.int 0#64, .inactive] c)) = true := by
    decide +kernel
  exact ⟨_, a2, a1, a3, fun c hc => exists_of_isOk (List.all_eq_true.mp hall c hc)⟩

/-- The hypotheses of the theorems on what comes back are met by a space with a condition and a clause. -/
example : Stored exHost exHost.little exMem exMem' exDefault exStore (exSpaceObj exPlain) ∧ (written (exSpaceObj exPlain)).Nodup ∧
    exHost.M.ops = ieee ∧ (∀ w ∈ (exSpaceObj exPlain).space.dists, SteadyDist (exStore.dist w.dist.handle)) ∧
    newGenerator exHost.gens (exSpaceObj exPlain).rng.name = .ok [0#8, 0#8, 0#8, 0#8] ∧ (exSpaceObj exPlain).rng.state.length = 4 ∧
    (exSpaceObj exPlain).space.clauses ≠ [] ∧ DefaultEvaluates exHost.M.ops exHost.jen exHost.little (exSpaceObj exPlain).space ∧
    ShowsDists exHost exStore (exSpaceObj exPlain).space ∧
    recreateAll exHost.M ((exSpaceObj exPlain).space.dists.map fun w => exStore.dist w.dist.handle) =
      .ok ((exSpaceObj exPlain).space.dists.map fun w => exStore.dist w.dist.handle) := by
  refine ⟨exPlain_stored, by decide +kernel, rfl, fun w _ => .uniform, by decide, rfl, ?_, exPlain_default, ?_, exTen_back exPlain⟩
  · intro h
    have : (exSpace exPlain).clauses.length = 1 := by decide +kernel
    rw [show (exSpace exPlain).clauses = [] from h] at this
    cases this
  · intro w hw a
    obtain ⟨b, hb⟩ := exTen_dists (exCalls (.inl rfl : exPlain = exPlain ∨ _)).1 (exCalls (.inl rfl : exPlain = exPlain ∨ _)).2.1 w hw
    rw [hb]
    exact ⟨rfl, rfl, rfl⟩

/-- One expression used as a condition and as a clause: the calls succeed, and the space cannot be read back. -/
example : Stored exHost true exMem exMem' exDefault exStore (exSpaceObj exShared) ∧ ¬ (written (exSpaceObj exShared)).Nodup ∧
    newGenerator exHost.gens (exSpaceObj exShared).rng.name = .ok [0#8, 0#8, 0#8, 0#8] ∧
    (∀ w ∈ (exSpaceObj exShared).space.dists, ∃ d, recreate exHost.M (exStore.dist w.dist.handle) = .ok d) ∧
    (exSpaceObj exShared).space.clauses.length = 1 :=
  ⟨exShared_stored, by decide +kernel, by decide, fun w _ => ⟨_, DistObj.recreate_same rfl exTen_built .uniform⟩, by decide +kernel⟩

/-- A condition set after a clause: the calls succeed, and the space cannot be read back. -/
example : Stored exHost exHost.little exMem exMem' exDefault exStore (exSpaceObj exLate) ∧ (written (exSpaceObj exLate)).Nodup ∧
    (exSpaceObj exLate).space.clauses ≠ [] ∧ ¬ DefaultEvaluates exHost.M.ops exHost.jen exHost.little (exSpaceObj exLate).space ∧
    (exSpaceObj exLate).space.clauses.length = 1 ∧ (conditionsOf (exSpaceObj exLate).space).length = 1 := by
  have hst := exLate_stored
  have hl : (exSpace exLate).clauses.length = 1 := by decide +kernel
  have hne : (exSpace exLate).clauses ≠ [] := by
    intro h
    rw [h] at hl
    cases hl
  refine ⟨hst, by decide +kernel, hne, fun hd => ?_, hl, by decide +kernel⟩
  have ho : EvalOrder (Spec.conditions (exSpace exLate)) (exSpace exLate).sorted := hst.good.graph.full (by decide +kernel)
  have h1 : getDefault ieee exJen true (exSpace exLate) = .ok [.int 0#64, .inactive] := by decide +kernel
  have h2 : (exSpace exLate).clauses.all (fun c => !isOk (evalOn ieee exJen true (exSpace exLate) [.int 0#64, .inactive] c)) = true := by
    decide +kernel
  cases hc : (exSpace exLate).clauses with
  | nil => exact hne hc
  | cons c cs =>
    obtain ⟨d, r, hsol, hev⟩ := (clauses_evaluate hst.good fun w hm => (hst.storable.params w hm).1.created).mpr (.inr hd) c
      (by show c ∈ (exSpace exLate).clauses; rw [hc]; simp)
    have heq : [.int 0#64, .inactive] = d := Out.ok.inj (h1.symm.trans ((setActives_iff ho (by simp)).mpr hsol))
    subst heq
    rw [hc] at h2
    have := List.all_eq_true.mp h2 c (by simp)
    rw [show evalOn ieee exJen true (exSpace exLate) [.int 0#64, .inactive] c = .ok r from hev] at this
    cases this

end CCS.Props
