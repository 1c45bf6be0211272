import Verif.Lemmas.SpaceBuild
import Verif.Lemmas.DistRestore
import Verif.Lemmas.SpaceClause

/-! Helper lemmas about the serialization of configuration spaces: making the same calls again gives the same space. -/

namespace CCS

open Spec

/-! ### Dimensions -/

section
variable {σ : Type} {M : Machine σ}

theorem recreateAll_get : ∀ {ds cs : List DistObj}, recreateAll M ds = .ok cs →
    cs.length = ds.length ∧ ∀ (j : Nat) c d, cs[j]? = some c → ds[j]? = some d → recreate M d = .ok c
  | [], cs, h => by
    rw [recreateAll] at h
    cases h
    exact ⟨rfl, by simp⟩
  | d :: ds, cs, h => by
    rw [recreateAll] at h
    obtain ⟨c, h1, h⟩ := bind_eq_ok h
    obtain ⟨cs', h2, h⟩ := bind_eq_ok h
    cases h
    obtain ⟨h3, h4⟩ := recreateAll_get h2
    refine ⟨by simp [h3], ?_⟩
    intro j c' d' hc hd
    cases j with
    | zero => simp at hc hd; subst hc hd; exact h1
    | succ j => exact h4 j c' d' (by simpa using hc) (by simpa using hd)

theorem createMixture_dim {ds : List (Sampler σ)} {ws : List F64} {s : Sampler σ} (h : createMixture M ds ws = .ok s) :
    ∃ d others, ds = d :: others ∧ s.dim = d.dim := by
  unfold createMixture at h
  split at h
  · cases h
  · rename_i d others
    refine ⟨d, others, rfl, ?_⟩
    split at h
    · cases h
    split at h
    · cases h
    obtain ⟨_, -, h⟩ := bind_eq_ok h
    obtain ⟨_, -, h⟩ := bind_eq_ok h
    obtain ⟨_, -, h⟩ := bind_eq_ok h
    obtain ⟨_, -, h⟩ := bind_eq_ok h
    obtain ⟨_, -, h⟩ := bind_eq_ok h
    obtain ⟨_, -, h⟩ := bind_eq_ok h
    obtain ⟨_, -, h⟩ := bind_eq_ok h
    cases h
    rfl

theorem newMixture_dim {ds : List DistObj} {ws : List F64} {d : DistObj} (h : DistObj.newMixture M ds ws = .ok d) :
    ∃ m c cs, d = .mixture m ds [] ∧ ds = c :: cs ∧ m.dim = (DistObj.sampler M c).dim := by
  unfold DistObj.newMixture at h
  obtain ⟨s, h1, h⟩ := bind_eq_ok h
  cases h
  obtain ⟨x, others, h2, h3⟩ := createMixture_dim h1
  cases ds with
  | nil => simp [DistObj.samplers] at h2
  | cons c cs =>
    simp only [DistObj.samplers, List.cons.injEq] at h2
    exact ⟨_, c, cs, rfl, rfl, by rw [h2.1]; exact h3⟩

theorem samplers_dims : ∀ {ds cs : List DistObj}, cs.length = ds.length →
    (∀ (j : Nat) c d, cs[j]? = some c → ds[j]? = some d → (DistObj.sampler M c).dim = (DistObj.sampler M d).dim) →
    (DistObj.samplers M cs).map (·.dim) = (DistObj.samplers M ds).map (·.dim)
  | [], [], _, _ => rfl
  | [], _ :: _, h, _ => by simp at h
  | _ :: _, [], h, _ => by simp at h
  | d :: ds, c :: cs, h, hd => by
    rw [DistObj.samplers, DistObj.samplers, List.map_cons, List.map_cons, hd 0 c d rfl rfl,
      samplers_dims (by simpa using h) fun j c' d' hc hd' => hd (j + 1) c' d' (by simpa using hc) (by simpa using hd')]

/-- Creating a distribution again keeps its dimension, which is not zero. -/
theorem recreate_dim {d : DistObj} (hb : BuiltDist M d) : 0 < (DistObj.sampler M d).dim ∧
    ∀ d', recreate M d = .ok d' → (DistObj.sampler M d').dim = (DistObj.sampler M d).dim := by
  induction hb with
  | uniform h data =>
    unfold DistObj.newUniform at h
    obtain ⟨_, -, h⟩ := bind_eq_ok h
    obtain ⟨u, -, h⟩ := bind_eq_ok h
    cases h
    refine ⟨by simp [DistObj.withData, DistObj.sampler], fun d' hd => ?_⟩
    rw [DistObj.withData, recreate] at hd
    unfold DistObj.newUniform at hd
    obtain ⟨e, h1, h⟩ := bind_eq_ok hd
    obtain ⟨_, -, h1⟩ := bind_eq_ok h1
    obtain ⟨u', -, h1⟩ := bind_eq_ok h1
    cases h1
    cases h
    rfl
  | normal h data =>
    unfold DistObj.newNormal at h
    obtain ⟨_, -, h⟩ := bind_eq_ok h
    obtain ⟨_, -, h⟩ := bind_eq_ok h
    cases h
    refine ⟨by simp [DistObj.withData, DistObj.sampler], fun d' hd => ?_⟩
    rw [DistObj.withData, recreate] at hd
    unfold DistObj.newNormal at hd
    obtain ⟨e, h1, h⟩ := bind_eq_ok hd
    obtain ⟨_, -, h1⟩ := bind_eq_ok h1
    obtain ⟨_, -, h1⟩ := bind_eq_ok h1
    cases h1
    cases h
    rfl
  | roulette h data =>
    unfold DistObj.newRoulette at h
    obtain ⟨u, -, h⟩ := bind_eq_ok h
    cases h
    refine ⟨by simp [DistObj.withData, DistObj.sampler], fun d' hd => ?_⟩
    rw [DistObj.withData, recreate] at hd
    unfold DistObj.newRoulette at hd
    obtain ⟨e, h1, h⟩ := bind_eq_ok hd
    obtain ⟨_, -, h1⟩ := bind_eq_ok h1
    cases h1
    cases h
    rfl
  | mixture hc h data ih =>
    obtain ⟨m, c, cs, rfl, rfl, hm⟩ := newMixture_dim h
    refine ⟨by rw [DistObj.withData, DistObj.sampler]; show 0 < m.dim; rw [hm]; exact (ih c (by simp)).1, fun d' hd => ?_⟩
    rw [DistObj.withData, recreate] at hd
    obtain ⟨es, h1, hd⟩ := bind_eq_ok hd
    obtain ⟨e, h2, hd⟩ := bind_eq_ok hd
    cases hd
    obtain ⟨m', c', cs', rfl, rfl, hm'⟩ := newMixture_dim h2
    obtain ⟨-, h3⟩ := recreateAll_get h1
    rw [DistObj.withData, DistObj.withData, DistObj.sampler, DistObj.sampler]
    show m'.dim = m.dim
    rw [hm, hm']
    exact (ih c (by simp)).2 c' (h3 0 c' c rfl rfl)
  | @multivariate ds d hc h data ih =>
    unfold DistObj.newMultivariate at h
    obtain ⟨u, h0, h⟩ := bind_eq_ok h
    cases h
    refine ⟨?_, fun d' hd => ?_⟩
    · rw [DistObj.withData, DistObj.sampler]
      cases ds with
      | nil => simp [createMultivariate, DistObj.samplers] at h0
      | cons c cs =>
        have := (ih c (by simp)).1
        simp only [DistObj.samplers, List.map_cons, List.sum_cons]
        omega
    · rw [DistObj.withData, recreate] at hd
      obtain ⟨es, h1, hd⟩ := bind_eq_ok hd
      obtain ⟨e, h2, hd⟩ := bind_eq_ok hd
      cases hd
      unfold DistObj.newMultivariate at h2
      obtain ⟨_, -, h2⟩ := bind_eq_ok h2
      cases h2
      obtain ⟨h3, h4⟩ := recreateAll_get h1
      rw [DistObj.withData, DistObj.withData, DistObj.sampler, DistObj.sampler]
      show ((DistObj.samplers M es).map (·.dim)).sum = _
      rw [samplers_dims h3 fun j c d hc' hd' => (ih d (List.mem_of_getElem? hd')).2 c (h4 j c d hc' hd')]

/-- What is needed to make the calls again. -/
theorem placed_dims {H : Host σ} (hH : SoundHost H) {hp : Heap} {s : Space} (hd : HoldsDists H.M hp s) (hpt : Parts s)
    {ds : List DistObj} (h : recreateAll H.M (s.dists.map fun w => hp.dist w.dist.handle) = .ok ds) :
    ds.length = s.dists.length ∧
    ∀ (j : Nat) d w, ds[j]? = some d → s.dists[j]? = some w → (H.view (H.distAt j) d).dim = w.indexes.length := by
  obtain ⟨h1, h2⟩ := recreateAll_get h
  refine ⟨by simpa using h1, fun j d w hj hw => ?_⟩
  have hr := h2 j d _ hj (by rw [List.getElem?_map, hw]; rfl)
  obtain ⟨hb, hdim⟩ := hd w (List.mem_of_getElem? hw)
  rw [hH.dim, (recreate_dim hb).2 d hr, ← hdim, hpt.dim w (List.mem_of_getElem? hw)]

end

/-! ### What is written can be read -/

section
variable {ops : FloatOps} {jen : Bytes → BitVec 32} {little : Bool} {mem : BitVec 64 → Param} {mk : Nat → Param → Out Dist}

theorem readable_of {hp : Heap} {o : SpaceObj} (hmk : OneDimensional mk) (hr : Reachable ops jen little mem mk o.space)
    (hs : StorableSpace ops jen little hp o) : ReadableSpace ops jen little hp o := by
  have hg := reachable_good hmk hr
  have hw := reachable_witnessed hmk hr
  refine ⟨hs.name, hs.rng, hs.data, hs.params, fun w hm e he => ⟨hg.graph.built w hm e he, hs.conditions w hm e he, ?_⟩, hs.dists,
    hg.parts.cover, fun e he => ⟨(hs.clauses e he).1, (hs.clauses e he).2, (hw e he).1⟩, ?_⟩
  · intro x hx
    obtain ⟨j, c, hj⟩ := hg.graph.known w hm e he x hx
    simp only [Spec.conditions, List.getElem?_map, Option.map_eq_some_iff, Prod.mk.injEq] at hj
    obtain ⟨v, hv, rfl, -⟩ := hj
    exact List.mem_map.mpr ⟨v, List.mem_of_getElem? hv, rfl⟩
  · have : (conditionList 0 o.space.params).length = (conditionsOf o.space).length := by
      have := congrArg List.length (conditionList_of o.space.params 0)
      simpa [conditionsOf] using this
    rw [this]
    exact hs.size

end

/-! ### Expressions with other variables -/

theorem occurs_relabel {f : BitVec 64 → BitVec 64 × Param} {x : BitVec 64} : ∀ {e : Expr},
    Occurs x (relabel f e) → ∃ y, Occurs y e ∧ x = (f y).1 := by
  intro e
  induction e using Expr.induct with
  | hl o v => intro h; simp only [relabel] at h; cases h
  | hv o h p => intro hx; simp only [relabel] at hx; cases hx; exact ⟨h, .here, rfl⟩
  | hn o op args ih =>
    intro h
    simp only [relabel, relabelAll_eq] at h
    cases h with
    | inside ha hx =>
      obtain ⟨a, ham, rfl⟩ := List.mem_map.mp ha
      obtain ⟨y, hy, rfl⟩ := ih a ham hx
      exact ⟨y, .inside ham hy, rfl⟩

theorem occurs_relabel_of {f : BitVec 64 → BitVec 64 × Param} {y : BitVec 64} {e : Expr} (h : Occurs y e) :
    Occurs (f y).1 (relabel f e) := by
  induction e using Expr.induct with
  | hl o v => cases h
  | hv o x p => cases h; simp only [relabel]; exact .here
  | hn o op args ih =>
    cases h with
    | inside ha hx =>
      simp only [relabel, relabelAll_eq]
      exact .inside (List.mem_map.mpr ⟨_, ha, rfl⟩) (ih _ ha hx)

theorem occursAs_occurs {h : BitVec 64} {p : Param} {e : Expr} (hx : OccursAs h p e) : Occurs h e := by
  induction hx with
  | here => exact .here
  | inside ha _ ih => exact .inside ha ih

theorem built_relabel {f : BitVec 64 → BitVec 64 × Param} (hf : ∀ x, (f x).1 ≠ 0#64) {e : Expr} (hb : Built e) :
    Built (relabel f e) := by
  induction e using Expr.induct with
  | hl o v => simpa only [relabel] using hb
  | hv o h p =>
    simp only [relabel]
    exact .var (o := o) (h := (f h).1) (p := (f h).2) (by rw [createVariable, if_neg (hf h)])
  | hn o op args ih =>
    have hargs : (∀ a, op.arity = some a → args.length = a) ∧ ∀ a ∈ args, Built a := by
      rcases built_cases hb with ⟨_, _, h, -⟩ | ⟨_, _, _, h, -⟩ | ⟨_, _, _, h, ha, hb'⟩ <;> cases h
      exact ⟨ha, hb'⟩
    simp only [relabel, relabelAll_eq]
    refine .expression (o := o) (os := []) (type := op.code) (nodes := (args.map (relabel f)).map Node.expr) ?_ ?_
    · unfold createExpression
      rw [ofCode_code]
      simp only
      rw [findSome_expr, makeNodes_expr]
      have : arityMismatch op ((args.map (relabel f)).map Node.expr).length = false := by
        unfold arityMismatch
        cases har : op.arity with
        | none => rfl
        | some a =>
          have := hargs.1 a har
          simp [this]
      rw [this]
      rfl
    · intro x hx
      obtain ⟨y, hy, hxy⟩ := List.mem_map.mp hx
      cases hxy
      obtain ⟨a, ha, rfl⟩ := List.mem_map.mp hy
      exact ih a ha (hargs.2 a ha)

/-! ### The parameters and their conditions -/

/-- A space, and a process that can create its parameters again. -/
structure Setting (paramAt : Nat → BitVec 64) (mem mem' : BitVec 64 → Param) (mk' : Nat → Param → Out Dist) (s : Space) : Prop where
  good : Good mem s
  inj : ∀ i j, i < s.params.length → j < s.params.length → paramAt i = paramAt j → i = j
  nonnull : ∀ i, paramAt i ≠ 0#64
  mem' : ∀ (i : Nat) w, s.params[i]? = some w → mem' (paramAt i) = w.param
  one : OneDimensional mk'
  total : ∀ w ∈ s.params, ∀ id, ∃ d, mk' id w.param = .ok d
  small : s.params.length < 2 ^ 32

/-- Parameters created again, with the first `k` conditions. -/
structure Copied (paramAt : Nat → BitVec 64) (s s' : Space) (n k : Nat) : Prop where
  length : s'.params.length = n
  at' : ∀ (i : Nat) w, i < n → s.params[i]? = some w → ∃ w', s'.params[i]? = some w' ∧ w'.handle = paramAt i ∧
    w'.param = w.param ∧ w'.condition = if i < k then w.condition.map (relabel (follow paramAt s)) else none

section
variable {ops : FloatOps} {jen : Bytes → BitVec 32} {little : Bool} {paramAt : Nat → BitVec 64} {mem mem' : BitVec 64 → Param}
  {mk' : Nat → Param → Out Dist} {s : Space}

theorem nodup_index {α : Type} {l : List α} (hn : l.Nodup) {i j : Nat} (hi : i < l.length)
    (h : l[i]? = l[j]?) : i = j := by
  exact (List.getElem?_inj hi hn).mp h

theorem get_of_lt {α : Type} {l : List α} {i : Nat} (h : i < l.length) : ∃ x, l[i]? = some x := ⟨l[i], List.getElem?_eq_getElem h⟩

theorem names_differ (hs : Setting paramAt mem mem' mk' s) {i j : Nat} {v w : PWrap} (hi : s.params[i]? = some v)
    (hj : s.params[j]? = some w) (h : v.param.name = w.param.name) : i = j := by
  have hn := hs.good.tables.names
  have hil := (List.getElem?_eq_some_iff.mp hi).1
  refine (nodup_index hn (by simpa using hil) ?_)
  rw [List.getElem?_map, List.getElem?_map, hi, hj, Option.map_some, Option.map_some, h]

/-- The parameters. -/
theorem perform_parameters (hs : Setting paramAt mem mem' mk' s) : ∀ k, k ≤ s.params.length →
    ∃ s', perform ops jen little mem' mk' Space.empty ((List.range k).map fun i => .addParameter (paramAt i) none) = .ok s' ∧
      Good mem' s' ∧ Copied paramAt s s' k 0 ∧ s'.clauses = [] ∧ s'.graphOk = true ∧ ∀ d ∈ s'.dists, ∃ i, d.indexes = [i]
  | 0, _ => ⟨Space.empty, rfl, good_empty mem', ⟨rfl, fun i w h => by omega⟩, rfl, rfl, by simp [Space.empty]⟩
  | k + 1, hk => by
    obtain ⟨s', h1, h2, h3, h4, h5, h6⟩ := perform_parameters hs k (by omega)
    obtain ⟨w, hw⟩ := get_of_lt (show k < s.params.length by omega)
    have hmem := hs.mem' k w hw
    have hstr : (mem' (paramAt k)).isString = false := by
      rw [hmem]; exact (hs.good.tables.mem w (List.mem_of_getElem? hw)).2
    have hnames : s'.entries.any (fun e => decide (e.name = (mem' (paramAt k)).name)) = false := by
      rw [List.any_eq_false]
      intro e he
      obtain ⟨i, hi, hei⟩ := List.mem_iff_getElem.mp he
      obtain ⟨w', hw', rfl⟩ := h2.tables.indexed.2 i e (by rw [List.getElem?_eq_getElem hi, hei])
      have hik : i < k := by
        have := (List.getElem?_eq_some_iff.mp hw').1
        rw [h3.length] at this
        exact this
      obtain ⟨v, hv⟩ := get_of_lt (show i < s.params.length by omega)
      obtain ⟨v', hv', -, hp, -⟩ := h3.at' i v hik hv
      have : w' = v' := Option.some.inj (hw'.symm.trans hv')
      subst this
      simp only [decide_eq_true_eq]
      intro hname
      have := names_differ hs hv hw (by rw [← hp, hname, hmem])
      omega
    obtain ⟨d, hd⟩ := hs.total w (List.mem_of_getElem? hw) s'.nextId
    have hadd : addParameter mem' mk' s' (paramAt k) none = (s'.pushParameter (paramAt k) w.param d, .ok ()) := by
      unfold addParameter
      simp only [hstr, hnames, chooseDistribution]
      rw [hmem, hd]
      rfl
    refine ⟨s'.pushParameter (paramAt k) w.param d, ?_, ?_, ⟨?_, ?_⟩, h4, h5, ?_⟩
    · rw [List.range_succ, List.map_append, perform_append, h1, Out.bind_ok, List.map_cons, List.map_nil, perform_cons]
      show afterCall (addParameter mem' mk' s' (paramAt k) none) >>= _ = _
      rw [hadd]
      rfl
    · have := (step_good (ops := ops) (jen := jen) (little := little) hs.one h2 (op := .addParameter (paramAt k) none) trivial).1
      simp only [Space.step] at this
      rw [hadd] at this
      exact this
    · simp [Space.pushParameter, h3.length]
    · intro i v hi hv
      simp only [Space.pushParameter]
      by_cases hik : i < k
      · obtain ⟨v', hv', a1, a2, a3⟩ := h3.at' i v hik hv
        exact ⟨v', by rw [List.getElem?_append_left (by rw [h3.length]; exact hik)]; exact hv', a1, a2, a3⟩
      · have : i = k := by omega
        subst this
        have hvw : v = w := Option.some.inj (hv.symm.trans hw)
        subst hvw
        exact ⟨⟨paramAt i, v.param, s'.nextId, 0, none, [], []⟩, by
          rw [List.getElem?_append_right (by rw [h3.length]; exact Nat.le_refl _), h3.length]; simp, rfl, rfl, by simp⟩
    · intro x hx
      simp only [Space.pushParameter, List.mem_append, List.mem_singleton] at hx
      rcases hx with hx | rfl
      · exact h6 x hx
      · exact ⟨_, rfl⟩

/-- Address of a known variable after reading. -/
theorem follow_get (ht : s.handles.Nodup) {j : Nat} {w : PWrap} (hw : s.params[j]? = some w) :
    follow paramAt s w.handle = (paramAt j, w.param) := by
  have hj := handles_get hw
  have hidx : s.handles.idxOf w.handle = j := by
    have hmem : w.handle ∈ s.handles := List.mem_of_getElem? hj
    have h1 : s.handles.idxOf w.handle < s.handles.length := List.idxOf_lt_length_of_mem hmem
    have h2 : s.handles[s.handles.idxOf w.handle]? = some w.handle := by
      rw [List.getElem?_eq_getElem h1, List.getElem_idxOf]
    exact nodup_index ht h1 (h2.trans hj.symm)
  unfold follow
  rw [hidx, hw]
  rfl

/-- Dependencies in a copy are dependencies of the original. -/
theorem copied_depends (hs : Setting paramAt mem mem' mk' s) {ps : List (BitVec 64 × Option Expr)}
    (hps : ∀ (i : Nat) h c, ps[i]? = some (h, c) → ∃ w, s.params[i]? = some w ∧ h = paramAt i ∧
      ∀ e', c = some e' → ∃ e, w.condition = some e ∧ e' = relabel (follow paramAt s) e) {i j : Nat}
    (h : DependsOn ps i j) : DependsOn (Spec.conditions s) i j := by
  obtain ⟨h, e', h', c, hi, hj, ho⟩ := h
  obtain ⟨w, hw, rfl, hc⟩ := hps i _ _ hi
  obtain ⟨v, hv, rfl, -⟩ := hps j _ _ hj
  obtain ⟨e, he, rfl⟩ := hc e' rfl
  obtain ⟨y, hy, hxy⟩ := occurs_relabel ho
  obtain ⟨l, c', hl⟩ := hs.good.graph.known w (List.mem_of_getElem? hw) e he y hy
  obtain ⟨u, hu, rfl, -⟩ := conditions_some hl
  rw [follow_get hs.good.tables.handles hu] at hxy
  have : j = l := hs.inj _ _ (List.getElem?_eq_some_iff.mp hv).1 (List.getElem?_eq_some_iff.mp hu).1 hxy
  subst this
  refine ⟨_, e, _, _, by rw [conditions_get hw, he], conditions_get hu, hy⟩

theorem chain_mono {R S : Nat → Nat → Prop} (h : ∀ i j, R i j → S i j) {i j : Nat} (hc : Chain R i j) : Chain S i j := by
  induction hc with
  | one h1 => exact .one (h _ _ h1)
  | more h1 _ ih => exact .more (h _ _ h1) ih

theorem copied_acyclic (hs : Setting paramAt mem mem' mk' s) {ps : List (BitVec 64 × Option Expr)}
    (hps : ∀ (i : Nat) h c, ps[i]? = some (h, c) → ∃ w, s.params[i]? = some w ∧ h = paramAt i ∧
      ∀ e', c = some e' → ∃ e, w.condition = some e ∧ e' = relabel (follow paramAt s) e) : Acyclic ps :=
  fun i hc => hs.good.graph.acyclic i (chain_mono (fun _ _ h => copied_depends hs hps h) hc)

theorem Copied.conditions {s' : Space} {k : Nat} (h : Copied paramAt s s' s.params.length k) {i : Nat} {x : BitVec 64} {c : Option Expr}
    (hi : (Spec.conditions s')[i]? = some (x, c)) : ∃ w, s.params[i]? = some w ∧ x = paramAt i ∧
      ∀ e', c = some e' → ∃ e, w.condition = some e ∧ e' = relabel (follow paramAt s) e := by
  obtain ⟨w', hw', rfl, rfl⟩ := conditions_some hi
  have hlt := (List.getElem?_eq_some_iff.mp hw').1
  rw [h.length] at hlt
  obtain ⟨w, hw⟩ := get_of_lt hlt
  obtain ⟨v, hv, a1, a2, a3⟩ := h.at' i w hlt hw
  have : w' = v := Option.some.inj (hw'.symm.trans hv)
  subst this
  refine ⟨w, hw, a1, fun e' he => ?_⟩
  rw [a3] at he
  split at he
  · obtain ⟨e, h1, h2⟩ := Option.map_eq_some_iff.mp he
    exact ⟨e, h1, h2.symm⟩
  · cases he

theorem follow_nonnull (hs : Setting paramAt mem mem' mk' s) (x : BitVec 64) : (follow paramAt s x).1 ≠ 0#64 := hs.nonnull _

/-- One condition. -/
theorem perform_condition (hs : Setting paramAt mem mem' mk' s) {s' : Space} {k : Nat} (hg : Good mem' s')
    (hc : Copied paramAt s s' s.params.length k) {w : PWrap} {e : Expr} (hw : s.params[k]? = some w) (he : w.condition = some e) :
    ∃ s'', setCondition s' k (relabel (follow paramAt s) e) = (s'', .ok ()) ∧ Good mem' s'' ∧
      Copied paramAt s s'' s.params.length (k + 1) ∧ s''.clauses = s'.clauses ∧ s''.graphOk = true ∧ s''.dists = s'.dists := by
  have hk := (List.getElem?_eq_some_iff.mp hw).1
  have hu : toUint k = k := by
    have := hs.small
    unfold toUint
    omega
  obtain ⟨w', hw', -, -, hnone⟩ := hc.at' k w hk hw
  rw [if_neg (show ¬ k < k by omega)] at hnone
  have hb : Built (relabel (follow paramAt s) e) :=
    built_relabel (follow_nonnull hs) (hs.good.graph.built w (List.mem_of_getElem? hw) e he)
  have hknown : Known (Spec.conditions s') (relabel (follow paramAt s) e) := by
    intro x hx
    obtain ⟨y, hy, rfl⟩ := occurs_relabel hx
    obtain ⟨l, c', hl⟩ := hs.good.graph.known w (List.mem_of_getElem? hw) e he y hy
    obtain ⟨u, hu, rfl, -⟩ := conditions_some hl
    rw [follow_get hs.good.tables.handles hu]
    obtain ⟨u', hu', h1, -⟩ := hc.at' l u (List.getElem?_eq_some_iff.mp hu).1 hu
    exact ⟨l, _, by rw [conditions_get hu', h1]⟩
  have hacyc : Acyclic ((Spec.conditions s').modify k fun x => (x.1, some (relabel (follow paramAt s) e))) := by
    refine copied_acyclic hs fun i h c hi => ?_
    rw [List.getElem?_modify] at hi
    obtain ⟨x, hx, hxe⟩ := Option.map_eq_some_iff.mp hi
    obtain ⟨v, hv, h1, h2⟩ := hc.conditions hx
    split at hxe
    · rename_i hki
      subst hki
      cases hxe
      have hvw : v = w := Option.some.inj (hv.symm.trans hw)
      subst hvw
      exact ⟨v, hv, h1, fun e' h => ⟨e, he, (Option.some.inj h).symm⟩⟩
    · cases hxe
      exact ⟨v, hv, h1, h2⟩
  rcases setCondition_outcomes hg.tables hg.graph k hb with ⟨h, -⟩ | ⟨v, c, h, h1, -⟩ | ⟨v, s'', r, h, -, hset, hr⟩
  · rw [hu, hw'] at h; cases h
  · rw [hu, hw'] at h; cases h; rw [hnone] at h1; cases h1
  · rw [hu] at h hr
    rcases hr with ⟨rfl, -, -, hsame, ht, hgr, hok⟩ | ⟨-, -, hno, -⟩ | ⟨-, hno, -⟩
    · refine ⟨s'', hset, ⟨ht, hgr, hsame.parts (withCondition_parts hg.parts _ _)⟩, ⟨?_, ?_⟩, hsame.clauses, hok, hsame.dists⟩
      · rw [hsame.length]
        simp [Space.withCondition, hc.length]
      · intro i v' hi hv'
        obtain ⟨u, hu', a1, a2, a3⟩ := hc.at' i v' hi hv'
        have hget : (s'.withCondition k (some (relabel (follow paramAt s) e))).params[i]? = some (if k = i then
            { u with condition := some (relabel (follow paramAt s) e) } else u) := by
          rw [withCondition_get, hu']
          rfl
        obtain ⟨u', hu'', hcore⟩ := core_some hsame.symm.params hget
        obtain ⟨b1, b2, -, -, b5⟩ := core_fields hcore
        refine ⟨u', hu'', ?_, ?_, ?_⟩
        · rw [← b1]
          split <;> exact a1
        · rw [← b2]
          split <;> exact a2
        · rw [← b5]
          by_cases hki : k = i
          · subst hki
            have hvw : v' = w := Option.some.inj (hv'.symm.trans hw)
            subst hvw
            rw [if_pos rfl, if_pos (by omega), he]
            rfl
          · rw [if_neg hki, a3]
            by_cases hlt : i < k
            · rw [if_pos hlt, if_pos (by omega)]
            · rw [if_neg hlt, if_neg (by omega)]
    · exact absurd hacyc hno
    · exact absurd hknown hno

/-- The conditions. -/
theorem perform_conditions (hs : Setting paramAt mem mem' mk' s) : ∀ (ws : List PWrap) (k : Nat) (s' : Space),
    s.params.drop k = ws → k ≤ s.params.length → Good mem' s' → Copied paramAt s s' s.params.length k → s'.graphOk = true →
    ∃ s'', perform ops jen little mem' mk' s' ((ws.zipIdx k).filterMap fun x => x.1.condition.map fun e =>
        .setCondition x.2 (relabel (follow paramAt s) e)) = .ok s'' ∧ Good mem' s'' ∧
      Copied paramAt s s'' s.params.length s.params.length ∧ s''.clauses = s'.clauses ∧ s''.graphOk = true ∧ s''.dists = s'.dists
  | [], k, s', hd, hk, hg, hc, hok => by
    have : k = s.params.length := by
      have := congrArg List.length hd
      simp at this
      omega
    subst this
    exact ⟨s', rfl, hg, hc, rfl, hok, rfl⟩
  | w :: ws, k, s', hd, hk, hg, hc, hok => by
    have hw : s.params[k]? = some w := by
      have := congrArg (fun l => l[0]?) hd
      simpa [List.getElem?_drop] using this
    have hk' := (List.getElem?_eq_some_iff.mp hw).1
    have hd' : s.params.drop (k + 1) = ws := by
      have := congrArg (List.drop 1) hd
      simpa [List.drop_drop, Nat.add_comm] using this
    rw [List.zipIdx_cons, List.filterMap_cons]
    cases he : w.condition with
    | none =>
      simp only [Option.map_none]
      refine perform_conditions hs ws (k + 1) s' hd' (by omega) hg ⟨hc.length, fun i v hi hv => ?_⟩ hok
      obtain ⟨v', hv', a1, a2, a3⟩ := hc.at' i v hi hv
      refine ⟨v', hv', a1, a2, ?_⟩
      rw [a3]
      by_cases hik : i = k
      · subst hik
        have hvw : v = w := Option.some.inj (hv.symm.trans hw)
        subst hvw
        simp [he]
      · by_cases hlt : i < k
        · rw [if_pos hlt, if_pos (by omega)]
        · rw [if_neg hlt, if_neg (by omega)]
    | some e =>
      simp only [Option.map_some]
      obtain ⟨s₁, h1, h2, h3, h4, h5, h6⟩ := perform_condition hs hg hc hw he
      obtain ⟨s₂, g1, g2, g3, g4, g5, g6⟩ := perform_conditions hs ws (k + 1) s₁ hd' (by omega) h2 h3 h5
      refine ⟨s₂, ?_, g2, g3, g4.trans h4, g5, g6.trans h6⟩
      rw [perform_cons]
      show afterCall (setCondition s' k _) >>= _ = _
      rw [h1]
      exact g1

/-! ### The distributions -/

theorem defaultWrappers_err {ws : List PWrap} (h : ∀ w ∈ ws, ∀ id, ∃ d, mk' id w.param = .ok d) : ∀ (is : List Nat) (id : Nat) (e : Err),
    defaultWrappers mk' ws id is ≠ .err e
  | [], id, e => by simp [defaultWrappers]
  | i :: is, id, e => by
    unfold defaultWrappers
    cases hw : ws[i]? with
    | none => simp
    | some w =>
      obtain ⟨d, hd⟩ := h w (List.mem_of_getElem? hw) id
      simp only [hd, Out.bind_ok]
      have ih := defaultWrappers_err h is (id + 1)
      cases hr : defaultWrappers mk' ws (id + 1) is with
      | ok r => simp
      | err x => exact absurd hr (ih x)
      | ub => simp

theorem defaultWrappers_ub {ws : List PWrap} (h : ∀ w ∈ ws, ∀ id, ∃ d, mk' id w.param = .ok d) : ∀ (is : List Nat) (id : Nat),
    (∀ i ∈ is, i < ws.length) → defaultWrappers mk' ws id is ≠ .ub
  | [], id, _ => by simp [defaultWrappers]
  | i :: is, id, hi => by
    unfold defaultWrappers
    obtain ⟨w, hw⟩ := get_of_lt (hi i (by simp))
    obtain ⟨d, hd⟩ := h w (List.mem_of_getElem? hw) id
    simp only [hw, hd, Out.bind_ok]
    have ih := defaultWrappers_ub h is (id + 1) fun j hj => hi j (by simp [hj])
    cases hr : defaultWrappers mk' ws (id + 1) is with
    | ok r => simp
    | err x => simp
    | ub => exact absurd hr ih

theorem Copied.total (hs : Setting paramAt mem mem' mk' s) {s' : Space} {k : Nat} (hc : Copied paramAt s s' s.params.length k) :
    ∀ w ∈ s'.params, ∀ id, ∃ d, mk' id w.param = .ok d := by
  intro w hw id
  obtain ⟨i, hi, hwi⟩ := List.mem_iff_getElem.mp hw
  rw [hc.length] at hi
  obtain ⟨v, hv⟩ := get_of_lt hi
  obtain ⟨v', hv', -, hp, -⟩ := hc.at' i v hi hv
  have : w = v' := Option.some.inj (by rw [← hv', List.getElem?_eq_getElem (by rw [hc.length]; exact hi), hwi])
  rw [this, hp]
  exact hs.total v (List.mem_of_getElem? hv) id

/-- The distributions of a copy while they are set: some single default distributions, then those already set. -/
structure Placed (s' : Space) (olds news : List DWrap) (done : List (Dist × List Nat)) : Prop where
  dists : s'.dists = olds ++ news
  single : ∀ d ∈ olds, ∃ i, d.indexes = [i]
  done : news.map (fun d => (d.dist, d.indexes)) = done

/-- One distribution. -/
theorem perform_distribution (ops : FloatOps) (jen : Bytes → BitVec 32) (little : Bool) (hs : Setting paramAt mem mem' mk' s) {s' : Space} (hg : Good mem' s')
    (hc : Copied paramAt s s' s.params.length s.params.length) {olds news : List DWrap} {done : List (Dist × List Nat)}
    (hp : Placed s' olds news done) {d : Dist} {idx : List Nat} (h0 : 0 < idx.length) (hd : d.dim = idx.length)
    (hb : ∀ i ∈ idx, i < s.params.length) (hn : idx.Nodup) (hdis : ∀ i ∈ idx, i ∉ done.flatMap (·.2)) :
    ∃ s'' olds' news', setDistribution mk' s' d idx = (s'', .ok ()) ∧ Good mem' s'' ∧
      Copied paramAt s s'' s.params.length s.params.length ∧ s''.clauses = s'.clauses ∧ s''.graphOk = s'.graphOk ∧
      Placed s'' olds' news' (done ++ [(d, idx)]) := by
  have htake : idx.take d.dim = idx := by rw [hd]; simp
  have hb' : ∀ i ∈ idx, i < s'.params.length := by rw [hc.length]; exact hb
  rcases plan_spec hs.one hg.parts hb' hn h0 hd with
    ⟨del, added, left, hplan, hdw, hdel, hperm⟩ | ⟨e, -, left, hle⟩ | ⟨-, left, hlb, hle⟩
  · have hnd : ((idx ++ left) ++ (s'.dists.filter fun w => !del.contains w.id).flatMap (·.indexes)).Nodup :=
      hperm.nodup_iff.2 hg.parts.nodup
    obtain ⟨hn1, -, hn2⟩ := List.nodup_append.mp hnd
    obtain ⟨-, -, hn3⟩ := List.nodup_append.mp hn1
    -- a deleted wrapper has one of the indexes
    have hhit : ∀ w ∈ s'.dists, w.id ∈ del → ∃ i ∈ idx, i ∈ w.indexes := by
      intro w hw hid
      obtain ⟨i, hi, v, hv, hvd⟩ := (hdel w.id).mp hid
      obtain ⟨x, hx, hxid, hxi⟩ := hg.parts.owner hv
      have : x = w := by
        obtain ⟨a, ha, hxa⟩ := List.mem_iff_getElem.mp hx
        obtain ⟨b, hb2, hwb⟩ := List.mem_iff_getElem.mp hw
        have hab : a = b := nodup_index hg.parts.ids (by simpa using ha) (by
          rw [List.getElem?_map, List.getElem?_map, List.getElem?_eq_getElem ha, List.getElem?_eq_getElem hb2, hxa, hwb,
            Option.map_some, Option.map_some, hxid, hvd])
        subst hab
        rw [← hxa, ← hwb]
      subst this
      exact ⟨i, hi, List.mem_of_getElem? hxi⟩
    have hnews : ∀ w ∈ news, w.id ∉ del := by
      intro w hw hid
      obtain ⟨i, hi, hiw⟩ := hhit w (by rw [hp.dists]; simp [hw]) hid
      refine hdis i hi ?_
      rw [← hp.done]
      exact List.mem_flatMap.mpr ⟨(w.dist, w.indexes), List.mem_map.mpr ⟨w, hw, rfl⟩, hiw⟩
    have hleft : left = [] := by
      rw [List.eq_nil_iff_forall_not_mem]
      intro i hi
      have hmem : i ∈ s'.dists.flatMap (·.indexes) := hperm.mem_iff.mp (by simp [hi])
      obtain ⟨w, hw, hiw⟩ := List.mem_flatMap.mp hmem
      by_cases hid : w.id ∈ del
      · obtain ⟨j, hj, hjw⟩ := hhit w hw hid
        rw [hp.dists, List.mem_append] at hw
        rcases hw with hw | hw
        · obtain ⟨k, hk⟩ := hp.single w hw
          rw [hk] at hiw hjw
          simp at hiw hjw
          subst hiw hjw
          exact hn3 _ hj _ hi rfl
        · exact hnews w hw hid
      · exact hn2 i (by simp [hi]) i (List.mem_flatMap.mpr ⟨w, List.mem_filter.mpr ⟨hw, by simpa using hid⟩, hiw⟩) rfl
    subst hleft
    simp only [defaultWrappers, Out.ok.injEq] at hdw
    subst hdw
    have hset : setDistribution mk' s' d idx = ({ s' with
        params := linkWrappers [⟨s'.nextId, d, idx⟩] s'.params
        dists := s'.dists.filter (fun w => !del.contains w.id) ++ [⟨s'.nextId, d, idx⟩]
        nextId := s'.nextId + 1 }, .ok ()) := by
      unfold setDistribution
      rw [if_neg (by omega), htake, badIndexes_false.mpr ⟨hb', hn⟩, hplan]
      rfl
    have hgood := (step_good (ops := ops) (jen := jen) (little := little) hs.one hg (op := .setDistribution d idx) ⟨by omega, by omega⟩).1
    simp only [Space.step] at hgood
    rw [hset] at hgood
    have hsame : ∀ (i : Nat) w, s'.params[i]? = some w →
        ∃ w', (linkWrappers [⟨s'.nextId, d, idx⟩] s'.params)[i]? = some w' ∧ SameParam w w' := by
      rcases setDistribution_spec hs.one hg.parts (d := d) (indexes := idx) (by omega) (by omega) with
        ⟨t, h1, -, -, -, -, -, -, -, -, h2, -⟩ | ⟨h1, -⟩ | ⟨e, is, h1, -⟩ | ⟨is, h1, -⟩
      · rw [hset] at h1
        cases h1
        exact h2
      · rw [hset] at h1; exact absurd (congrArg Prod.snd h1) (by simp)
      · rw [hset] at h1; exact absurd (congrArg Prod.snd h1) (by simp)
      · rw [hset] at h1; exact absurd (congrArg Prod.snd h1) (by simp)
    refine ⟨_, olds.filter (fun w => !del.contains w.id), news ++ [⟨s'.nextId, d, idx⟩], hset, hgood, ⟨?_, ?_⟩, rfl, rfl,
      ⟨?_, ?_, ?_⟩⟩
    · show (linkWrappers [⟨s'.nextId, d, idx⟩] s'.params).length = _
      rw [(linkWrappers_spec [⟨s'.nextId, d, idx⟩] s'.params (by simpa using hn)).1, hc.length]
    · intro i v hi hv
      obtain ⟨v', hv', a1, a2, a3⟩ := hc.at' i v hi hv
      obtain ⟨u, hu, b1, b2, b3, -⟩ := hsame i v' hv'
      exact ⟨u, hu, b1.trans a1, b2.trans a2, b3.trans a3⟩
    · show s'.dists.filter _ ++ _ = _
      rw [hp.dists, List.filter_append, List.append_assoc]
      congr 2
      exact List.filter_eq_self.mpr fun w hw => by simpa using hnews w hw
    · intro x hx
      exact hp.single x (List.mem_filter.mp hx).1
    · rw [List.map_append, hp.done]
      rfl
  · exact absurd hle (defaultWrappers_err (Copied.total hs hc) left _ e)
  · exact absurd hle (defaultWrappers_ub (Copied.total hs hc) left _ hlb)

/-- The distributions. -/
theorem perform_distributions (hs : Setting paramAt mem mem' mk' s) : ∀ (todo done : List (Dist × List Nat)) (s' : Space)
    (olds news : List DWrap), Good mem' s' → Copied paramAt s s' s.params.length s.params.length → Placed s' olds news done →
    (∀ x ∈ todo, 0 < x.2.length ∧ x.1.dim = x.2.length ∧ ∀ i ∈ x.2, i < s.params.length) →
    ((done ++ todo).flatMap (·.2)).Nodup →
    ∃ s'' olds' news', perform ops jen little mem' mk' s' (todo.map fun x => .setDistribution x.1 x.2) = .ok s'' ∧ Good mem' s'' ∧
      Copied paramAt s s'' s.params.length s.params.length ∧ s''.clauses = s'.clauses ∧ s''.graphOk = s'.graphOk ∧
      Placed s'' olds' news' (done ++ todo)
  | [], done, s', olds, news, hg, hc, hp, _, _ => ⟨s', olds, news, rfl, hg, hc, rfl, rfl, by simpa using hp⟩
  | x :: todo, done, s', olds, news, hg, hc, hp, hx, hn => by
    obtain ⟨h1, h2, h3⟩ := hx x (by simp)
    rw [List.flatMap_append, List.nodup_append] at hn
    obtain ⟨n1, n2, n3⟩ := hn
    have hn2 := n2
    rw [List.flatMap_cons, List.nodup_append] at n2
    obtain ⟨s₁, olds₁, news₁, a1, a2, a3, a4, a5, a6⟩ := perform_distribution ops jen little hs hg hc hp h1 h2 h3 n2.1 fun i hi hm =>
      n3 i hm i (List.mem_flatMap.mpr ⟨x, by simp, hi⟩) rfl
    obtain ⟨s₂, olds₂, news₂, b1, b2, b3, b4, b5, b6⟩ := perform_distributions hs todo (done ++ [(x.1, x.2)]) s₁ olds₁ news₁ a2 a3 a6
      (fun y hy => hx y (by simp [hy])) (by
        rw [List.append_assoc]
        show ((done ++ (x :: todo)).flatMap (·.2)).Nodup
        rw [List.flatMap_append, List.nodup_append]
        exact ⟨n1, hn2, n3⟩)
    refine ⟨s₂, olds₂, news₂, ?_, b2, b3, b4.trans a4, b5.trans a5, by simpa using b6⟩
    rw [List.map_cons, perform_cons]
    show afterCall (setDistribution mk' s' x.1 x.2) >>= _ = _
    rw [a1]
    exact b1

/-! ### Evaluation on a copy -/

theorem paramIndex_get {hs : List (BitVec 64)} (hn : hs.Nodup) {j : Nat} {h : BitVec 64} (hj : hs[j]? = some h) :
    paramIndex hs h = .ok j := by
  obtain ⟨i, hi⟩ := paramIndex_some (List.mem_of_getElem? hj)
  have hi' := paramIndex_ok hi
  rw [hi, nodup_index hn (List.getElem?_eq_some_iff.mp hi').1 (hi'.trans hj.symm)]

theorem copied_eval (hs : Setting paramAt mem mem' mk' s) {s' : Space} (hg : Good mem' s')
    (hc : Copied paramAt s s' s.params.length s.params.length) {e : Expr} (hk : ∀ x, Occurs x e → x ∈ s.handles)
    (hh : Honest mem e) (vals : List Value) :
    evalOn ops jen little s' vals (relabel (follow paramAt s) e) = evalOn ops jen little s vals e := by
  unfold evalOn
  refine (eval_relabel ops jen little _ _ (follow paramAt s) e fun h p ho => ?_).1
  obtain ⟨j, hj, hjh⟩ := List.mem_iff_getElem.mp (hk h (occursAs_occurs ho))
  have hj' : s.handles[j]? = some h := by rw [List.getElem?_eq_getElem hj, hjh]
  have hj2 := hj'
  simp only [Space.handles, List.getElem?_map, Option.map_eq_some_iff] at hj2
  obtain ⟨w, hw, rfl⟩ := hj2
  obtain ⟨w', hw', h1, h2, -⟩ := hc.at' j w (List.getElem?_eq_some_iff.mp hw).1 hw
  rw [follow_get hs.good.tables.handles hw]
  refine ⟨?_, ?_⟩
  · rw [hh _ _ ho]
    exact (hs.good.tables.mem w (List.mem_of_getElem? hw)).1
  · unfold Env.lookup
    dsimp only
    rw [paramIndex_get hs.good.tables.handles hj', paramIndex_get hg.tables.handles (by rw [handles_get hw', h1])]

theorem copied_none {s' : Space} {k : Nat} (hc : Copied paramAt s s' s.params.length k) {i : Nat} (h : s.params[i]? = none) :
    s'.params[i]? = none := by
  rw [List.getElem?_eq_none_iff] at h ⊢
  rw [hc.length]
  exact h

theorem copied_actives (hs : Setting paramAt mem mem' mk' s) {s' : Space} (hg : Good mem' s')
    (hc : Copied paramAt s s' s.params.length s.params.length)
    (hh : HonestSpace mem s) :
    ∀ (l : List Nat) (vals : List Value), setActives ops jen little s' l vals = setActives ops jen little s l vals
  | [], vals => rfl
  | i :: l, vals => by
    unfold setActives
    cases hw : s.params[i]? with
    | none => rw [copied_none hc hw]
    | some w =>
      have hlt := (List.getElem?_eq_some_iff.mp hw).1
      obtain ⟨w', hw', -, -, h3⟩ := hc.at' i w hlt hw
      rw [if_pos hlt] at h3
      rw [hw']
      dsimp only
      rw [h3]
      cases he : w.condition with
      | none => exact copied_actives hs hg hc hh l vals
      | some e =>
        dsimp only [Option.map_some]
        have := copied_eval (ops := ops) (jen := jen) (little := little) hs hg hc (e := e)
          (known_handles (hs.good.graph.known w (List.mem_of_getElem? hw) e he)) (hh.1 w (List.mem_of_getElem? hw) e he) vals
        unfold evalOn at this
        unfold Space.env
        rw [this]
        congr 1
        funext r
        exact copied_actives hs hg hc hh l _

theorem copied_depends_of (hs : Setting paramAt mem mem' mk' s) {s' : Space}
    (hc : Copied paramAt s s' s.params.length s.params.length) {i j : Nat} (h : DependsOn (Spec.conditions s) i j) :
    DependsOn (Spec.conditions s') i j := by
  obtain ⟨h, e, h', c, hi, hj, ho⟩ := h
  obtain ⟨w, hw, rfl, he⟩ := conditions_some hi
  obtain ⟨v, hv, rfl, -⟩ := conditions_some hj
  have hil := (List.getElem?_eq_some_iff.mp hw).1
  obtain ⟨w', hw', h1, -, h3⟩ := hc.at' i w hil hw
  obtain ⟨v', hv', h4, -, -⟩ := hc.at' j v (List.getElem?_eq_some_iff.mp hv).1 hv
  rw [if_pos hil, he] at h3
  refine ⟨_, relabel (follow paramAt s) e, _, _, by rw [conditions_get hw', h3]; rfl, conditions_get hv', ?_⟩
  have := occurs_relabel_of (f := follow paramAt s) ho
  rw [follow_get hs.good.tables.handles hv] at this
  rw [h4]
  exact this

theorem copied_order (hs : Setting paramAt mem mem' mk' s) {s' : Space} (hg : Good mem' s')
    (hc : Copied paramAt s s' s.params.length s.params.length) (hok : s'.graphOk = true) : EvalOrder (Spec.conditions s) s'.sorted := by
  obtain ⟨h1, h2⟩ := hg.graph.full hok
  refine ⟨?_, fun b i a hl j hj => h2 b i a hl j (copied_depends_of hs hc hj)⟩
  have : (Spec.conditions s').length = (Spec.conditions s).length := by simp [Spec.conditions, hc.length]
  rw [← this]
  exact h1

theorem copied_defaults {s' : Space} {k : Nat} (hc : Copied paramAt s s' s.params.length k) :
    s'.params.map (·.param) = s.params.map (·.param) := by
  apply List.ext_getElem?
  intro i
  rw [List.getElem?_map, List.getElem?_map]
  cases hw : s.params[i]? with
  | none => rw [copied_none hc hw]
  | some w =>
    obtain ⟨w', hw', -, h2, -⟩ := hc.at' i w (List.getElem?_eq_some_iff.mp hw).1 hw
    rw [hw', Option.map_some, Option.map_some, h2]

theorem copied_default (hs : Setting paramAt mem mem' mk' s) {s' : Space} (hg : Good mem' s')
    (hc : Copied paramAt s s' s.params.length s.params.length) (hh : HonestSpace mem s) (hok : s'.graphOk = true) (d : List Value) :
    getDefault ops jen little s' = .ok d ↔ Solves ops jen little s (s.params.map (·.param.default)) d := by
  unfold getDefault
  have hd : s'.params.map (·.param.default) = s.params.map (·.param.default) := by
    have := congrArg (List.map (·.default)) (copied_defaults hc)
    simpa [List.map_map, Function.comp_def] using this
  rw [copied_actives hs hg hc hh, hd]
  exact setActives_iff (copied_order hs hg hc hok) (by simp)

/-! ### The clauses -/

theorem clause_ok (hs : Setting paramAt mem mem' mk' s) {s' : Space} (hg : Good mem' s')
    (hc : Copied paramAt s s' s.params.length s.params.length) (hh : HonestSpace mem s) (hok : s'.graphOk = true)
    (hw : ClausesWitnessed ops jen little s) (hb : ∀ c ∈ s.clauses, Built c) {c : Expr} (hcl : c ∈ s.clauses) :
    clauseTest ops jen little s' (relabel (follow paramAt s) c) = .ok () ↔
      ∃ d r, Solves ops jen little s (s.params.map (·.param.default)) d ∧ evalOn ops jen little s d c = .ok r := by
  have hkn := (hw c hcl).1
  have hev := copied_eval (ops := ops) (jen := jen) (little := little) hs hg hc hkn (hh.2 c hcl)
  constructor
  · intro h
    obtain ⟨-, d, r, h1, h2, -⟩ := clauseTest_context h
    refine ⟨d, r, (copied_default hs hg hc hh hok d).mp h1, ?_⟩
    rw [← hev d]
    exact h2
  · rintro ⟨d, r, h1, h2⟩
    have hdef := (copied_default hs hg hc hh hok d).mpr h1
    obtain ⟨s₁, -, hg₁, hsame, hok₁⟩ := ensure_effect hs.good
    have ho₁ := hg₁.graph.full hok₁
    have hne : r ≠ .bool 1#64 := by
      have hd₁ : getDefault ops jen little s₁ = .ok d := by
        unfold getDefault
        rw [core_map (f := fun w => w.param.default) (fun _ => rfl) hsame.params]
        exact (setActives_iff ho₁ (by simp [hsame.length])).mpr (hsame.solves.mpr h1)
      have := default_not_forbidden ho₁ (fun c hc' => hsame.witnessed (hw c (by rw [← hsame.clauses]; exact hc'))) hd₁ c
        (by rw [hsame.clauses]; exact hcl)
      rw [hsame.evalOn, h2] at this
      exact fun h => this (by rw [h])
    unfold clauseTest
    have hctx : checkContext (relabel (follow paramAt s) c) (some s'.handles) = .ok () := by
      refine (Props.C40_check_context (built_relabel (follow_nonnull hs) (hb c hcl)) _).1 fun x hx => ?_
      obtain ⟨y, hy, rfl⟩ := occurs_relabel hx
      obtain ⟨j, hj, hjy⟩ := List.mem_iff_getElem.mp (hkn y hy)
      have hj' : s.handles[j]? = some y := by rw [List.getElem?_eq_getElem hj, hjy]
      simp only [Space.handles, List.getElem?_map, Option.map_eq_some_iff] at hj'
      obtain ⟨w, hw, rfl⟩ := hj'
      rw [follow_get hs.good.tables.handles hw]
      obtain ⟨w', hw', h3, -, -⟩ := hc.at' j w (List.getElem?_eq_some_iff.mp hw).1 hw
      have := List.mem_of_getElem? (handles_get hw')
      rw [h3] at this
      exact this
    rw [hctx, Out.bind_ok, hdef, Out.bind_ok]
    have := hev d
    unfold evalOn at this h2
    unfold Space.env
    rw [this, h2, Out.bind_ok, if_neg (by simpa [isTrue] using hne)]

theorem perform_clauses (hs : Setting paramAt mem mem' mk' s) (hh : HonestSpace mem s) (hw : ClausesWitnessed ops jen little s)
    (hb : ∀ c ∈ s.clauses, Built c) : ∀ (cs : List Expr) (s' : Space), (∀ c ∈ cs, c ∈ s.clauses) → Good mem' s' →
    Copied paramAt s s' s.params.length s.params.length → s'.graphOk = true →
    (∀ s'', perform ops jen little mem' mk' s' (cs.map fun c => .addClause (relabel (follow paramAt s) c)) = .ok s'' →
      s'' = { s' with clauses := s'.clauses ++ cs.map (relabel (follow paramAt s)) } ∧ Good mem' s'') ∧
    ((∃ s'', perform ops jen little mem' mk' s' (cs.map fun c => .addClause (relabel (follow paramAt s) c)) = .ok s'') ↔
      ∀ c ∈ cs, ∃ d r, Solves ops jen little s (s.params.map (·.param.default)) d ∧ evalOn ops jen little s d c = .ok r)
  | [], s', _, hg, hc, hok => ⟨fun s'' h => by
      rw [List.map_nil, perform] at h
      cases h
      exact ⟨by simp, hg⟩, by simp [perform]⟩
  | c :: cs, s', hsub, hg, hc, hok => by
    have hclause := clause_ok (ops := ops) (jen := jen) (little := little) hs hg hc hh hok hw hb (hsub c (by simp))
    have hgood := (step_good (ops := ops) (jen := jen) (little := little) hs.one hg
      (op := .addClause (relabel (follow paramAt s) c)) (built_relabel (follow_nonnull hs) (hb c (hsub c (by simp))))).1
    rw [List.map_cons, perform_cons]
    simp only [Space.step] at hgood ⊢
    unfold addClause at hgood ⊢
    cases ht : clauseTest ops jen little s' (relabel (follow paramAt s) c) with
    | ok u =>
      rw [ht] at hgood
      have ih := perform_clauses hs hh hw hb cs { s' with clauses := s'.clauses ++ [relabel (follow paramAt s) c] }
        (fun x hx => hsub x (by simp [hx])) hgood ⟨hc.length, hc.at'⟩ hok
      dsimp only [afterCall]
      rw [Out.bind_ok]
      refine ⟨fun s'' h => ?_, ?_⟩
      · obtain ⟨h1, h2⟩ := ih.1 s'' h
        exact ⟨by rw [h1]; simp, h2⟩
      · rw [ih.2]
        simp only [List.mem_cons, forall_eq_or_imp]
        exact ⟨fun h => ⟨hclause.mp ht, h⟩, fun h => h.2⟩
    | err e =>
      refine ⟨fun s'' h => (by cases h), ⟨fun ⟨s'', h⟩ => (by cases h), fun h => ?_⟩⟩
      have := hclause.mpr (h c (by simp))
      rw [ht] at this
      cases this
    | ub =>
      refine ⟨fun s'' h => (by cases h), ⟨fun ⟨s'', h⟩ => (by cases h), fun h => ?_⟩⟩
      have := hclause.mpr (h c (by simp))
      rw [ht] at this
      cases this

end

end CCS
