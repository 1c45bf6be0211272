import Verif.Lemmas.SpaceTwin
import Verif.Props.SpaceConfig

/-!
# Lemmas about a space and its copy

The calls that define a space again succeed exactly when its clauses have a value on its default configuration, and the
space they give behaves like the first one.
-/

namespace CCS

open CCS.Spec

section
variable {ops : FloatOps} {jen : Bytes → BitVec 32} {little : Bool} {mem mem' : BitVec 64 → Param} {mk' : Nat → Param → Out Dist}
variable {paramAt : Nat → BitVec 64} {s : Space}

theorem defaults_active (hg : Good mem s) (hc : ∀ w ∈ s.params, Created ops jen little w.param) :
    ∀ v ∈ s.params.map (·.param.default), v ≠ .inactive := Props.defaults_active ops jen little mem hg hc

/-- Every clause has a value on the default configuration. -/
theorem clauses_evaluate (hg : Good mem s) (hc : ∀ w ∈ s.params, Created ops jen little w.param) :
    (∀ c ∈ s.clauses, ∃ d r, Solves ops jen little s (s.params.map (·.param.default)) d ∧ evalOn ops jen little s d c = .ok r) ↔
      s.clauses = [] ∨ DefaultEvaluates ops jen little s := by
  obtain ⟨s₁, -, hg₁, hsame, hok₁⟩ := ensure_effect hg
  have ho : EvalOrder (Spec.conditions s) s₁.sorted := by
    have := hg₁.graph.full hok₁
    rwa [hsame.conditions] at this
  constructor
  · intro h
    cases hcl : s.clauses with
    | nil => exact .inl rfl
    | cons c cs =>
      right
      obtain ⟨d, r, h1, -⟩ := h c (by rw [hcl]; simp)
      have hset := (setActives_iff ho (by simp)).mpr h1
      obtain ⟨a1, a2, a3⟩ := setActives_right ho (by simp) (defaults_active hg hc) hset
      refine ⟨d, a2, a1, a3, fun c' hc' => ?_⟩
      obtain ⟨d', r', h1', h2'⟩ := h c' hc'
      rw [solves_unique ho (by simp) h1' h1] at h2'
      exact ⟨r', h2'⟩
  · rintro (h | ⟨d, h1, h2, h3, h4⟩) c hc'
    · rw [h] at hc'; cases hc'
    · obtain ⟨r, hr⟩ := h4 c hc'
      exact ⟨d, r, solves_of_right (by simp) h2 h1 h3, hr⟩

/-- When the distributions written cover the parameters, no other is left. -/
theorem placed_all {s' : Space} (hs : Setting paramAt mem mem' mk' s) (hg : Good mem' s')
    (hc : Copied paramAt s s' s.params.length s.params.length) {olds news : List DWrap} {done : List (Dist × List Nat)}
    (hp : Placed s' olds news done) (hd : done.flatMap (·.2) = s.dists.flatMap (·.indexes)) : olds = [] := by
  have h1 := hg.parts.cover.length_eq
  have h2 := hs.good.parts.cover.length_eq
  rw [hp.dists, List.flatMap_append, List.length_append, List.length_range, hc.length] at h1
  have h3 : news.flatMap (·.indexes) = done.flatMap (·.2) := by
    rw [← hp.done, List.flatMap_map]
  rw [h3, hd, h2, List.length_range] at h1
  cases olds with
  | nil => rfl
  | cons d ds =>
    obtain ⟨i, hi⟩ := hp.single d (by simp)
    rw [List.flatMap_cons, hi] at h1
    simp at h1

theorem recreation_twin (hs : Setting paramAt mem mem' mk' s) (hh : HonestSpace mem s) (hw : ClausesWitnessed ops jen little s)
    (hcr : ∀ w ∈ s.params, Created ops jen little w.param) (hb : ∀ c ∈ s.clauses, Built c) {ds : List Dist}
    (hlen : ds.length = s.dists.length) (hdim : ∀ (j : Nat) d w, ds[j]? = some d → s.dists[j]? = some w → d.dim = w.indexes.length)
    (h0 : ∀ w ∈ s.dists, 0 < w.indexes.length) :
    ((∃ s', perform ops jen little mem' mk' Space.empty (recreation paramAt s ds) = .ok s') ↔
      s.clauses = [] ∨ DefaultEvaluates ops jen little s) ∧
    ∀ s', perform ops jen little mem' mk' Space.empty (recreation paramAt s ds) = .ok s' →
      Good mem' s' ∧ Twin paramAt ds s s' ∧ s'.graphOk = true := by
  obtain ⟨s₁, a1, a2, a3, a4, a5, a6⟩ := perform_parameters (ops := ops) (jen := jen) (little := little) hs s.params.length (Nat.le_refl _)
  obtain ⟨s₂, b1, b2, b3, b4, b5, b6⟩ := perform_conditions (ops := ops) (jen := jen) (little := little) hs s.params 0 s₁ rfl (Nat.zero_le _) a2 a3 a5
  have htodo : ((s.dists.zip ds).map fun x => (x.2, x.1.indexes)) = ds.zip (s.dists.map (·.indexes)) := by
    clear hdim h0
    generalize s.dists = l at *
    induction l generalizing ds with
    | nil => cases ds <;> simp_all
    | cons x l ih =>
      cases ds with
      | nil => simp
      | cons d ds => simp at hlen; simp [ih hlen]
  have hflat : (((s.dists.zip ds).map fun x => (x.2, x.1.indexes)).flatMap (·.2)) = s.dists.flatMap (·.indexes) := by
    clear hdim h0 htodo
    generalize s.dists = l at *
    induction l generalizing ds with
    | nil => cases ds <;> simp_all
    | cons x l ih =>
      cases ds with
      | nil => simp at hlen
      | cons d ds =>
        simp at hlen
        have := ih hlen
        simp only [List.zip_cons_cons, List.map_cons, List.flatMap_cons]
        rw [this]
  obtain ⟨s₃, olds, news, c1, c2, c3, c4, c5, c6⟩ := perform_distributions (ops := ops) (jen := jen) (little := little) hs
    ((s.dists.zip ds).map fun x => (x.2, x.1.indexes)) [] s₂ s₂.dists [] b2 b3
    ⟨by simp, by rw [b6]; exact a6, rfl⟩ (by
      intro x hx
      obtain ⟨y, hy, rfl⟩ := List.mem_map.mp hx
      obtain ⟨j, hj, hjy⟩ := List.mem_iff_getElem.mp hy
      have hj' : (s.dists.zip ds)[j]? = some y := by rw [List.getElem?_eq_getElem hj, hjy]
      rw [List.getElem?_zip_eq_some] at hj'
      refine ⟨h0 _ (List.mem_of_getElem? hj'.1), hdim j _ _ hj'.2 hj'.1, fun i hi => ?_⟩
      have := hs.good.parts.cover.mem_iff.mp (List.mem_flatMap.mpr ⟨_, List.mem_of_getElem? hj'.1, hi⟩)
      exact List.mem_range.mp this) (by
      rw [List.nil_append, hflat]
      exact hs.good.parts.nodup)
  have hnil := placed_all hs c2 c3 c6 (by rw [List.nil_append, hflat])
  have hclause := perform_clauses (ops := ops) (jen := jen) (little := little) hs hh hw hb s.clauses s₃ (fun _ h => h) c2 c3 (c5.trans b5)
  have hall : perform ops jen little mem' mk' Space.empty (recreation paramAt s ds) =
      perform ops jen little mem' mk' s₃ (s.clauses.map fun c => .addClause (relabel (follow paramAt s) c)) := by
    unfold recreation
    rw [perform_append, perform_append, perform_append, a1, Out.bind_ok, b1, Out.bind_ok]
    rw [List.map_map] at c1
    have : perform ops jen little mem' mk' s₂ ((s.dists.zip ds).map fun x => .setDistribution x.2 x.1.indexes) = .ok s₃ := c1
    rw [this, Out.bind_ok]
  rw [hall]
  refine ⟨hclause.2.trans (clauses_evaluate hs.good hcr), fun s' h => ?_⟩
  obtain ⟨h1, h2⟩ := hclause.1 s' h
  refine ⟨h2, ?_, by rw [h1]; exact c5.trans b5⟩
  have hcl : s₃.clauses = [] := c4.trans (b4.trans a4)
  rw [h1]
  refine ⟨c3.length, fun i w hw => ?_, ?_, by simp [hcl]⟩
  · have hlt := (List.getElem?_eq_some_iff.mp hw).1
    obtain ⟨w', hw', h3, h4, h5⟩ := c3.at' i w hlt hw
    rw [if_pos hlt] at h5
    exact ⟨w', hw', h3, h4, h5⟩
  · show s₃.dists.map _ = _
    rw [c6.dists, hnil, List.nil_append, c6.done, List.nil_append, htodo]

/-! ### Behaviour -/

theorem twin_copied {ds : List Dist} {s' : Space} (h : Twin paramAt ds s s') :
    Copied paramAt s s' s.params.length s.params.length := by
  refine ⟨h.length, fun i w hi hw => ?_⟩
  obtain ⟨w', h1, h2, h3, h4⟩ := h.params i w hw
  exact ⟨w', h1, h2, h3, by rw [if_pos hi, h4]⟩

theorem copied_paramsAt {s' : Space} (hc : Copied paramAt s s' s.params.length s.params.length) :
    ∀ l, paramsAt s'.params l = paramsAt s.params l
  | [] => rfl
  | i :: l => by
    unfold paramsAt
    rw [copied_paramsAt hc l]
    cases hw : s.params[i]? with
    | none => rw [copied_none hc hw]
    | some w =>
      obtain ⟨w', hw', -, h2, -⟩ := hc.at' i w (List.getElem?_eq_some_iff.mp hw).1 hw
      rw [hw']
      dsimp only
      rw [h2]

theorem sameDist_sample {d d' : Dist} (h : SameDist d d') (t : Nat) (ps : List Param) (out : List Value) :
    jointSample d' t ps out = jointSample d t ps out := by
  obtain ⟨h1, h2, h3⟩ := h
  cases d
  cases d'
  cases h1
  cases h2
  cases h3
  rfl

theorem twin_draw {s' : Space} (hc : Copied paramAt s s' s.params.length s.params.length) (hl : s'.dists.length = s.dists.length)
    (t : Nat) : ∀ (k : Nat) (l' l : List DWrap) (vals : List Value), l'.length = l.length →
    (∀ (j : Nat) w' w, l'[j]? = some w' → l[j]? = some w → w'.indexes = w.indexes ∧ SameDist w.dist w'.dist) →
    drawAll s' t k l' vals = drawAll s t k l vals
  | k, [], [], vals, _, _ => rfl
  | k, [], _ :: _, vals, h, _ => by simp at h
  | k, _ :: _, [], vals, h, _ => by simp at h
  | k, w' :: l', w :: l, vals, h, hj => by
    obtain ⟨h1, h2⟩ := hj 0 w' w rfl rfl
    unfold drawAll
    rw [h1, hc.length, copied_paramsAt hc, hl]
    split
    · rfl
    · congr 1
      funext ps
      rw [sameDist_sample h2]
      congr 1
      funext vs
      congr 1
      funext vals'
      exact twin_draw hc hl t (k + 1) l' l vals' (by simpa using h) fun j a b ha hb =>
        hj (j + 1) a b (by simpa using ha) (by simpa using hb)

theorem twin_forbidden (hs : Setting paramAt mem mem' mk' s) {s' : Space} (hg : Good mem' s')
    (hc : Copied paramAt s s' s.params.length s.params.length) (hh : HonestSpace mem s)
    (hw : ClausesWitnessed ops jen little s) (vals : List Value) : ∀ cs : List Expr, (∀ c ∈ cs, c ∈ s.clauses) →
    testForbidden ops jen little s' vals (cs.map (relabel (follow paramAt s))) = testForbidden ops jen little s vals cs
  | [], _ => rfl
  | c :: cs, hsub => by
    rw [List.map_cons]
    unfold testForbidden
    have := copied_eval (ops := ops) (jen := jen) (little := little) hs hg hc (e := c) (hw c (hsub c (by simp))).1
      (hh.2 c (hsub c (by simp))) vals
    unfold evalOn at this
    unfold Space.env
    rw [this, twin_forbidden hs hg hc hh hw vals cs fun x hx => hsub x (by simp [hx])]

theorem twin_check (hs : Setting paramAt mem mem' mk' s) {s' : Space} {ds : List Dist} (hg : Good mem' s')
    (ht : Twin paramAt ds s s') (hh : HonestSpace mem s) (hw : ClausesWitnessed ops jen little s) (vals : List Value) :
    ∀ l, checkLoop ops jen little s' vals l = checkLoop ops jen little s vals l
  | [] => by
    unfold checkLoop
    rw [ht.clauses, twin_forbidden hs hg (twin_copied ht) hh hw vals _ fun _ h => h]
  | i :: l => by
    unfold checkLoop
    have hc := twin_copied ht
    cases hwi : s.params[i]? with
    | none => rw [copied_none hc hwi]
    | some w =>
      have hlt := (List.getElem?_eq_some_iff.mp hwi).1
      obtain ⟨w', hw', -, h2, h3⟩ := hc.at' i w hlt hwi
      rw [if_pos hlt] at h3
      rw [hw']
      cases vals[i]? with
      | none => rfl
      | some v =>
        dsimp only
        rw [h2, twin_check hs hg ht hh hw vals l]
        have : conditionHolds ops jen little s' vals w'.condition = conditionHolds ops jen little s vals w.condition := by
          rw [h3]
          cases he : w.condition with
          | none => rfl
          | some e =>
            rw [Option.map_some]
            have := copied_eval (ops := ops) (jen := jen) (little := little) hs hg hc (e := e)
              (known_handles (hs.good.graph.known w (List.mem_of_getElem? hwi) e he)) (hh.1 w (List.mem_of_getElem? hwi) e he) vals
            unfold evalOn at this
            simp only [conditionHolds, Space.env, this]
        rw [this]

theorem handles_forbidden {s s' : Space} (h : s'.handles = s.handles) (vals : List Value) : ∀ cs : List Expr,
    testForbidden ops jen little s' vals cs = testForbidden ops jen little s vals cs
  | [] => rfl
  | c :: cs => by
    unfold testForbidden
    rw [handles_forbidden h vals cs]
    unfold Space.env
    rw [h]

/-- The first space with the evaluation order of its copy. -/
def reordered (s s' : Space) : Space := { s with sorted := s'.sorted, graphOk := true }

theorem reordered_same (s s' : Space) : SameSpace s (reordered s s') := ⟨rfl, rfl, rfl, rfl, rfl⟩

/-- The distributions of the copy answer like those of the space. -/
def SameDists (s : Space) (ds : List Dist) : Prop :=
  ds.length = s.dists.length ∧ ∀ (j : Nat) d w, ds[j]? = some d → s.dists[j]? = some w → SameDist w.dist d

theorem twin_attempt (hs : Setting paramAt mem mem' mk' s) {s' : Space} {ds : List Dist} (hg : Good mem' s')
    (ht : Twin paramAt ds s s') (hh : HonestSpace mem s) (hw : ClausesWitnessed ops jen little s) (hd : SameDists s ds)
    (t : Nat) (vals : List Value) :
    attempt ops jen little s' t vals = attempt ops jen little (reordered s s') t vals := by
  have hc := twin_copied ht
  have hl : s'.dists.length = s.dists.length := by
    have := congrArg List.length ht.dists
    simpa [hd.1] using this
  unfold attempt
  rw [twin_draw hc hl t 0 s'.dists s.dists vals hl fun j w' w hj' hj => by
    have h1 := congrArg (fun l => l[j]?) ht.dists
    simp only [List.getElem?_map, hj', Option.map_some] at h1
    have h1' := h1.symm
    rw [List.getElem?_zip_eq_some] at h1'
    obtain ⟨h2, h3⟩ := h1'
    rw [List.getElem?_map, hj] at h3
    exact ⟨(Option.some.inj h3).symm, hd.2 j _ w h2 hj⟩]
  have e1 : drawAll s t 0 s.dists vals = drawAll (reordered s s') t 0 (reordered s s').dists vals := ((reordered_same s s').drawAll t s.dists 0 vals).symm
  rw [e1]
  congr 1
  funext drawn
  rw [copied_actives hs hg hc hh]
  have e2 : setActives ops jen little s s'.sorted drawn = setActives ops jen little (reordered s s') (reordered s s').sorted drawn :=
    ((reordered_same s s').setActives s'.sorted drawn).symm
  rw [e2]
  congr 1
  funext active
  rw [ht.clauses, twin_forbidden hs hg hc hh hw active _ fun _ h => h]
  have e3 : testForbidden ops jen little s active s.clauses =
      testForbidden ops jen little (reordered s s') active (reordered s s').clauses := (handles_forbidden (s := s) (s' := reordered s s') rfl active s.clauses).symm
  rw [e3]

theorem same_checkLoop {s s' : Space} (hs : SameSpace s s') (vals : List Value) : ∀ l,
    checkLoop ops jen little s' vals l = checkLoop ops jen little s vals l
  | [] => by
    unfold checkLoop
    rw [hs.clauses, handles_forbidden hs.handles]
  | i :: l => by
    unfold checkLoop
    rw [same_checkLoop hs vals l]
    have hi := congrArg (fun l => l[i]?) hs.params
    simp only [List.getElem?_map] at hi
    cases h1 : s.params[i]? with
    | none =>
      rw [h1] at hi
      cases h2 : s'.params[i]? with
      | none => rfl
      | some w => rw [h2] at hi; cases hi
    | some w =>
      rw [h1] at hi
      cases h2 : s'.params[i]? with
      | none => rw [h2] at hi; cases hi
      | some w' =>
        rw [h2] at hi
        obtain ⟨-, hp, -, -, hc⟩ := core_fields (Option.some.inj hi)
        have : ∀ c, conditionHolds ops jen little s' vals c = conditionHolds ops jen little s vals c := by
          intro c
          cases c with
          | none => rfl
          | some e => simp only [conditionHolds, Space.env, hs.handles]
        cases vals[i]? with
        | none => rfl
        | some v => dsimp only; rw [hp, hc, this]

theorem sampleLoop_eq {s s' : Space} (h : ∀ t vals, attempt ops jen little s t vals = attempt ops jen little s' t vals) :
    ∀ (left t : Nat) (vals : List Value), sampleLoop ops jen little s left t vals = sampleLoop ops jen little s' left t vals
  | 0, t, vals => by
    conv => lhs; unfold sampleLoop
    conv => rhs; unfold sampleLoop
    rw [h]
  | left + 1, t, vals => by
    conv => lhs; unfold sampleLoop
    conv => rhs; unfold sampleLoop
    rw [h]
    cases attempt ops jen little s' t vals with
    | err e => rfl
    | ub => rfl
    | ok r =>
      dsimp only
      rw [sampleLoop_eq h left (t + 1) r.2]

theorem perform_run : ∀ {l : List SpaceOp} {a b : Space}, perform ops jen little mem mk' a l = .ok b →
    b = a.run ops jen little mem mk' l
  | [], a, b, h => by
    rw [perform] at h
    cases h
    rfl
  | op :: l, a, b, h => by
    rw [perform] at h
    unfold Space.run
    cases hs : Space.step ops jen little mem mk' a op with
    | mk a' r =>
      rw [hs] at h
      cases r with
      | ok u => exact perform_run h
      | err e => cases h
      | ub => cases h

theorem recreation_called (hs : Setting paramAt mem mem' mk' s) (hb : ∀ c ∈ s.clauses, Built c) {ds : List Dist}
    (hdim : ∀ (j : Nat) d w, ds[j]? = some d → s.dists[j]? = some w → d.dim = w.indexes.length)
    (h0 : ∀ w ∈ s.dists, 0 < w.indexes.length) : ∀ op ∈ recreation paramAt s ds, WellCalled op := by
  intro op hop
  unfold recreation at hop
  simp only [List.mem_append] at hop
  rcases hop with ((h | h) | h) | h
  · obtain ⟨i, -, rfl⟩ := List.mem_map.mp h
    trivial
  · obtain ⟨x, hx, he⟩ := List.mem_filterMap.mp h
    obtain ⟨e, he', rfl⟩ := Option.map_eq_some_iff.mp he
    have hm : x.1 ∈ s.params := by
      obtain ⟨-, h2⟩ := List.mem_zipIdx_iff_getElem?.mp hx |> fun h => (⟨trivial, h⟩ : True ∧ _)
      exact List.mem_of_getElem? h2
    exact built_relabel (follow_nonnull hs) (hs.good.graph.built x.1 hm e he')
  · obtain ⟨x, hx, rfl⟩ := List.mem_map.mp h
    obtain ⟨j, hj, hjx⟩ := List.mem_iff_getElem.mp hx
    have hj' : (s.dists.zip ds)[j]? = some x := by rw [List.getElem?_eq_getElem hj, hjx]
    rw [List.getElem?_zip_eq_some] at hj'
    have := hdim j _ _ hj'.2 hj'.1
    have := h0 _ (List.mem_of_getElem? hj'.1)
    exact ⟨by omega, by omega⟩
  · obtain ⟨c, hc, rfl⟩ := List.mem_map.mp h
    exact built_relabel (follow_nonnull hs) (hb c hc)

/-! ### Where conditions and clauses come from -/

/-- The expression given by a call. -/
def givenExpr : SpaceOp → Option Expr
  | .setCondition _ e => some e
  | .addClause e => some e
  | _ => none

/-- Every condition and clause satisfies `Q`. -/
def AllExprs (Q : Expr → Prop) (s : Space) : Prop :=
  (∀ x ∈ Spec.conditions s, ∀ e, x.2 = some e → Q e) ∧ ∀ e ∈ s.clauses, Q e

theorem effect_exprs {Q : Expr → Prop} {s s' : Space} {op : SpaceOp} (he : Effect ops jen little mem s s' op)
    (hq : ∀ e, givenExpr op = some e → Q e) (h : AllExprs Q s) (hcond : ∀ d is, op = .setDistribution d is →
      Spec.conditions s' = Spec.conditions s) : AllExprs Q s' := by
  cases he with
  | same hs => exact ⟨by rw [hs.conditions]; exact h.1, by rw [hs.clauses]; exact h.2⟩
  | fresh hs => exact ⟨by rw [hs.conditions]; exact h.1, by rw [hs.clauses]; exact h.2⟩
  | refused hs => exact ⟨by rw [hs.conditions]; exact h.1, by rw [hs.clauses]; exact h.2⟩
  | pushed hs =>
    refine ⟨?_, by rw [hs]; exact h.2⟩
    intro x hx e hxe
    rw [hs] at hx
    simp only [Spec.conditions, Space.pushParameter, List.map_append, List.mem_append, List.map_cons, List.map_nil,
      List.mem_singleton] at hx
    rcases hx with hx | rfl
    · exact h.1 x hx e hxe
    · cases hxe
  | redistributed hl _ hcl => exact ⟨by rw [hcond _ _ rfl]; exact h.1, by rw [hcl]; exact h.2⟩
  | conditioned hw hn hs =>
    refine ⟨?_, by rw [hs.clauses]; exact h.2⟩
    intro x hx c hxc
    rw [hs.conditions] at hx
    obtain ⟨v, hv, rfl⟩ := List.mem_map.mp hx
    simp only at hxc
    obtain ⟨j, hj⟩ := List.getElem?_of_mem hv
    simp only [Space.withCondition, List.getElem?_modify] at hj
    cases hu : s.params[j]? with
    | none => rw [hu] at hj; cases hj
    | some u =>
      rw [hu] at hj
      obtain rfl := Option.some.inj hj
      split at hxc
      · obtain rfl := Option.some.inj hxc
        exact hq _ rfl
      · exact h.1 _ (List.mem_map.mpr ⟨u, List.mem_of_getElem? hu, rfl⟩) c hxc
  | claused hs _ =>
    rw [hs]
    refine ⟨h.1, fun e he => ?_⟩
    simp only [List.mem_append, List.mem_singleton] at he
    rcases he with he | rfl
    · exact h.2 e he
    · exact hq e rfl

theorem run_exprs {mk : Nat → Param → Out Dist} (hmk : OneDimensional mk) {Q : Expr → Prop} : ∀ (history : List SpaceOp) (s : Space),
    Good mem s → (∀ op ∈ history, WellCalled op) → (∀ op ∈ history, ∀ e, givenExpr op = some e → Q e) → AllExprs Q s →
    AllExprs Q (Space.run ops jen little mem mk s history)
  | [], s, _, _, _, h => h
  | op :: rest, s, hg, hw, hq, h => by
    obtain ⟨h1, h2⟩ := step_good (ops := ops) (jen := jen) (little := little) hmk hg (hw op (by simp))
    refine run_exprs hmk rest _ h1 (fun x hx => hw x (by simp [hx])) (fun x hx => hq x (by simp [hx])) ?_
    refine effect_exprs h2 (hq op (by simp)) h ?_
    rintro d is rfl
    simp only [Space.step] at h2 ⊢
    have hw' := hw _ (List.mem_cons_self ..)
    rcases setDistribution_spec hmk hg.parts hw'.1 hw'.2 with
      ⟨s', he, -, -, -, hl, hent, -, -, -, hx, -, -⟩ | ⟨he, -⟩ | ⟨e, is', he, -⟩ | ⟨is', he, -⟩
    · rw [he]
      exact (redistributed_tables hg.tables hl hent hx).2
    all_goals rw [he]

/-! ### What the theorems need from a stored space -/

section
variable {σ : Type} {H : Host σ} {mk : Nat → Param → Out Dist} {hp : Heap} {o : SpaceObj}

theorem _root_.CCS.Spec.Stored.good (h : Stored H little mem mem' mk hp o) : Good mem o.space := reachable_good h.one h.reach

theorem _root_.CCS.Spec.Stored.setting (h : Stored H H.little mem mem' mk hp o) : Setting H.paramAt mem mem' H.defaultDist o.space :=
  ⟨h.good, h.distinct, h.sound.addresses, h.placed, h.sound.one,
   fun w hw id => h.sound.default id w.param (h.good.tables.mem w hw).2 (h.storable.params w hw).1.created, h.small⟩

theorem _root_.CCS.Spec.Stored.nonempty (h : Stored H little mem mem' mk hp o) : ∀ w ∈ o.space.dists, 0 < w.indexes.length := by
  intro w hw
  obtain ⟨h1, h2⟩ := h.holds w hw
  rw [← h.good.parts.dim w hw, h2]
  exact (recreate_dim h1).1

theorem placed_length (H : Host σ) (ds : List DistObj) : (placed H ds).length = ds.length := by simp [Spec.placed]

theorem placed_get {ds : List DistObj} {j : Nat} {d : Dist} (h : (placed H ds)[j]? = some d) :
    ∃ x, ds[j]? = some x ∧ d = H.view (H.distAt j) x := by
  unfold Spec.placed at h
  rw [List.getElem?_map, Option.map_eq_some_iff] at h
  obtain ⟨⟨x, k⟩, h1, rfl⟩ := h
  rw [List.getElem?_zipIdx, Option.map_eq_some_iff] at h1
  obtain ⟨y, h2, h3⟩ := h1
  simp only [Nat.zero_add, Prod.mk.injEq] at h3
  obtain ⟨rfl, rfl⟩ := h3
  exact ⟨y, h2, rfl⟩

theorem _root_.CCS.Spec.Stored.dims (h : Stored H little mem mem' mk hp o) {ds : List DistObj}
    (hr : recreateAll H.M (o.space.dists.map fun w => hp.dist w.dist.handle) = .ok ds) :
    (placed H ds).length = o.space.dists.length ∧
    ∀ (j : Nat) d w, (placed H ds)[j]? = some d → o.space.dists[j]? = some w → d.dim = w.indexes.length := by
  obtain ⟨h1, h2⟩ := placed_dims h.sound h.holds h.good.parts hr
  refine ⟨by rw [placed_length, h1], fun j d w hd hw => ?_⟩
  obtain ⟨x, hx, rfl⟩ := placed_get hd
  exact h2 j x w hx hw

end

end

end CCS
