import Verif.Lemmas.SpaceWire

/-! Helper lemmas about the serialization of configuration spaces: the calls made after reading. -/

namespace CCS

open Spec

section
variable {ops : FloatOps} {jen : Bytes → BitVec 32} {little : Bool} {mem : BitVec 64 → Param} {mk : Nat → Param → Out Dist}

theorem perform_cons (s : Space) (op : SpaceOp) (rest : List SpaceOp) :
    perform ops jen little mem mk s (op :: rest) =
      afterCall (Space.step ops jen little mem mk s op) >>= fun s' => perform ops jen little mem mk s' rest := by
  rw [perform, afterCall]
  cases h : Space.step ops jen little mem mk s op with
  | mk s' r => cases r <;> rfl

theorem perform_append : ∀ (a b : List SpaceOp) (s : Space), perform ops jen little mem mk s (a ++ b) =
    perform ops jen little mem mk s a >>= fun s' => perform ops jen little mem mk s' b
  | [], b, s => rfl
  | op :: a, b, s => by
    rw [List.cons_append, perform_cons, perform_cons]
    cases afterCall (Space.step ops jen little mem mk s op) with
    | ok s' => rw [Out.bind_ok, Out.bind_ok, perform_append a b s']
    | err e => rfl
    | ub => rfl

theorem addAll_perform {σ : Type} (H : Host σ) : ∀ (ps : List Param) (i : Nat) (s : Space),
    (∀ (j : Nat) p, ps[j]? = some p → mem (H.paramAt (i + j)) = p) →
    addAll H i s ps = perform ops jen little mem H.defaultDist s
      ((List.range' i ps.length).map fun j => .addParameter (H.paramAt j) none)
  | [], i, s, _ => rfl
  | p :: ps, i, s, h => by
    rw [addAll, List.length_cons, List.range'_succ, List.map_cons, perform_cons]
    have hp : mem (H.paramAt i) = p := by simpa using h 0 p rfl
    have : addParameter (fun _ => p) H.defaultDist s (H.paramAt i) none = addParameter mem H.defaultDist s (H.paramAt i) none := by
      unfold addParameter
      rw [hp]
    rw [this]
    show _ = afterCall (addParameter mem H.defaultDist s (H.paramAt i) none) >>= _
    congr 1
    funext s'
    exact addAll_perform H ps (i + 1) s' fun j q hq => by
      have := h (j + 1) q (by simpa using hq)
      rwa [show i + (j + 1) = i + 1 + j by omega] at this

theorem setConditions_perform : ∀ (cs : List (Nat × Expr)) (s : Space),
    setConditions s cs = perform ops jen little mem mk s (cs.map fun c => .setCondition c.1 c.2)
  | [], s => rfl
  | c :: cs, s => by
    rw [setConditions, List.map_cons, perform_cons]
    show _ = afterCall (setCondition s c.1 c.2) >>= _
    congr 1
    funext s'
    exact setConditions_perform cs s'

theorem conditionList_zip (f : Expr → Expr) : ∀ (ws : List PWrap) (i : Nat),
    ((conditionList i ws).map fun c => (c.1, f c.2)).map (fun c => SpaceOp.setCondition c.1 c.2) =
      (ws.zipIdx i).filterMap fun x => x.1.condition.map fun e => .setCondition x.2 (f e)
  | [], i => rfl
  | w :: ws, i => by
    rw [conditionList, List.zipIdx_cons, List.filterMap_cons]
    split
    next e he =>
      simp only [he, Option.map_some, List.map_cons]
      rw [conditionList_zip f ws (i + 1)]
    next he =>
      simp only [he, Option.map_none]
      exact conditionList_zip f ws (i + 1)

theorem setDistribution_rest (s : Space) {d : Dist} {is : List Nat} (h : d.dim = is.length) (rest : List Nat) :
    setDistribution mk s d (is ++ rest) = setDistribution mk s d is := by
  unfold setDistribution
  have h1 : (is ++ rest).take d.dim = is := by rw [h]; simp
  have h2 : is.take d.dim = is := by rw [h]; simp
  rw [h1, h2, if_neg (show ¬ (is ++ rest).length < d.dim by rw [h]; simp), if_neg (show ¬ is.length < d.dim by omega)]

theorem setDistributions_perform {σ : Type} (H : Host σ) : ∀ (ws : List DWrap) (ds : List DistObj) (k : Nat) (s : Space),
    ds.length = ws.length →
    (∀ (j : Nat) d w, ds[j]? = some d → ws[j]? = some w → (H.view (H.distAt (k + j)) d).dim = w.indexes.length) →
    setDistributions H k s (ws.flatMap (·.indexes)) ((ds.zip (ws.map (·.indexes))).map fun d => (d.1, d.2.length)) =
      perform ops jen little mem H.defaultDist s ((ws.zip ((ds.zipIdx k).map fun x => H.view (H.distAt x.2) x.1)).map fun x =>
        .setDistribution x.2 x.1.indexes)
  | [], [], k, s, _, _ => rfl
  | [], d :: ds, k, s, h, _ => by simp at h
  | w :: ws, [], k, s, h, _ => by simp at h
  | w :: ws, d :: ds, k, s, h, hd => by
    have h0 : (H.view (H.distAt k) d).dim = w.indexes.length := by simpa using hd 0 d w rfl rfl
    rw [List.flatMap_cons, List.map_cons, List.zip_cons_cons, List.map_cons, List.zipIdx_cons, List.map_cons, List.zip_cons_cons,
      List.map_cons, perform_cons, setDistributions]
    dsimp only
    rw [setDistribution_rest s h0]
    show _ = afterCall (setDistribution H.defaultDist s _ _) >>= _
    congr 1
    funext s'
    rw [List.drop_left]
    refine setDistributions_perform H ws ds (k + 1) s' (by simpa using h) fun j e v he hv => ?_
    have := hd (j + 1) e v (by simpa using he) (by simpa using hv)
    rwa [show k + (j + 1) = k + 1 + j by omega] at this

theorem addClauses_perform : ∀ (cs : List Expr) (s : Space),
    addClauses ops jen little s cs = perform ops jen little mem mk s (cs.map .addClause)
  | [], s => rfl
  | c :: cs, s => by
    rw [addClauses, List.map_cons, perform_cons]
    show _ = afterCall (addClause ops jen little s c) >>= _
    congr 1
    funext s'
    exact addClauses_perform cs s'

end

theorem buildOutcome_perform {σ : Type} (H : Host σ) {mem : BitVec 64 → Param} {s : Space} {ds : List DistObj}
    (hm : ∀ (i : Nat) w, s.params[i]? = some w → mem (H.paramAt i) = w.param) (hl : ds.length = s.dists.length)
    (hd : ∀ (j : Nat) d w, ds[j]? = some d → s.dists[j]? = some w → (H.view (H.distAt j) d).dim = w.indexes.length) :
    buildOutcome H s ds = perform H.M.ops H.jen H.little mem H.defaultDist Space.empty
      (recreation H.paramAt s (placed H ds)) := by
  unfold buildOutcome recreation placed
  rw [perform_append, perform_append, perform_append]
  rw [addAll_perform (ops := H.M.ops) (jen := H.jen) (little := H.little) (mem := mem) H _ 0 Space.empty ?_,
    List.length_map, List.range_eq_range']
  · cases perform H.M.ops H.jen H.little mem H.defaultDist Space.empty
      ((List.range' 0 s.params.length).map fun j => .addParameter (H.paramAt j) none) with
    | err e => rfl
    | ub => rfl
    | ok s₁ =>
      rw [Out.bind_ok, Out.bind_ok, setConditions_perform (ops := H.M.ops) (jen := H.jen) (little := H.little) (mem := mem)
        (mk := H.defaultDist), conditionList_zip (relabel (follow H.paramAt s)) s.params 0]
      cases perform H.M.ops H.jen H.little mem H.defaultDist s₁ (s.params.zipIdx.filterMap fun x => x.1.condition.map fun e =>
          .setCondition x.2 (relabel (follow H.paramAt s) e)) with
      | err e => rfl
      | ub => rfl
      | ok s₂ =>
        rw [Out.bind_ok, Out.bind_ok, setDistributions_perform (ops := H.M.ops) (jen := H.jen) (little := H.little) (mem := mem)
          H s.dists ds 0 s₂ hl (by simpa using hd)]
        congr 1
        funext s₃
        rw [addClauses_perform (mem := mem) (mk := H.defaultDist), List.map_map]
        rfl
  · intro j p hp
    rw [List.getElem?_map] at hp
    obtain ⟨w, hw, rfl⟩ := Option.map_eq_some_iff.mp hp
    rw [Nat.zero_add]
    exact hm j w hw

/-! ### Addresses -/

section
variable {σ : Type} {H : Host σ} {little : Bool} {hp : Heap} {o : SpaceObj}

theorem readOutcome_fresh (hn : (written o).Nodup) {mem : BitVec 64 → Param}
    (hm : ∀ (i : Nat) w, o.space.params[i]? = some w → mem (H.paramAt i) = w.param)
    (hd : ∀ ds, recreateAll H.M (o.space.dists.map fun w => hp.dist w.dist.handle) = .ok ds →
      ds.length = o.space.dists.length ∧
      ∀ (j : Nat) d w, ds[j]? = some d → o.space.dists[j]? = some w → (H.view (H.distAt j) d).dim = w.indexes.length) :
    readOutcome H little hp o = rebuilt H mem little hp o := by
  unfold readOutcome rebuilt
  unfold written at hn
  rw [List.nodup_cons] at hn
  obtain ⟨hn0, hn⟩ := hn
  rw [List.nodup_append] at hn
  obtain ⟨n1, hn, d1⟩ := hn
  rw [List.nodup_append] at hn
  obtain ⟨n2, hn, d2⟩ := hn
  rw [List.nodup_append] at hn
  obtain ⟨n3, n4, d3⟩ := hn
  simp only [List.mem_append, not_or] at hn0 d1 d2
  congr 1
  funext fresh
  have d1' : ∀ {h x : BitVec 64}, h ∈ o.space.handles → (x ∈ (conditionsOf o.space).map (·.info.handle) ∨
      x ∈ o.space.dists.map (·.dist.handle) ∨ x ∈ o.space.clauses.map (·.info.handle)) → x ≠ h :=
    fun hh hx => (d1 _ hh _ hx).symm
  rw [claimAll_ok (fun h hh => by simp; rintro rfl; exact hn0.1 hh) n1, Out.bind_ok, claimAll_ok ?_ n2, Out.bind_ok,
    distsOutcome_fresh H.M hp ?_ n3]
  · cases hr : recreateAll H.M (o.space.dists.map fun w => hp.dist w.dist.handle) with
    | err e => rfl
    | ub => rfl
    | ok ds =>
      rw [Out.bind_ok, Out.bind_ok, Out.bind_ok]
      dsimp only
      rw [claimAll_ok ?_ n4, Out.bind_ok, buildOutcome_perform H hm (hd ds hr).1 (hd ds hr).2]
      intro x hx hm'
      simp only [List.mem_append, List.mem_reverse, List.mem_cons, List.not_mem_nil, or_false] at hm'
      rcases hm' with h | h | h | h
      · exact d3 _ h _ hx rfl
      · exact d2 _ h _ (.inr hx) rfl
      · exact d1 _ h _ (.inr (.inr hx)) rfl
      · subst h; exact hn0.2.2.2 hx
  · intro w hw hm'
    have hx : w.dist.handle ∈ o.space.dists.map (·.dist.handle) := List.mem_map.mpr ⟨w, hw, rfl⟩
    simp only [List.mem_append, List.mem_reverse, List.mem_cons, List.not_mem_nil, or_false] at hm'
    rcases hm' with h | h | h
    · exact d2 _ h _ (.inl hx) rfl
    · exact d1 _ h _ (.inr (.inl hx)) rfl
    · rw [h] at hx; exact hn0.2.2.1 hx
  · intro x hx hm'
    simp only [List.mem_append, List.mem_reverse, List.mem_cons, List.not_mem_nil, or_false] at hm'
    rcases hm' with h | h
    · exact d1 _ h _ (.inl hx) rfl
    · subst h; exact hn0.2.1 hx

/-- Two objects with the same address. -/
theorem readOutcome_clash (hn : ¬ (written o).Nodup) {fresh : Bytes} (hg : newGenerator H.gens o.rng.name = .ok fresh)
    (hr : ∀ w ∈ o.space.dists, ∃ d, recreate H.M (hp.dist w.dist.handle) = .ok d) :
    readOutcome H little hp o = .ub := by
  unfold readOutcome
  rw [hg, Out.bind_ok]
  have hcl : claimAll [o.rngHandle] (o.space.handles ++ ((conditionsOf o.space).map (·.info.handle) ++
      (o.space.dists.map (·.dist.handle) ++ o.space.clauses.map (·.info.handle)))) = .ub := by
    rcases claimAll_cases (o.space.handles ++ ((conditionsOf o.space).map (·.info.handle) ++
      (o.space.dists.map (·.dist.handle) ++ o.space.clauses.map (·.info.handle)))) [o.rngHandle] with h | ⟨-, h2, h3⟩
    · exact h
    · exact absurd (List.nodup_cons.mpr ⟨fun hm => h2 _ hm (by simp), h3⟩) hn
  rw [claimAll_append] at hcl
  cases h1 : claimAll [o.rngHandle] o.space.handles with
  | ub => rfl
  | err e => rcases claimAll_cases o.space.handles [o.rngHandle] with h | ⟨h, -⟩ <;> rw [h] at h1 <;> cases h1
  | ok s₁ =>
    rw [h1, Out.bind_ok, claimAll_append] at hcl
    rw [Out.bind_ok]
    cases h2 : claimAll s₁ ((conditionsOf o.space).map (·.info.handle)) with
    | ub => rfl
    | err e => rcases claimAll_cases ((conditionsOf o.space).map (·.info.handle)) s₁ with h | ⟨h, -⟩ <;> rw [h] at h2 <;> cases h2
    | ok s₂ =>
      rw [h2, Out.bind_ok, claimAll_append] at hcl
      rw [Out.bind_ok]
      obtain ⟨ds, hds⟩ := distsOutcome_clash H.M hp (seen := s₂) hr
      rw [hds]
      cases h3 : claimAll s₂ (o.space.dists.map (·.dist.handle)) with
      | ub => rfl
      | err e => rcases claimAll_cases (o.space.dists.map (·.dist.handle)) s₂ with h | ⟨h, -⟩ <;> rw [h] at h3 <;> cases h3
      | ok s₃ =>
        rw [h3, Out.bind_ok] at hcl
        rw [Out.bind_ok, Out.bind_ok]
        dsimp only
        rw [hcl]
        rfl

end

end CCS
