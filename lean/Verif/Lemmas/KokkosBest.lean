import Verif.Lemmas.KokkosTrial

/-!
# Lemmas on requests of the Kokkos connector

The invariant of `Verif.Lemmas.KokkosTrial` over requests, and over whole runs.
-/

namespace CCS.Kokkos

open CCS Spec

section
variable {ops : FloatOps} {toInt : F64 → Option (BitVec 64)} {jen : Bytes → BitVec 32} {little : Bool} {mk : Nat → Param → Out Dist}

/-- Asking leaves the space alone and gives legal values; suggesting gives the configuration of an optimum with the same features, if any. -/
theorem choose_ok {st st0 : State} {r : Region} {c : Bool} {g : Supply} {s : Space} {x : Suggested} (hp : Plain ops jen little st0 r.space)
    (h : choose ops jen little st r c g = (s, .ok x)) :
    s = r.space ∧
    ((∃ v, x = .fresh v ∧ Fit r.space v ∧
        (c = true → ∀ o ∈ r.tuner.optima, ¬ SameBinding (st.feats g.features) (st.feats (st.evals o).features))) ∨
      c = true ∧ ∃ o ∈ r.tuner.optima, SameBinding (st.feats g.features) (st.feats (st.evals o).features) ∧
        x = .known (st.evals o).evaluation.configuration) := by
  have hask : ∀ {n : Nat}, askOne ops jen little r.space n = (s, .ok x) → s = r.space ∧ ∃ v, x = .fresh v ∧ Fit r.space v := fun {n} ha => by
    obtain ⟨sug, h1, h2⟩ := askOne_plain hp n
    rw [h1] at ha
    simp only [Prod.mk.injEq] at ha
    exact ⟨ha.1.symm, h2 x ha.2⟩
  have hsame : ∀ e, sameFeatures little st.feats st.evals g.features e = true ↔
      SameBinding (st.feats g.features) (st.feats (st.evals e).features) := fun e => by
    unfold sameFeatures
    rw [beq_iff_eq]
    exact (bindingCmp_total little st.feats).eq_iff g.features (st.evals e).features
  unfold choose at h
  cases c with
  | false =>
    simp only [Bool.false_eq_true, if_false] at h
    unfold askFor at h
    split at h
    · obtain ⟨h1, v, h2, h3⟩ := hask h
      exact ⟨h1, .inl ⟨v, h2, h3, by simp⟩⟩
    all_goals simp at h
  | true =>
    simp only [if_true] at h
    unfold Tuner.suggestFor at h
    split at h
    · simp at h
    split at h
    · simp at h
    · simp at h
    · simp at h
    simp only at h
    split at h
    · split at h
      · next o ho =>
        rw [pickLoop_filter] at ho
        obtain ⟨h1, h2⟩ := List.mem_filter.1 (List.mem_of_getElem? ho)
        simp only [Prod.mk.injEq, Out.ok.injEq] at h
        exact ⟨h.1.symm, .inr ⟨rfl, o, h1, (hsame o).1 h2, h.2.symm⟩⟩
      · simp at h
    · next hl =>
      obtain ⟨h1, v, h2, h3⟩ := hask h
      refine ⟨h1, .inl ⟨v, h2, h3, fun _ o ho hs => hl ?_⟩⟩
      exact List.length_pos_of_mem (List.mem_filter.2 ⟨ho, (hsame o).2 hs⟩)

/-- Finding or making the tuner. -/
theorem core_find {st st1 : State} {j : Journal} {key cids tids : List Nat} {g : Supply} {t : BitVec 64} {c : Bool} {cid : Nat} {cv tv : List Var}
    (hmk : OneDimensional mk) (hmkb : ∀ id p d, mk id p = .ok d → WellBehaved d) (hc : Core ops jen little st j)
    (hd : Declared ops toInt jen little st j) (ha : Allocated st (.request cid cv tv g)) (hkey : ∀ id ∈ cids, id ∈ key)
    (h : findTuner ops mk st key cids tids g = .ok (st1, t, c)) :
    Core ops jen little st1 j ∧ Declared ops toInt jen little st1 j ∧ look st1.tuners key = some (t, c) ∧
    ¬ FeaturesInUse st1 g.features ∧ ¬ ConfigurationInUse st1 g.configuration := by
  obtain ⟨ha1, ha2, ha3, ha4, ha5⟩ := ha
  rcases findTuner_ok h with ⟨h1, rfl⟩ | ⟨h1, rfl, rfl, cs, fs, p, h2, h3, h4, rfl⟩
  · exact ⟨hc, hd, h1, ha4, ha5⟩
  have hg : Grows st { st with
      params := store st.params g.htime p.1
      ospaces := store st.ospaces g.ospace p.2
      regions := store st.regions g.tuner ⟨cs, g.fspace, fs, g.ospace, Tuner.empty⟩
      tuners := put st.tuners key (g.tuner, false) } j j :=
    ⟨fun _ _ h => h, fun _ _ h => h, fun _ h => h, fun _ h => h, fun a hu => store_ne fun e => ha1 (e ▸ hu)⟩
  have hne : ∀ k t c, look st.tuners k = some (t, c) → t ≠ g.tuner := fun k t c hk e => ha2 (e ▸ ⟨k, c, hk⟩)
  have hold : ∀ k t c, look (put st.tuners key (g.tuner, false)) k = some (t, c) →
      (k = key ∧ t = g.tuner ∧ c = false) ∨ (k ≠ key ∧ look st.tuners k = some (t, c)) := fun k t c hk => by
    rw [look_put] at hk
    split at hk
    · next e =>
      simp only [Option.some.injEq, Prod.mk.injEq] at hk
      exact .inl ⟨e, hk.1.symm, hk.2.symm⟩
    · next e => exact .inr ⟨e, hk⟩
  have huse : ∀ e, EvaluationInUse { st with
      params := store st.params g.htime p.1
      ospaces := store st.ospaces g.ospace p.2
      regions := store st.regions g.tuner ⟨cs, g.fspace, fs, g.ospace, Tuner.empty⟩
      tuners := put st.tuners key (g.tuner, false) } e → EvaluationInUse st e := fun e he => by
    obtain ⟨t, ⟨k, c, hk⟩, he⟩ := he
    rcases hold k t c hk with ⟨-, rfl, -⟩ | ⟨-, hk⟩
    · simp only [store_same] at he
      cases he
    · simp only [store_ne (hne k t c hk)] at he
      exact ⟨t, ⟨k, c, hk⟩, he⟩
  refine ⟨⟨fun k t c hk => ?_, fun k k' t c c' hk hk' => ?_, fun k hk => ?_, fun c x hx => ?_, hc.closed⟩, ?_, ?_, ?_, ?_⟩
  · rcases hold k t c hk with ⟨rfl, rfl, rfl⟩ | ⟨-, hk⟩
    · simp only [store_same]
      obtain ⟨hgr, hfs⟩ := addContext_grown (Grown.empty) h3
      refine ⟨⟨(addTuning_plain hmk hmkb (fun id a hl => ?_) (plain_empty st) h2).mono hg, (grown_table hgr).1, fun x hx => ?_, fun x hx => ?_, ?_, ?_, ?_⟩, by simp⟩
      · obtain ⟨_, _, _, _, h5⟩ := hd.outputs id a hl; exact h5
      · rcases hfs x hx with hx | ⟨id, h5, h6⟩
        · cases hx
        · exact ⟨id, hkey id h5, h6⟩
      · rcases hfs x hx with hx' | ⟨id, h5, h6⟩
        · cases hx'
        · rw [hg.params _ ⟨id, .inl h6⟩]
          exact (grown_table hgr).2 x hx
      · simp only [store_same]; exact timeSpace_ok h4
      · rw [hc.absent k h1]; exact .nil
      · exact ⟨fun o ho => (by cases ho), fun o ho => (by cases ho)⟩
    · simp only [store_ne (hne k t c hk)]
      obtain ⟨h5, h6⟩ := hc.tuners k t c hk
      exact ⟨h5.mono hg (store_ne (ha3 t ⟨k, c, hk⟩)) (fun _ _ => rfl) (fun _ _ => rfl) (fun _ _ => rfl) rfl, h6⟩
  · rcases hold k t c hk with ⟨rfl, rfl, -⟩ | ⟨-, hk⟩ <;> rcases hold k' _ c' hk' with ⟨h5, h6, -⟩ | ⟨-, hk'⟩
    · exact h5.symm
    · exact absurd rfl (hne k' _ c' hk')
    · exact absurd h6 (hne k _ c hk)
    · exact hc.distinct k k' t c c' hk hk'
  · rw [look_put] at hk
    split at hk
    · cases hk
    · exact hc.absent k hk
  · obtain ⟨o, k, b, h5, h6, h7, h8, h9⟩ := hc.opened c x hx
    refine ⟨o, k, b, h5, ?_, h7, h8, ?_⟩
    · simp only [look_put]
      rw [if_neg fun e => by rw [e, h1] at h6; cases h6]
      exact h6
    · simp only [store_ne (hne _ _ _ h6)]
      exact h9.mono hg rfl rfl rfl rfl rfl
  · exact hd.congr rfl rfl rfl rfl fun a hu => store_ne fun e => ha1 (e ▸ hu)
  · simp only [look_put, if_true]
  · rintro (⟨e, he, h5⟩ | h5)
    · exact ha4 (.inl ⟨e, huse e he, h5⟩)
    · exact ha4 (.inr h5)
  · rintro (⟨e, he, h5⟩ | h5)
    · exact ha5 (.inl ⟨e, huse e he, h5⟩)
    · exact ha5 (.inr h5)

/-- The test of convergence. -/
theorem core_test {st st2 : State} {j : Journal} {key : List Nat} {t : BitVec 64} {c0 c : Bool} {fa ca : BitVec 64}
    (hc : Core ops jen little st j) (hd : Declared ops toInt jen little st j) (hk : look st.tuners key = some (t, c0))
    (hfa : ¬ FeaturesInUse st fa) (hca : ¬ ConfigurationInUse st ca)
    (h : testConvergence little st key t c0 = .ok (st2, c)) :
    Core ops jen little st2 j ∧ Declared ops toInt jen little st2 j ∧ look st2.tuners key = some (t, c) ∧
    ¬ FeaturesInUse st2 fa ∧ ¬ ConfigurationInUse st2 ca ∧ (c = true ↔ 500 ≤ (keyDone j key).length) := by
  obtain ⟨h1, h2⟩ := testConvergence_ok h
  obtain ⟨h3, h4⟩ := hc.tuners key t c0 hk
  have hlen : (st.regions t).tuner.history.length = (keyDone j key).length := h3.history.length_eq
  have hiff : c = true ↔ 500 ≤ (keyDone j key).length := by
    rw [h1, ← hlen]
    exact ⟨fun h => h.elim h4 id, .inr⟩
  rcases h2 with ⟨rfl, rfl⟩ | ⟨rfl, rfl⟩
  · exact ⟨hc, hd, hk, hfa, hca, hiff⟩
  have hold : ∀ k t' c', look (put st.tuners key (t, true)) k = some (t', c') →
      ∃ c'', look st.tuners k = some (t', c'') ∧ (k = key ∧ c' = true ∨ c'' = c') := fun k t' c' hk' => by
    rw [look_put] at hk'
    split at hk'
    · next e =>
      simp only [Option.some.injEq, Prod.mk.injEq] at hk'
      rw [e, ← hk'.1, ← hk'.2]
      exact ⟨c0, hk, .inl ⟨rfl, rfl⟩⟩
    · exact ⟨c', hk', .inr rfl⟩
  have huse : ∀ e, EvaluationInUse { st with tuners := put st.tuners key (t, true) } e → EvaluationInUse st e := fun e he => by
    obtain ⟨t', ⟨k, c', hk'⟩, he⟩ := he
    obtain ⟨c'', h5, -⟩ := hold k t' c' hk'
    exact ⟨t', ⟨k, c'', h5⟩, he⟩
  have hg : Grows st { st with tuners := put st.tuners key (t, true) } j j := Grows.refl rfl rfl rfl rfl rfl
  refine ⟨⟨fun k t' c' hk' => ?_, fun k k' t' c' c'' hk' hk'' => ?_, fun k hk' => ?_, fun c' x hx => ?_, hc.closed⟩, ?_, ?_, ?_, ?_, hiff⟩
  · obtain ⟨c'', h5, h6⟩ := hold k t' c' hk'
    obtain ⟨h7, h8⟩ := hc.tuners k t' c'' h5
    refine ⟨h7.mono hg rfl (fun _ _ => rfl) (fun _ _ => rfl) (fun _ _ => rfl) rfl, fun hc' => ?_⟩
    rcases h6 with ⟨rfl, -⟩ | rfl
    · rw [show (st.regions t').tuner.history.length = (keyDone j k).length from h7.history.length_eq]
      exact hiff.1 rfl
    · exact h8 hc'
  · obtain ⟨_, h5, -⟩ := hold k t' c' hk'
    obtain ⟨_, h6, -⟩ := hold k' t' c'' hk''
    exact hc.distinct _ _ _ _ _ h5 h6
  · rw [look_put] at hk'
    split at hk'
    · cases hk'
    · exact hc.absent k hk'
  · obtain ⟨o, k, b, h5, h6, h7, h8, h9⟩ := hc.opened c' x hx
    by_cases hkk : k = key
    · rw [hkk, hk] at h6
      simp only [Option.some.injEq, Prod.mk.injEq] at h6
      refine ⟨o, k, true, h5, ?_, h7, h8, h9.mono hg rfl rfl rfl rfl rfl⟩
      simp only [look_put, hkk, if_true, h6.1]
    · refine ⟨o, k, b, h5, ?_, h7, h8, h9.mono hg rfl rfl rfl rfl rfl⟩
      simp only [look_put, if_neg hkk]
      exact h6
  · exact hd.congr rfl rfl rfl rfl fun a hu => rfl
  · simp only [look_put, if_true]
  · rintro (⟨e, he, h5⟩ | h5)
    · exact hfa (.inl ⟨e, huse e he, h5⟩)
    · exact hfa (.inr h5)
  · rintro (⟨e, he, h5⟩ | h5)
    · exact hca (.inl ⟨e, huse e he, h5⟩)
    · exact hca (.inr h5)

/-- Opening a context. -/
theorem core_open {st : State} {j : Journal} {cid : Nat} {x : Open} {o : Trial} {k : List Nat} {b : Bool} (hc : Core ops jen little st j)
    (hk : look st.tuners k = some (x.tuner, b)) (hs : o.start = x.start) (hm : o.measured = !x.converged)
    (ht : TrialKept st j k (st.regions x.tuner) o x.features x.configuration) :
    Core ops jen little { st with contexts := put st.contexts cid x } { j with opened := put j.opened cid o } := by
  have hg : Grows st { st with contexts := put st.contexts cid x } j { j with opened := put j.opened cid o } :=
    Grows.refl rfl rfl rfl rfl rfl
  refine ⟨fun k t c hk => ?_, hc.distinct, hc.absent, fun c y hy => ?_, fun c hy => ?_⟩
  · obtain ⟨h1, h2⟩ := hc.tuners k t c hk
    exact ⟨h1.mono hg rfl (fun _ _ => rfl) (fun _ _ => rfl) (fun _ _ => rfl) rfl, h2⟩
  · simp only [look_put] at hy ⊢
    split at hy
    · next he =>
      cases hy
      exact ⟨o, k, b, by rw [if_pos he], hk, hs, hm, ht.mono hg rfl rfl rfl rfl rfl⟩
    · next hne =>
      obtain ⟨o', k', b', h1, h2, h3, h4, h5⟩ := hc.opened c y hy
      exact ⟨o', k', b', by rw [if_neg hne]; exact h1, h2, h3, h4, h5.mono hg rfl rfl rfl rfl rfl⟩
  · simp only [look_put] at hy ⊢
    split at hy
    · cases hy
    · next hne => rw [if_neg hne]; exact hc.closed c hy

/-- What a request leaves: the context it opened, and where its configuration comes from. -/
structure Requested (st : State) (j : Journal) (cid : Nat) (key : List Nat) (x : Open) : Prop where
  opened : look st.contexts cid = some x
  tuner : look st.tuners key = some (x.tuner, x.converged)
  converged : x.converged = true ↔ 500 ≤ (keyDone j key).length
  choice : x.converged = true →
    (∃ o ∈ (st.regions x.tuner).tuner.optima, SameBinding (st.feats x.features) (st.feats (st.evals o).features) ∧
      x.configuration = (st.evals o).evaluation.configuration) ∨
    ∀ o ∈ (st.regions x.tuner).tuner.optima, ¬ SameBinding (st.feats x.features) (st.feats (st.evals o).features)

theorem core_request {st st' : State} {j : Journal} {cid : Nat} {cv tv : List Var} {g : Supply} {sent : List Raw}
    (hmk : OneDimensional mk) (hmkb : ∀ id p d, mk id p = .ok d → WellBehaved d) (hc : Core ops jen little st j)
    (hd : Declared ops toInt jen little st j) (ha : Allocated st (.request cid cv tv g))
    (hn : Orderly ops toInt jen little j (.request cid cv tv g))
    (h : requestValues ops jen little mk st cid cv tv g = .ok (st', sent)) :
    Core ops jen little st' (j.next (.request cid cv tv g) (.values sent)) ∧
    Declared ops toInt jen little st' (j.next (.request cid cv tv g) (.values sent)) ∧ sent.length = tv.length ∧
    ∃ x, Requested st' j cid (uniqNat (requestVars cv tv)) x := by
  obtain ⟨st1, st2, t, c0, c, top, rest, f, s, sug, st4, cfg, vs, h1, h2, h3, h4, h5, h6, h7, h8, rfl⟩ := request_ok h
  rw [show regionId (cv.map (·.id)) (tv.map (·.id)) = uniqNat (requestVars cv tv) from rfl] at h1 h2
  obtain ⟨hc1, hd1, hk1, hf1, hg1⟩ := core_find hmk hmkb hc hd ha
    (fun id hid => mem_uniqNat.2 (List.mem_append_left _ hid)) h1
  obtain ⟨hc2, hd2, hk2, hf2, hg2, hconv⟩ := core_test hc1 hd1 hk1 hf1 hg1 h2
  clear h1 h2 hc1 hd1 hk1 hf1 hg1 hc hd ha h
  obtain ⟨hn1, hn2, hn3⟩ := hn
  obtain ⟨hr, -⟩ := hc2.tuners _ _ _ hk2
  -- the features
  obtain ⟨b1, b2, b3⟩ := requestFeatures_ok (st := { st2 with stack := (if top then c else false) :: st2.stack }) (key := uniqNat (requestVars cv tv)) hr.table hr.owned (fun id hid a hl => by
    obtain ⟨name, info, h9, -⟩ := hd2.inputs id a hl
    rcases List.mem_append.1 (mem_uniqNat.1 hid) with hid | hid
    · obtain ⟨y, h10, h11⟩ := List.mem_map.1 hid; exact ⟨y, h10, h11⟩
    · obtain ⟨y, h10, h11⟩ := List.mem_map.1 hid
      obtain ⟨name', info', h12, -⟩ := hn3 y h10
      exact absurd h11.symm (hd2.apart _ h9 _ h12)) hn1 h4
  -- the choice
  have hsug : ∃ x, sug = .ok x := by
    cases sug with
    | ok x => exact ⟨x, rfl⟩
    | err e => simp [keepConfiguration] at h6
    | ub => simp [keepConfiguration] at h6
  obtain ⟨x, rfl⟩ := hsug
  obtain ⟨rfl, hch⟩ := choose_ok hr.plain h5
  have hreg : store st2.regions t { st2.regions t with space := (st2.regions t).space } = st2.regions := by
    funext a
    unfold store
    split
    · next e => rw [e]
    · rfl
  rw [hreg] at h6
  -- the state with the features and the configuration
  have hg3 : ∀ configs, Grows st2 { st2 with
      stack := (if top then c else false) :: st2.stack
      feats := store st2.feats g.features f
      configs := configs } j j := fun configs => Grows.refl rfl rfl rfl rfl rfl
  have key : ∃ configs, (∀ a, ConfigurationInUse st2 a → configs a = st2.configs a) ∧ st4 = { st2 with
      stack := (if top then c else false) :: st2.stack
      feats := store st2.feats g.features f
      configs := configs } ∧ Fit (st2.regions t).space (configs cfg) ∧ (c = true →
        (∃ o ∈ (st2.regions t).tuner.optima, SameBinding (store st2.feats g.features f g.features)
          (store st2.feats g.features f (st2.evals o).features) ∧ cfg = (st2.evals o).evaluation.configuration) ∨
        ∀ o ∈ (st2.regions t).tuner.optima, ¬ SameBinding (store st2.feats g.features f g.features)
          (store st2.feats g.features f (st2.evals o).features)) := by
    rcases keepConfiguration_ok h6 with ⟨h9, rfl⟩ | ⟨v, h9, rfl, rfl⟩
    · rcases hch with ⟨v, h10, -⟩ | ⟨-, o, h10, h11, h12⟩
      · rw [h10] at h9; cases h9
      · rw [h12] at h9
        simp only [Out.ok.injEq, Suggested.known.injEq] at h9
        refine ⟨st2.configs, fun _ _ => rfl, rfl, ?_, fun _ => .inl ⟨o, h10, h11, h9.symm⟩⟩
        obtain ⟨m, -, hm⟩ := forall₂_left hr.history (hr.fastest.best o h10).1
        rw [← h9]
        exact hm.trial.fit
    · rcases hch with ⟨v', h10, h11, h12⟩ | ⟨-, o, -, -, h12⟩
      · rw [h10] at h9
        simp only [Out.ok.injEq, Suggested.fresh.injEq] at h9
        subst h9
        exact ⟨store st2.configs g.configuration v', fun a hu => store_ne fun e => hg2 (e ▸ hu), rfl, by rw [store_same]; exact h11, fun hc => .inr (h12 hc)⟩
      · rw [h12] at h9; cases h9
  obtain ⟨configs, hcf, rfl, hfit, hbest⟩ := key
  have hc3 : Core ops jen little { st2 with
      stack := (if top then c else false) :: st2.stack
      feats := store st2.feats g.features f
      configs := configs } j := hc2.mono (hg3 configs) rfl rfl rfl rfl rfl (fun _ _ => rfl) (fun _ _ => rfl) hcf
    fun a hu => store_ne fun e => hf2 (e ▸ hu)
  -- the values
  have hs := sendLoop_ok h8
  obtain ⟨hz1, hz2, -⟩ := zip_sent hs
  have hvs : ∀ (i : Nat) v a, (st2.regions t).space.getIndex a = .ok i → vs[i]? = some v → (configs cfg)[i]? = some v := fun i v a hi hv => by
    obtain ⟨w, hw, -⟩ := getIndex_plain hr.plain hi
    have hlt := (List.getElem?_eq_some_iff.1 hw).1
    unfold configurationValues at h7
    simp only at h7
    by_cases hb : tv.length < (configs cfg).length
    · rw [if_pos hb] at h7; cases h7
    · rw [if_neg hb] at h7
      cases h7
      rw [← hfit.1] at hlt
      rwa [List.getElem?_append_left hlt] at hv
  have htrial : TrialKept { st2 with
      stack := (if top then c else false) :: st2.stack
      feats := store st2.feats g.features f
      configs := configs } j (uniqNat (requestVars cv tv)) (st2.regions t) (j.trial cv tv sent g.clock) g.features cfg := by
    refine ⟨?_, hfit, fun y hy => ?_, fun y hy => ?_, by simp only [store_same]; exact b1, by simp only [store_same]; exact b2⟩
    · unfold Trial.vars Journal.trial
      simp only [hz2, List.map_map]
      rfl
    · obtain ⟨z, h9, h10, a, i, v, h11, h12, h13, h14⟩ := hz1 y hy
      obtain ⟨name, info, h15, h16⟩ := hn3 z h9
      rw [h10] at h11 h15
      rw [h16] at h14
      exact ⟨name, info, a, i, v, h15, h11, h12, hvs i v a h12 h13, h14⟩
    · obtain ⟨z, h9, rfl⟩ := List.mem_map.1 hy
      obtain ⟨a, i, d, h10, h11, h12, h13⟩ := b3 z h9
      obtain ⟨name, info, h15, h16⟩ := hn2 z h9
      rw [h16] at h13
      exact ⟨name, info, a, i, d, h15, h10, h11, by simp only [store_same]; exact h12, h13⟩
  refine ⟨core_open (x := ⟨g.clock, t, g.features, cfg, c⟩) hc3 hk2 rfl ?_ htrial, hd2.congr rfl rfl rfl rfl fun _ _ => rfl, hs.length_eq.symm,
    ⟨g.clock, t, g.features, cfg, c⟩, ⟨by simp only [look_put, if_true], hk2, hconv, hbest⟩⟩
  simp only [Journal.trial, of_key]
  cases c with
  | true => exact decide_eq_false (Nat.not_lt.2 (hconv.1 rfl))
  | false => exact decide_eq_true (Nat.not_le.1 fun hh => nomatch hconv.2 hh)

/-! ### Runs -/

variable (ops toInt jen little) in
/-- The invariant. -/
def Keeps (st : State) (j : Journal) : Prop := Core ops jen little st j ∧ Declared ops toInt jen little st j

/-- One callback keeps the invariant. -/
theorem keeps_step {st st' : State} {j : Journal} {e : Event} {rep : Reply} (hmk : OneDimensional mk)
    (hmkb : ∀ id p d, mk id p = .ok d → WellBehaved d) (hk : Keeps ops toInt jen little st j) (ha : Allocated st e)
    (hn : Orderly ops toInt jen little j e) (h : Kokkos.step ops toInt jen little mk st e = .ok (st', rep)) :
    Keeps ops toInt jen little st' (j.next e rep) := by
  obtain ⟨hc, hd⟩ := hk
  cases e with
  | init v => exact hn.elim
  | finalize => exact hn.elim
  | beginContext c => cases h; exact ⟨hc, hd⟩
  | kernel =>
    unfold Kokkos.step at h
    obtain ⟨y, -, h⟩ := bind_eq_ok h
    cases h
    exact ⟨hc, hd⟩
  | declareInput name id info a =>
    unfold Kokkos.step at h
    obtain ⟨p, h1, h⟩ := bind_eq_ok h
    cases h
    exact core_declareInput hc hd ha hn h1
  | declareOutput name id info a =>
    unfold Kokkos.step at h
    obtain ⟨p, h1, h⟩ := bind_eq_ok h
    cases h
    exact core_declareOutput hc hd ha hn h1
  | request cid cv tv g =>
    unfold Kokkos.step at h
    obtain ⟨⟨st1, sent⟩, h1, h⟩ := bind_eq_ok h
    cases h
    obtain ⟨h2, h3, -⟩ := core_request hmk hmkb hc hd ha hn h1
    exact ⟨h2, h3⟩
  | endContext cid stop a =>
    unfold Kokkos.step at h
    obtain ⟨st1, h1, h⟩ := bind_eq_ok h
    cases h
    exact core_end hc hd ha h1

/-- So does a run. -/
theorem keeps_run (hmk : OneDimensional mk) (hmkb : ∀ id p d, mk id p = .ok d → WellBehaved d) :
    ∀ {es : List Event} {st st' : State} {j : Journal} {rs : List Reply}, Keeps ops toInt jen little st j →
    Sensible ops toInt jen little mk st j es → Kokkos.run ops toInt jen little mk st es = .ok (st', rs) →
    Keeps ops toInt jen little st' (j.after (es.zip rs))
  | [], st, st', j, rs, hk, _, h => by cases h; exact hk
  | e :: es, st, st', j, rs, hk, ⟨ha, hn, hs⟩, h => by
    unfold Kokkos.run at h
    obtain ⟨⟨st1, r⟩, h1, h⟩ := bind_eq_ok h
    obtain ⟨⟨st2, rs'⟩, h2, h⟩ := bind_eq_ok h
    cases h
    have := keeps_run hmk hmkb (keeps_step hmk hmkb hk ha hn h1) (hs _ _ h1) h2
    exact this

/-! ### Addresses that are never given twice -/

/-- What is in use was given before. -/
structure Past (st : State) (used : List (BitVec 64)) : Prop where
  parameter : ∀ a, ParameterInUse st a → a ∈ used
  tuner : ∀ a, TunerInUse st a → a ∈ used
  ospace : ∀ t, TunerInUse st t → (st.regions t).ospace ∈ used
  evaluation : ∀ a, EvaluationInUse st a → a ∈ used
  features : ∀ a, FeaturesInUse st a → a ∈ used
  configuration : ∀ a, ConfigurationInUse st a → a ∈ used

theorem Past.allocated {st : State} {used : List (BitVec 64)} (hp : Past st used) (e : Event) (hd : ∀ a ∈ eventAddresses e, a ∉ used) :
    Allocated st e := by
  cases e with
  | init _ => trivial
  | finalize => trivial
  | kernel => trivial
  | beginContext _ => trivial
  | declareInput name id info a => exact fun h => hd a (by simp [eventAddresses]) (hp.parameter a h)
  | declareOutput name id info a => exact fun h => hd a (by simp [eventAddresses]) (hp.parameter a h)
  | endContext c stop a => exact fun h => hd a (by simp [eventAddresses]) (hp.evaluation a h)
  | request c cv tv g =>
    refine ⟨fun h => hd _ ?_ (hp.parameter _ h), fun h => hd _ ?_ (hp.tuner _ h), fun t h e => hd g.ospace ?_ (e ▸ hp.ospace t h),
      fun h => hd _ ?_ (hp.features _ h), fun h => hd _ ?_ (hp.configuration _ h)⟩ <;> simp [eventAddresses]

/-- The same tuners, histories, evaluations and contexts. -/
theorem Past.congr {st st' : State} {used used' : List (BitVec 64)} (hp : Past st used) (hu : ∀ a ∈ used, a ∈ used')
    (h1 : st'.tuners = st.tuners) (h2 : st'.regions = st.regions) (h3 : st'.contexts = st.contexts) (h4 : st'.evals = st.evals)
    (h5 : ∀ a, ParameterInUse st' a → a ∈ used') : Past st' used' := by
  have ht : ∀ t, TunerInUse st' t → TunerInUse st t := fun t ⟨k, c, h⟩ => ⟨k, c, h1 ▸ h⟩
  have he : ∀ e, EvaluationInUse st' e → EvaluationInUse st e := fun e ⟨t, h, h'⟩ => ⟨t, ht t h, h2 ▸ h'⟩
  refine ⟨h5, fun a h => hu _ (hp.tuner a (ht a h)), fun t h => ?_, fun a h => hu _ (hp.evaluation a (he a h)), fun a h => ?_, fun a h => ?_⟩
  · rw [h2]; exact hu _ (hp.ospace t (ht t h))
  · refine hu _ (hp.features a ?_)
    rcases h with ⟨e, h, h'⟩ | ⟨c, x, h, h'⟩
    · exact .inl ⟨e, he e h, by rw [← h4]; exact h'⟩
    · exact .inr ⟨c, x, by rw [← h3]; exact h, h'⟩
  · refine hu _ (hp.configuration a ?_)
    rcases h with ⟨e, h, h'⟩ | ⟨c, x, h, h'⟩
    · exact .inl ⟨e, he e h, by rw [← h4]; exact h'⟩
    · exact .inr ⟨c, x, by rw [← h3]; exact h, h'⟩

theorem Past.request {st st' : State} {j : Journal} {used : List (BitVec 64)} {cid : Nat} {cv tv : List Var} {g : Supply} {sent : List Raw}
    (hp : Past st used) (hmk : OneDimensional mk) (hmkb : ∀ id p d, mk id p = .ok d → WellBehaved d) (hc : Core ops jen little st j)
    (hd : Declared ops toInt jen little st j) (ha : Allocated st (.request cid cv tv g))
    (h : requestValues ops jen little mk st cid cv tv g = .ok (st', sent)) : Past st' (used ++ eventAddresses (.request cid cv tv g)) := by
  obtain ⟨st1, st2, t, c0, c, top, rest, f, s, sug, st4, cfg, vs, h1, h2, h3, h4, h5, h6, h7, h8, rfl⟩ := request_ok h
  rw [show regionId (cv.map (·.id)) (tv.map (·.id)) = uniqNat (requestVars cv tv) from rfl] at h1 h2
  obtain ⟨hc1, hd1, hk1, hf1, hg1⟩ := core_find hmk hmkb hc hd ha
    (fun id hid => mem_uniqNat.2 (List.mem_append_left _ hid)) h1
  obtain ⟨hc2, hd2, hk2, hf2, hg2, hconv⟩ := core_test hc1 hd1 hk1 hf1 hg1 h2
  have hu : ∀ a ∈ used, a ∈ used ++ eventAddresses (.request cid cv tv g) := fun a h => List.mem_append_left _ h
  have hp1 : Past st1 (used ++ eventAddresses (.request cid cv tv g)) := by
    rcases findTuner_ok h1 with ⟨-, rfl⟩ | ⟨h9, rfl, rfl, cs, fs, p, -, -, -, rfl⟩
    · exact hp.congr hu rfl rfl rfl rfl fun a h => hu _ (hp.parameter a h)
    · have hne : ∀ k t c, look st.tuners k = some (t, c) → t ≠ g.tuner := fun k t c hk e => ha.2.1 (e ▸ ⟨k, c, hk⟩)
      have hold : ∀ k t c, look (put st.tuners (uniqNat (requestVars cv tv)) (g.tuner, false)) k = some (t, c) →
          t = g.tuner ∨ look st.tuners k = some (t, c) := fun k t c hk => by
        rw [look_put] at hk
        split at hk
        · simp only [Option.some.injEq, Prod.mk.injEq] at hk
          exact .inl hk.1.symm
        · exact .inr hk
      have huse : ∀ e, EvaluationInUse { st with
          params := store st.params g.htime p.1
          ospaces := store st.ospaces g.ospace p.2
          regions := store st.regions g.tuner ⟨cs, g.fspace, fs, g.ospace, Tuner.empty⟩
          tuners := put st.tuners (uniqNat (requestVars cv tv)) (g.tuner, false) } e → EvaluationInUse st e := fun e he => by
        obtain ⟨t, ⟨k, c, hk⟩, he⟩ := he
        rcases hold k t c hk with rfl | hk
        · simp only [store_same] at he
          cases he
        · simp only [store_ne (hne k t c hk)] at he
          exact ⟨t, ⟨k, c, hk⟩, he⟩
      refine ⟨fun a h => hu _ (hp.parameter a h), fun t h => ?_, fun t h => ?_, fun a h => hu _ (hp.evaluation a (huse a h)), fun a h => ?_,
        fun a h => ?_⟩
      · obtain ⟨k, c, hk⟩ := h
        rcases hold k t c hk with rfl | hk
        · simp [eventAddresses]
        · exact hu _ (hp.tuner t ⟨k, c, hk⟩)
      · obtain ⟨k, c, hk⟩ := h
        rcases hold k t c hk with rfl | hk
        · simp [eventAddresses, store_same]
        · simp only [store_ne (hne k t c hk)]
          exact hu _ (hp.ospace t ⟨k, c, hk⟩)
      · rcases h with ⟨e, h, h'⟩ | h
        · exact hu _ (hp.features a (.inl ⟨e, huse e h, h'⟩))
        · exact hu _ (hp.features a (.inr h))
      · rcases h with ⟨e, h, h'⟩ | h
        · exact hu _ (hp.configuration a (.inl ⟨e, huse e h, h'⟩))
        · exact hu _ (hp.configuration a (.inr h))
  have hp2 : Past st2 (used ++ eventAddresses (.request cid cv tv g)) := by
    rcases (testConvergence_ok h2).2 with ⟨rfl, -⟩ | ⟨-, rfl⟩
    · exact hp1
    · have ht : ∀ t', TunerInUse { st1 with tuners := put st1.tuners (uniqNat (requestVars cv tv)) (t, true) } t' → TunerInUse st1 t' := by
        rintro t' ⟨k, c', hk⟩
        simp only [look_put] at hk
        split at hk
        · simp only [Option.some.injEq, Prod.mk.injEq] at hk
          rw [← hk.1]
          exact ⟨_, _, hk1⟩
        · exact ⟨k, c', hk⟩
      have he : ∀ e, EvaluationInUse { st1 with tuners := put st1.tuners (uniqNat (requestVars cv tv)) (t, true) } e → EvaluationInUse st1 e :=
        fun e ⟨t, h, h'⟩ => ⟨t, ht t h, h'⟩
      refine ⟨hp1.parameter, fun t h => hp1.tuner t (ht t h), fun t h => hp1.ospace t (ht t h), fun a h => hp1.evaluation a (he a h),
        fun a h => hp1.features a ?_, fun a h => hp1.configuration a ?_⟩
      · rcases h with ⟨e, h, h'⟩ | h
        · exact .inl ⟨e, he e h, h'⟩
        · exact .inr h
      · rcases h with ⟨e, h, h'⟩ | h
        · exact .inl ⟨e, he e h, h'⟩
        · exact .inr h
  obtain ⟨hr, -⟩ := hc2.tuners _ _ _ hk2
  have hsug : ∃ x, sug = .ok x := by
    cases sug with
    | ok x => exact ⟨x, rfl⟩
    | err e => simp [keepConfiguration] at h6
    | ub => simp [keepConfiguration] at h6
  obtain ⟨x, rfl⟩ := hsug
  obtain ⟨rfl, hch⟩ := choose_ok hr.plain h5
  have hreg : store st2.regions t { st2.regions t with space := (st2.regions t).space } = st2.regions := by
    funext a
    unfold store
    split
    · next e => rw [e]
    · rfl
  rw [hreg] at h6
  have key : ∃ configs, st4 = { st2 with
      stack := (if top then c else false) :: st2.stack
      feats := store st2.feats g.features f
      configs := configs } ∧ cfg ∈ used ++ eventAddresses (.request cid cv tv g) := by
    rcases keepConfiguration_ok h6 with ⟨h9, rfl⟩ | ⟨v, h9, rfl, rfl⟩
    · refine ⟨st2.configs, rfl, ?_⟩
      rcases hch with ⟨v, h10, -⟩ | ⟨-, o, h10, h11, h12⟩
      · rw [h10] at h9; cases h9
      · rw [h12] at h9
        simp only [Out.ok.injEq, Suggested.known.injEq] at h9
        exact hp2.configuration _ (.inl ⟨o, ⟨t, ⟨_, _, hk2⟩, (hr.fastest.best o h10).1⟩, h9⟩)
    · exact ⟨_, rfl, by simp [eventAddresses]⟩
  obtain ⟨configs, rfl, hcfg⟩ := key
  have hsub : ∀ c' y, look (put st2.contexts cid ⟨g.clock, t, g.features, cfg, c⟩) c' = some y →
      y = ⟨g.clock, t, g.features, cfg, c⟩ ∨ look st2.contexts c' = some y := fun c' y hy => by
    rw [look_put] at hy
    split at hy
    · exact .inl (Option.some.inj hy).symm
    · exact .inr hy
  refine ⟨hp2.parameter, hp2.tuner, hp2.ospace, hp2.evaluation, fun a h => ?_, fun a h => ?_⟩
  · rcases h with h | ⟨c', y, hy, rfl⟩
    · exact hp2.features a (.inl h)
    · rcases hsub c' y hy with rfl | hy
      · simp [eventAddresses]
      · exact hp2.features _ (.inr ⟨c', y, hy, rfl⟩)
  · rcases h with h | ⟨c', y, hy, rfl⟩
    · exact hp2.configuration a (.inl h)
    · rcases hsub c' y hy with rfl | hy
      · exact hcfg
      · exact hp2.configuration _ (.inr ⟨c', y, hy, rfl⟩)

theorem Past.ends {st st' : State} {j : Journal} {used : List (BitVec 64)} {cid : Nat} {stop : Timespec} {e : BitVec 64}
    (hp : Past st used) (hc : Core ops jen little st j) (he : ¬ EvaluationInUse st e) (h : endContext ops jen little st cid stop e = .ok st') :
    Past st' (used ++ eventAddresses (.endContext cid stop e)) := by
  have hu : ∀ a ∈ used, a ∈ used ++ eventAddresses (.endContext cid stop e) := fun a h => List.mem_append_left _ h
  have hsub : ∀ c' y, look (drop st.contexts cid) c' = some y → look st.contexts c' = some y := fun c' y hy => by
    rw [look_drop] at hy
    split at hy
    · cases hy
    · exact hy
  unfold endContext at h
  cases hx : look st.contexts cid with
  | none =>
    rw [hx] at h
    cases h
    exact hp.congr hu rfl rfl rfl rfl fun a h => hu _ (hp.parameter a h)
  | some x =>
    obtain ⟨o, k, b, -, hk, -, -, -⟩ := hc.opened cid x hx
    rw [hx] at h
    simp only at h
    split at h
    · cases h
    next top rest hst =>
    split at h
    · cases h
      refine ⟨fun a h => hu _ (hp.parameter a h), fun a h => hu _ (hp.tuner a h), fun a h => hu _ (hp.ospace a h),
        fun a h => hu _ (hp.evaluation a h), fun a h => hu _ (hp.features a ?_), fun a h => hu _ (hp.configuration a ?_)⟩
      · rcases h with h | ⟨c', y, hy, h⟩
        · exact .inl h
        · exact .inr ⟨c', y, hsub c' y hy, h⟩
      · rcases h with h | ⟨c', y, hy, h⟩
        · exact .inl h
        · exact .inr ⟨c', y, hsub c' y hy, h⟩
    · obtain ⟨ns, bd, t', -, -, -, h3, rfl⟩ := report_ok h
      have hlh := learn_history h3
      simp only at hlh
      have hold : ∀ (t f : BitVec 64), f ∈ (store st.regions x.tuner { st.regions x.tuner with tuner := t' } t).tuner.history →
          f ∈ (st.regions t).tuner.history ∨ f = e := fun t f hf => by
        by_cases ht : t = x.tuner
        · rw [ht] at hf ⊢
          rw [store_same] at hf
          simp only [hlh] at hf
          rcases List.mem_append.1 hf with hf | hf
          · exact .inl hf
          · exact .inr (List.mem_singleton.1 hf)
        · rw [store_ne ht] at hf; exact .inl hf
      refine ⟨fun a h => hu _ (hp.parameter a h), fun a h => hu _ (hp.tuner a h), fun t h => ?_, fun a h => ?_, fun a h => ?_, fun a h => ?_⟩
      · have : (store st.regions x.tuner { st.regions x.tuner with tuner := t' } t).ospace = (st.regions t).ospace := by
          by_cases ht : t = x.tuner
          · rw [ht, store_same]
          · rw [store_ne ht]
        exact this ▸ hu _ (hp.ospace t h)
      · obtain ⟨t, ht, h⟩ := h
        rcases hold t a h with h | rfl
        · exact hu _ (hp.evaluation a ⟨t, ht, h⟩)
        · simp [eventAddresses]
      · rcases h with ⟨f, ⟨t, ht, hf⟩, h⟩ | ⟨c', y, hy, h⟩
        · by_cases hfe : f = e
          · rw [hfe] at h
            simp only [store_same] at h
            exact hu _ (hp.features a (.inr ⟨cid, x, hx, h⟩))
          · simp only [store_ne hfe] at h
            rcases hold t f hf with hf | hf
            · exact hu _ (hp.features a (.inl ⟨f, ⟨t, ht, hf⟩, h⟩))
            · exact absurd hf hfe
        · exact hu _ (hp.features a (.inr ⟨c', y, hsub c' y hy, h⟩))
      · rcases h with ⟨f, ⟨t, ht, hf⟩, h⟩ | ⟨c', y, hy, h⟩
        · by_cases hfe : f = e
          · rw [hfe] at h
            simp only [store_same] at h
            exact hu _ (hp.configuration a (.inr ⟨cid, x, hx, h⟩))
          · simp only [store_ne hfe] at h
            rcases hold t f hf with hf | hf
            · exact hu _ (hp.configuration a (.inl ⟨f, ⟨t, ht, hf⟩, h⟩))
            · exact absurd hf hfe
        · exact hu _ (hp.configuration a (.inr ⟨c', y, hsub c' y hy, h⟩))

/-- What is announced depends on what was declared only. -/
theorem announced_congr {j j' : Journal} (h1 : j'.inputs = j.inputs) (h2 : j'.outputs = j.outputs) {e : Event}
    (h : Orderly ops toInt jen little j e) : Orderly ops toInt jen little j' e := by
  unfold Orderly at h ⊢
  rw [h1, h2]
  exact h

theorem end_declared (j : Journal) (c : Nat) (stop : Timespec) (a : BitVec 64) (r : Reply) :
    (j.next (.endContext c stop a) r).inputs = j.inputs ∧ (j.next (.endContext c stop a) r).outputs = j.outputs := by
  rw [next_end]
  cases look j.opened c <;> exact ⟨rfl, rfl⟩

theorem next_declared (j j' : Journal) (h1 : j'.inputs = j.inputs) (h2 : j'.outputs = j.outputs) (e : Event) (r r' : Reply) :
    (j'.next e r').inputs = (j.next e r).inputs ∧ (j'.next e r').outputs = (j.next e r).outputs := by
  cases e with
  | init _ => exact ⟨h1, h2⟩
  | finalize => exact ⟨h1, h2⟩
  | kernel => exact ⟨h1, h2⟩
  | beginContext _ => exact ⟨h1, h2⟩
  | declareInput name id info a => exact ⟨by simp only [Journal.next, h1], h2⟩
  | declareOutput name id info a => exact ⟨h1, by simp only [Journal.next, h2]⟩
  | request c cv tv g => cases r <;> cases r' <;> exact ⟨h1, h2⟩
  | endContext c stop a =>
    obtain ⟨h3, h4⟩ := end_declared j c stop a r
    obtain ⟨h5, h6⟩ := end_declared j' c stop a r'
    rw [h3, h4, h5, h6]
    exact ⟨h1, h2⟩

/-- A program that announces what it does, on a host that never gives an address twice, is sensible. -/
theorem sensible_of_distinct (hmk : OneDimensional mk) (hmkb : ∀ id p d, mk id p = .ok d → WellBehaved d) :
    ∀ {es : List Event} {st : State} {j j' : Journal} {used : List (BitVec 64)}, Keeps ops toInt jen little st j → Past st used →
    j'.inputs = j.inputs → j'.outputs = j.outputs → AllAnnounced ops toInt jen little j' es →
    (used ++ es.flatMap eventAddresses).Nodup → Sensible ops toInt jen little mk st j es
  | [], _, _, _, _, _, _, _, _, _, _ => trivial
  | e :: es, st, j, j', used, hk, hp, h1, h2, hn, hnd => by
    have hfresh : ∀ a ∈ eventAddresses e, a ∉ used := fun a ha hu => by
      rw [List.flatMap_cons, List.nodup_append] at hnd
      exact hnd.2.2 a hu a (List.mem_append_left _ ha) rfl
    have ha := hp.allocated e hfresh
    have hn1 := announced_congr h1.symm h2.symm hn.1
    refine ⟨ha, hn1, fun st' r hs => ?_⟩
    have hk' := keeps_step hmk hmkb hk ha hn1 hs
    obtain ⟨h3, h4⟩ := next_declared j j' h1 h2 e r .nothing
    refine sensible_of_distinct (used := used ++ eventAddresses e) hmk hmkb hk' ?_ h3 h4 hn.2 (by simpa [List.flatMap_cons] using hnd)
    have hu : ∀ a ∈ used, a ∈ used ++ eventAddresses e := fun a h => List.mem_append_left _ h
    cases e with
    | init v => exact hn1.elim
    | finalize => exact hn1.elim
    | beginContext c => cases hs; exact hp.congr hu rfl rfl rfl rfl fun a h => hu _ (hp.parameter a h)
    | kernel =>
      unfold Kokkos.step at hs
      obtain ⟨y, -, hs⟩ := bind_eq_ok hs
      cases hs
      exact hp.congr hu rfl rfl rfl rfl fun a h => hu _ (hp.parameter a h)
    | declareInput name id info a =>
      unfold Kokkos.step at hs
      obtain ⟨p, -, hs⟩ := bind_eq_ok hs
      cases hs
      refine hp.congr hu rfl rfl rfl rfl fun b ⟨i, hb⟩ => ?_
      rcases hb with hb | hb
      · simp only [look_put] at hb
        split at hb
        · cases hb; simp [eventAddresses]
        · exact hu _ (hp.parameter b ⟨i, .inl hb⟩)
      · exact hu _ (hp.parameter b ⟨i, .inr hb⟩)
    | declareOutput name id info a =>
      unfold Kokkos.step at hs
      obtain ⟨p, -, hs⟩ := bind_eq_ok hs
      cases hs
      refine hp.congr hu rfl rfl rfl rfl fun b ⟨i, hb⟩ => ?_
      rcases hb with hb | hb
      · exact hu _ (hp.parameter b ⟨i, .inl hb⟩)
      · simp only [look_put] at hb
        split at hb
        · cases hb; simp [eventAddresses]
        · exact hu _ (hp.parameter b ⟨i, .inr hb⟩)
    | request cid cv tv g =>
      unfold Kokkos.step at hs
      obtain ⟨⟨st1, sent⟩, h5, hs⟩ := bind_eq_ok hs
      cases hs
      exact hp.request hmk hmkb hk.1 hk.2 ha h5
    | endContext cid stop a =>
      unfold Kokkos.step at hs
      obtain ⟨st1, h5, hs⟩ := bind_eq_ok hs
      cases hs
      exact hp.ends hk.1 ha h5

end

end CCS.Kokkos
