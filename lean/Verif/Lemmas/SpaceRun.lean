import Verif.Lemmas.SpaceDist

/-!
# Invariants of configuration spaces along histories
-/

namespace CCS

open Spec

/-- Everything that holds of every reachable space. -/
structure Good (mem : BitVec 64 → Param) (s : Space) : Prop where
  tables : Tables mem s
  graph : Graph s
  parts : Parts s

theorem good_empty (mem : BitVec 64 → Param) : Good mem Space.empty := by
  refine ⟨⟨⟨rfl, ?_⟩, List.nodup_nil, ?_⟩, ⟨?_, ?_, ?_, ⟨List.nodup_nil, ?_, ?_⟩, ?_⟩, ⟨List.nodup_nil, ?_, ?_, ?_, ?_⟩⟩
  · intro i e he; simp [Space.empty] at he
  · intro w hw; simp [Space.empty] at hw
  · intro w hw; simp [Space.empty] at hw
  · intro w hw; simp [Space.empty] at hw
  · intro i hc
    have : ∀ a b, ¬ DependsOn (Spec.conditions Space.empty) a b := by
      rintro a b ⟨h, e, h', c, h1, -⟩
      simp [Spec.conditions, Space.empty] at h1
    cases hc with
    | one h => exact this _ _ h
    | more h _ => exact this _ _ h
  · intro i hi; simp [Space.empty] at hi
  · intro b i a h; simp [Space.empty] at h
  · intro _
    refine ⟨by simp [Space.empty, Spec.conditions], ?_⟩
    intro b i a h; simp [Space.empty] at h
  · intro d hd; simp [Space.empty] at hd
  · simp [Space.empty]
  · intro d hd; simp [Space.empty] at hd
  · intro d hd; simp [Space.empty] at hd

theorem SameSpace.good {mem : BitVec 64 → Param} {s s' : Space} (h : SameSpace s s') (hg : Good mem s)
    (hgr : Graph s') : Good mem s' := ⟨h.tables hg.tables, hgr, h.parts hg.parts⟩

/-- Outcomes of adding a parameter. -/
theorem addParameter_outcomes {mem : BitVec 64 → Param} {mk : Nat → Param → Out Dist} (hmk : OneDimensional mk)
    {s : Space} (hg : Good mem s) (h : BitVec 64) (d : Option Dist) :
    (∃ e, addParameter mem mk s h d = (s, .err e)) ∨
    (addParameter mem mk s h d = (s, .ub) ∧ d = none ∧ mk s.nextId (mem h) = .ub) ∨
    (∃ d', addParameter mem mk s h d = (s.pushParameter h (mem h) d', .ok ()) ∧
      (∀ e ∈ s.entries, e.name ≠ (mem h).name) ∧ (mem h).isString = false ∧
      chooseDistribution mk s.nextId (mem h) d = .ok d' ∧ d'.dim = 1 ∧
      Good mem (s.pushParameter h (mem h) d')) := by
  unfold addParameter
  simp only
  by_cases hs : (mem h).isString
  · rw [if_pos hs]; exact .inl ⟨_, rfl⟩
  rw [if_neg hs]
  by_cases hn : s.entries.any (fun e => decide (e.name = (mem h).name))
  · rw [if_pos hn]; exact .inl ⟨_, rfl⟩
  rw [if_neg hn]
  cases hc : chooseDistribution mk s.nextId (mem h) d with
  | err e => exact .inl ⟨e, rfl⟩
  | ub =>
    refine .inr (.inl ⟨rfl, ?_⟩)
    cases d with
    | none => exact ⟨rfl, hc⟩
    | some d =>
      simp only [chooseDistribution] at hc
      split at hc <;> cases hc
  | ok d' =>
    have hd : d'.dim = 1 := by
      cases d with
      | none => exact hmk _ _ _ hc
      | some d =>
        simp only [chooseDistribution] at hc
        split at hc
        · cases hc
        · rename_i h1
          cases hc
          simpa using h1
    have hn' : s.entries.any (fun e => decide (e.name = (mem h).name)) = false := by simpa using hn
    have ht := push_tables (d := d') hg.tables (by simpa using hs) hn'
    refine .inr (.inr ⟨d', rfl, ?_, by simpa using hs, rfl, hd, ht, push_graph hg.graph ht, push_parts hg.parts hd⟩)
    simpa using hn'

theorem clauseTest_context {ops : FloatOps} {jen : Bytes → BitVec 32} {little : Bool} {s : Space} {e : Expr}
    (h : clauseTest ops jen little s e = .ok ()) :
    checkContext e (some s.handles) = .ok () ∧ ∃ vals v, getDefault ops jen little s = .ok vals ∧
      eval ops jen little (s.env vals) e = .ok v ∧ v ≠ .bool 1#64 := by
  unfold clauseTest at h
  obtain ⟨⟨⟩, h1, h⟩ := bind_eq_ok h
  obtain ⟨vals, h2, h⟩ := bind_eq_ok h
  obtain ⟨v, h3, h⟩ := bind_eq_ok h
  refine ⟨h1, vals, v, h2, h3, ?_⟩
  intro hv
  rw [hv, if_pos (by simp [isTrue])] at h
  cases h

section
variable {ops : FloatOps} {jen : Bytes → BitVec 32} {little : Bool} {mem : BitVec 64 → Param}
  {mk : Nat → Param → Out Dist}

/-- What a call does to a good space, by kind of call. -/
inductive Effect (ops : FloatOps) (jen : Bytes → BitVec 32) (little : Bool) (mem : BitVec 64 → Param) (s s' : Space) : SpaceOp → Prop
  /-- Nothing that matters to configurations changed. -/
  | same {op} : SameSpace s s' → s'.sorted = s.sorted → s'.graphOk = s.graphOk → Effect ops jen little mem s s' op
  | fresh {op} : SameSpace s s' → s'.graphOk = true → Effect ops jen little mem s s' op
  | refused {i e} : SameSpace s s' → s'.graphOk = false → Effect ops jen little mem s s' (.setCondition i e)
  | pushed {h d d'} : s' = s.pushParameter h (mem h) d' → Effect ops jen little mem s s' (.addParameter h d)
  | redistributed {d is} : s'.params.length = s.params.length → s'.entries = s.entries →
      s'.clauses = s.clauses → s'.graphOk = s.graphOk → s'.sorted = s.sorted →
      (∀ (i : Nat) w, s.params[i]? = some w → ∃ w', s'.params[i]? = some w' ∧ SameParam w w') →
      Effect ops jen little mem s s' (.setDistribution d is)
  | conditioned {i e w} : s.params[toUint i]? = some w → w.condition = none →
      SameSpace (s.withCondition (toUint i) (some e)) s' → s'.graphOk = true →
      Effect ops jen little mem s s' (.setCondition i e)
  | claused {e} : s' = { s with clauses := s.clauses ++ [e] } →
      clauseTest ops jen little s e = .ok () → Effect ops jen little mem s s' (.addClause e)

theorem ensure_effect {s : Space} (hg : Good mem s) :
    ∃ s', ensureGraph s = (s', .ok ()) ∧ Good mem s' ∧ SameSpace s s' ∧ s'.graphOk = true := by
  obtain ⟨s', h1, h2, h3, h4, h5⟩ := ensure_good hg.tables hg.graph
  exact ⟨s', h1, ⟨h5, h4, h2.parts hg.parts⟩, h2, h3⟩

/-- Every call keeps a good space good. -/
theorem step_good (hmk : OneDimensional mk) {s : Space} (hg : Good mem s) {op : SpaceOp} (hw : WellCalled op) :
    Good mem (Space.step ops jen little mem mk s op).1 ∧
    Effect ops jen little mem s (Space.step ops jen little mem mk s op).1 op := by
  cases op with
  | addParameter h d =>
    simp only [Space.step]
    rcases addParameter_outcomes hmk hg h d with ⟨e, he⟩ | ⟨he, -⟩ | ⟨d', he, -, -, -, -, hgood⟩
    · rw [he]; exact ⟨hg, .same (.refl s) rfl rfl⟩
    · rw [he]; exact ⟨hg, .same (.refl s) rfl rfl⟩
    · rw [he]; exact ⟨hgood, .pushed rfl⟩
  | setDistribution d is =>
    simp only [Space.step]
    rcases setDistribution_spec hmk hg.parts hw.1 hw.2 with
      ⟨s', he, hp, -, -, hl, hent, hcl, hgo, hso, hw', -⟩ | ⟨he, -⟩ | ⟨e, is', he, -⟩ | ⟨is', he, -⟩
    · rw [he]
      obtain ⟨ht, hc⟩ := redistributed_tables hg.tables hl hent hw'
      exact ⟨⟨ht, hg.graph.congr hc hso hgo, hp⟩, .redistributed hl hent hcl hgo hso hw'⟩
    all_goals rw [he]; exact ⟨hg, .same (.refl s) rfl rfl⟩
  | setCondition i e =>
    simp only [Space.step]
    rcases setCondition_outcomes hg.tables hg.graph i hw with ⟨-, he⟩ | ⟨w, c, -, -, he⟩ | ⟨w, s', r, hwi, hwc, he, hr⟩
    · rw [he]; exact ⟨hg, .same (.refl s) rfl rfl⟩
    · rw [he]; exact ⟨hg, .same (.refl s) rfl rfl⟩
    · rw [he]
      rcases hr with ⟨-, -, -, hs, ht, hgr, hok⟩ | ⟨-, -, -, hs, ht, hgr, hok⟩ | ⟨-, -, hs, ht, hgr, hok, -⟩
      · exact ⟨⟨ht, hgr, hs.parts (withCondition_parts hg.parts _ _)⟩, .conditioned hwi hwc hs hok⟩
      · exact ⟨⟨ht, hgr, hs.parts hg.parts⟩, .refused hs hok⟩
      · exact ⟨⟨ht, hgr, hs.parts hg.parts⟩, .refused hs hok⟩
  | addClause e =>
    simp only [Space.step]
    unfold CCS.addClause
    cases hc : clauseTest ops jen little s e with
    | ok u =>
      refine ⟨⟨⟨hg.tables.indexed, hg.tables.names, hg.tables.mem⟩,
        ⟨hg.graph.built, hg.graph.known, hg.graph.acyclic, hg.graph.order, hg.graph.full⟩,
        ⟨hg.parts.ids, hg.parts.fresh, hg.parts.cover, hg.parts.link, hg.parts.dim⟩⟩, .claused rfl hc⟩
    | err x => exact ⟨hg, .same (.refl s) rfl rfl⟩
    | ub => exact ⟨hg, .same (.refl s) rfl rfl⟩
  | check vals =>
    obtain ⟨s', h1, h2, h3, h4⟩ := ensure_effect hg
    simp only [Space.step, checkSpace, h1]
    exact ⟨h2, .fresh h3 h4⟩
  | sample t =>
    obtain ⟨s', h1, h2, h3, h4⟩ := ensure_effect hg
    simp only [Space.step, sampleOne, h1]
    exact ⟨h2, .fresh h3 h4⟩
  | samples t n =>
    obtain ⟨s', h1, h2, h3, h4⟩ := ensure_effect hg
    simp only [Space.step, sampleMany, h1]
    split
    · exact ⟨hg, .same (.refl s) rfl rfl⟩
    · exact ⟨h2, .fresh h3 h4⟩

theorem spaceRun_append (s : Space) (a b : List SpaceOp) :
    Space.run ops jen little mem mk s (a ++ b) = Space.run ops jen little mem mk (Space.run ops jen little mem mk s a) b := by
  induction a generalizing s with
  | nil => rfl
  | cons op a ih => simp only [List.cons_append, Space.run]; exact ih _

theorem spaceRun_good (hmk : OneDimensional mk) : ∀ (history : List SpaceOp) (s : Space), Good mem s →
    (∀ op ∈ history, WellCalled op) → Good mem (Space.run ops jen little mem mk s history)
  | [], s, hg, _ => hg
  | op :: rest, s, hg, hw =>
    spaceRun_good hmk rest _ (step_good hmk hg (hw op (by simp))).1 (fun x hx => hw x (by simp [hx]))

theorem reachable_good (hmk : OneDimensional mk) {s : Space} (h : Reachable ops jen little mem mk s) : Good mem s := by
  obtain ⟨history, hw, rfl⟩ := h
  exact spaceRun_good hmk history _ (good_empty mem) hw

theorem spaceRun_snoc (s : Space) (a : List SpaceOp) (op : SpaceOp) :
    Space.run ops jen little mem mk s (a ++ [op]) =
      (Space.step ops jen little mem mk (Space.run ops jen little mem mk s a) op).1 := by
  rw [spaceRun_append]; rfl

theorem reachable_step {s : Space} (h : Reachable ops jen little mem mk s) {op : SpaceOp} (hw : WellCalled op) :
    Reachable ops jen little mem mk (Space.step ops jen little mem mk s op).1 := by
  obtain ⟨history, hh, rfl⟩ := h
  refine ⟨history ++ [op], ?_, (spaceRun_snoc _ _ _).symm⟩
  intro x hx
  rcases List.mem_append.1 hx with hx | hx
  · exact hh x hx
  · simp at hx; subst hx; exact hw

end

end CCS
