import Verif.Lemmas.Space
import Verif.Spec.Space

/-!
# Invariants of configuration spaces: lookups and conditions
-/

namespace CCS

open Spec

/-! ## Changing one condition -/

theorem withCondition_conditions (s : Space) (i : Nat) (c : Option Expr) :
    Spec.conditions (s.withCondition i c) = (Spec.conditions s).modify i fun x => (x.1, c) := by
  apply List.ext_getElem?
  intro j
  simp only [Spec.conditions, Space.withCondition, List.getElem?_map, List.getElem?_modify]
  cases s.params[j]? with
  | none => simp
  | some w =>
    simp only [Option.map_some, Option.map_eq_map]
    split <;> rfl

theorem withCondition_handles (s : Space) (i : Nat) (c : Option Expr) :
    (s.withCondition i c).handles = s.handles := by
  apply List.ext_getElem?
  intro j
  simp only [Space.handles, Space.withCondition, List.getElem?_map, List.getElem?_modify]
  cases s.params[j]? with
  | none => simp
  | some w =>
    simp only [Option.map_some, Option.map_eq_map]
    split <;> rfl

theorem withCondition_get (s : Space) (i : Nat) (c : Option Expr) (j : Nat) :
    (s.withCondition i c).params[j]? =
      (s.params[j]?).map fun w => if i = j then { w with condition := c } else w := by
  simp only [Space.withCondition, List.getElem?_modify]
  cases s.params[j]? with
  | none => simp
  | some w => simp only [Option.map_some, Option.map_eq_map]

theorem withCondition_indexed {s : Space} (hi : Indexed s) (i : Nat) (c : Option Expr) :
    Indexed (s.withCondition i c) := by
  refine ⟨by simp [Space.withCondition, hi.1], fun j e he => ?_⟩
  obtain ⟨w, hw, rfl⟩ := hi.2 j e he
  refine ⟨if i = j then { w with condition := c } else w, by rw [withCondition_get, hw]; rfl, ?_⟩
  split <;> rfl

/-- Setting and then clearing a condition restores the space, up to edges. -/
theorem withCondition_restore {s s' : Space} {i : Nat} {w : PWrap} {e : Expr} (hw : s.params[i]? = some w)
    (hc : w.condition = none) (h : SameSpace (s.withCondition i (some e)) s') :
    SameSpace s (s'.withCondition i none) := by
  refine ⟨?_, h.entries, h.dists, h.nextId, h.clauses⟩
  apply List.ext_getElem?
  intro j
  rw [List.getElem?_map, List.getElem?_map, withCondition_get]
  have hcore := core_get h.params j
  rw [withCondition_get] at hcore
  cases hj : s.params[j]? with
  | none =>
    rw [hj] at hcore
    cases hj' : s'.params[j]? with
    | none => rfl
    | some w' => rw [hj'] at hcore; simp at hcore
  | some u =>
    rw [hj] at hcore
    cases hj' : s'.params[j]? with
    | none => rw [hj'] at hcore; simp at hcore
    | some w' =>
      rw [hj'] at hcore
      simp only [Option.map_some, Option.some.injEq] at hcore ⊢
      by_cases hij : i = j
      · subst hij
        rw [if_pos rfl] at hcore ⊢
        rw [hw] at hj
        have := Option.some.inj hj
        subst this
        cases w; cases w'
        simp [PWrap.core] at hcore hc ⊢
        simp [hcore, hc]
      · rw [if_neg hij] at hcore ⊢
        exact hcore

/-! ## The invariant -/

/-- The parameters of a space: what the tables and the addresses say. -/
structure Tables (mem : BitVec 64 → Param) (s : Space) : Prop where
  indexed : Indexed s
  names : (s.params.map (·.param.name)).Nodup
  mem : ∀ w ∈ s.params, w.param = mem w.handle ∧ w.param.isString = false

/-- The conditions of a space and the order computed from them. -/
structure Graph (s : Space) : Prop where
  built : CondBuilt s
  known : CondKnown s
  acyclic : Acyclic (Spec.conditions s)
  order : PartialOrder (Spec.conditions s) s.sorted
  full : s.graphOk = true → EvalOrder (Spec.conditions s) s.sorted

theorem Tables.handles {mem : BitVec 64 → Param} {s : Space} (h : Tables mem s) : s.handles.Nodup := by
  have hn := h.names
  have hm := h.mem
  unfold Space.handles
  generalize s.params = ws at *
  clear h
  induction ws with
  | nil => exact List.nodup_nil
  | cons w ws ih =>
    rw [List.map_cons, List.nodup_cons] at hn ⊢
    refine ⟨fun hmem => hn.1 ?_, ih hn.2 fun x hx => hm x (by simp [hx])⟩
    obtain ⟨x, hx, hxh⟩ := List.mem_map.1 hmem
    refine List.mem_map.2 ⟨x, hx, ?_⟩
    rw [(hm x (by simp [hx])).1, (hm w (by simp)).1, hxh]

theorem SameSpace.tables {mem : BitVec 64 → Param} {s s' : Space} (h : SameSpace s s') (ht : Tables mem s) :
    Tables mem s' := by
  refine ⟨h.indexed ht.indexed, ?_, ?_⟩
  · rw [core_map (f := fun w => w.param.name) (fun _ => rfl) h.params]
    exact ht.names
  · intro w' hw'
    obtain ⟨i, hlt, hwi⟩ := List.mem_iff_getElem.1 hw'
    obtain ⟨w, hw, hc⟩ := core_some h.params (List.getElem?_eq_some_iff.2 ⟨hlt, hwi⟩)
    have hf := core_fields hc
    rw [hf.2.1, hf.1]
    exact ht.mem w (List.mem_of_getElem? hw)

theorem SameSpace.condBuilt {s s' : Space} (h : SameSpace s s') (hb : CondBuilt s) : CondBuilt s' := by
  intro w' hw' e he
  obtain ⟨i, hlt, hwi⟩ := List.mem_iff_getElem.1 hw'
  obtain ⟨w, hw, hc⟩ := core_some h.params (List.getElem?_eq_some_iff.2 ⟨hlt, hwi⟩)
  exact hb w (List.mem_of_getElem? hw) e (by rw [← (core_fields hc).2.2.2.2, he])

theorem SameSpace.condKnown {s s' : Space} (h : SameSpace s s') (hb : CondKnown s) : CondKnown s' := by
  intro w' hw' e he
  obtain ⟨i, hlt, hwi⟩ := List.mem_iff_getElem.1 hw'
  obtain ⟨w, hw, hc⟩ := core_some h.params (List.getElem?_eq_some_iff.2 ⟨hlt, hwi⟩)
  rw [h.conditions]
  exact hb w (List.mem_of_getElem? hw) e (by rw [← (core_fields hc).2.2.2.2, he])

theorem evalOrder_partial {ps : List (BitVec 64 × Option Expr)} {l : List Nat} (h : EvalOrder ps l) :
    PartialOrder ps l :=
  ⟨h.1.nodup_iff.2 List.nodup_range, fun i hi => List.mem_range.1 (h.1.mem_iff.1 hi), h.2⟩

theorem evalOrder_of_partial {ps : List (BitVec 64 × Option Expr)} {l : List Nat} (h : PartialOrder ps l)
    (hl : ps.length ≤ l.length) : EvalOrder ps l := ⟨perm_range h.nodup h.bound hl, h.ordered⟩

/-- The graph computation on a good space always succeeds. -/
theorem generate_good {mem : BitVec 64 → Param} {s : Space} (ht : Tables mem s) (hb : CondBuilt s)
    (hk : CondKnown s) (ha : Acyclic (Spec.conditions s)) :
    ∃ s', generateConstraints s = (s', .ok ()) ∧ SameSpace s s' ∧ s'.graphOk = true ∧
      EvalOrder (Spec.conditions s) s'.sorted := by
  obtain ⟨s', r, h1, h2, h3⟩ := generate_spec ht.indexed ht.handles hb
  rcases h3 with ⟨rfl, -, -, ho, hg⟩ | ⟨-, -, hna, -⟩ | ⟨-, hnk, -⟩
  · exact ⟨s', h1, h2, hg, ho⟩
  · exact absurd ha hna
  · exact absurd hk hnk

theorem Graph.same {s s' : Space} (h : SameSpace s s') (hg : Graph s) (ho : EvalOrder (Spec.conditions s) s'.sorted) :
    Graph s' := by
  have hc := h.conditions
  exact ⟨h.condBuilt hg.built, h.condKnown hg.known, by rw [hc]; exact hg.acyclic,
    by rw [hc]; exact evalOrder_partial ho, fun _ => by rw [hc]; exact ho⟩

/-- Checks and samplings first bring the graph up to date. -/
theorem ensure_good {mem : BitVec 64 → Param} {s : Space} (ht : Tables mem s) (hg : Graph s) :
    ∃ s', ensureGraph s = (s', .ok ()) ∧ SameSpace s s' ∧ s'.graphOk = true ∧ Graph s' ∧ Tables mem s' := by
  unfold ensureGraph
  by_cases h : s.graphOk
  · rw [if_pos h]
    exact ⟨s, rfl, .refl s, h, hg, ht⟩
  · rw [if_neg h]
    obtain ⟨s', h1, h2, h3, h4⟩ := generate_good ht hg.built hg.known hg.acyclic
    exact ⟨s', h1, h2, h3, hg.same h2 h4, h2.tables ht⟩

/-! ## Adding parameters -/

theorem push_conditions (s : Space) (h : BitVec 64) (p : Param) (d : Dist) :
    Spec.conditions (s.pushParameter h p d) = Spec.conditions s ++ [(h, none)] := by
  simp [Spec.conditions, Space.pushParameter]

theorem push_tables {mem : BitVec 64 → Param} {s : Space} (ht : Tables mem s) {h : BitVec 64} {d : Dist}
    (hs : (mem h).isString = false) (hname : s.entries.any (fun e => decide (e.name = (mem h).name)) = false) :
    Tables mem (s.pushParameter h (mem h) d) := by
  refine ⟨⟨by simp [Space.pushParameter, ht.indexed.1], fun i e he => ?_⟩, ?_, ?_⟩
  · simp only [Space.pushParameter] at he ⊢
    by_cases hi : i < s.entries.length
    · rw [List.getElem?_append_left hi] at he
      obtain ⟨w, hw, rfl⟩ := ht.indexed.2 i e he
      exact ⟨w, by rw [List.getElem?_append_left (by rw [← ht.indexed.1]; exact hi)]; exact hw, rfl⟩
    · rw [List.getElem?_append_right (by omega)] at he
      obtain ⟨hlt, he⟩ := List.getElem?_eq_some_iff.1 he
      have hi' : i = s.entries.length := by simp at hlt; omega
      subst hi'
      simp at he
      refine ⟨_, by rw [ht.indexed.1]; exact List.getElem?_concat_length, ?_⟩
      rw [← he, ht.indexed.1]
  · simp only [Space.pushParameter, List.map_append, List.map_cons, List.map_nil]
    rw [List.nodup_append]
    refine ⟨ht.names, by simp, ?_⟩
    intro a ha b hb hab
    simp at hb
    subst hb
    subst hab
    obtain ⟨w, hw, hwn⟩ := List.mem_map.1 ha
    obtain ⟨i, hlt, hwi⟩ := List.mem_iff_getElem.1 hw
    have he := ht.indexed.entry (List.getElem?_eq_some_iff.2 ⟨hlt, hwi⟩)
    have := List.any_eq_false.1 hname _ (List.mem_of_getElem? he)
    simp at this
    exact this hwn
  · intro w hw
    simp only [Space.pushParameter, List.mem_append, List.mem_cons, List.not_mem_nil, or_false] at hw
    rcases hw with hw | rfl
    · exact ht.mem w hw
    · exact ⟨rfl, hs⟩

theorem known_append {ps : List (BitVec 64 × Option Expr)} {x} {e : Expr} (h : Known ps e) :
    Known (ps ++ [x]) e := by
  intro hh ho
  obtain ⟨j, c, hj⟩ := h hh ho
  exact ⟨j, c, by rw [List.getElem?_append_left (List.getElem?_eq_some_iff.1 hj).1]; exact hj⟩

/-- A new parameter has no condition and is mentioned by none. -/
theorem depends_push {ps : List (BitVec 64 × Option Expr)} {h : BitVec 64} (hn : ∀ x ∈ ps, x.1 ≠ h)
    (hk : ∀ x ∈ ps, ∀ e, x.2 = some e → Known ps e) {i j : Nat} :
    DependsOn (ps ++ [(h, none)]) i j ↔ DependsOn ps i j := by
  constructor
  · rintro ⟨a, e, b, c, h1, h2, h3⟩
    have hi : i < ps.length := by
      apply Classical.byContradiction
      intro hge
      rw [List.getElem?_append_right (by omega)] at h1
      obtain ⟨hlt, h1⟩ := List.getElem?_eq_some_iff.1 h1
      simp at hlt
      have : i = ps.length := by omega
      subst this
      simp at h1
    rw [List.getElem?_append_left hi] at h1
    have hj : j < ps.length := by
      apply Classical.byContradiction
      intro hge
      rw [List.getElem?_append_right (by omega)] at h2
      obtain ⟨hlt, h2⟩ := List.getElem?_eq_some_iff.1 h2
      simp at hlt
      have : j = ps.length := by omega
      subst this
      simp at h2
      obtain ⟨k, c', hk'⟩ := hk _ (List.mem_of_getElem? h1) e rfl b h3
      exact hn _ (List.mem_of_getElem? hk') h2.1.symm
    rw [List.getElem?_append_left hj] at h2
    exact ⟨a, e, b, c, h1, h2, h3⟩
  · rintro ⟨a, e, b, c, h1, h2, h3⟩
    exact ⟨a, e, b, c, by rw [List.getElem?_append_left (List.getElem?_eq_some_iff.1 h1).1]; exact h1,
      by rw [List.getElem?_append_left (List.getElem?_eq_some_iff.1 h2).1]; exact h2, h3⟩

theorem push_graph {mem : BitVec 64 → Param} {s : Space} (hg : Graph s) {h : BitVec 64} {d : Dist}
    (ht : Tables mem (s.pushParameter h (mem h) d)) : Graph (s.pushParameter h (mem h) d) := by
  have hn : ∀ x ∈ Spec.conditions s, x.1 ≠ h := by
    intro x hx he
    obtain ⟨w, hw, rfl⟩ := List.mem_map.1 hx
    have := ht.handles
    simp only [Space.handles, Space.pushParameter, List.map_append, List.map_cons, List.map_nil] at this
    exact (List.nodup_append.1 this).2.2 _ (List.mem_map.2 ⟨w, hw, rfl⟩) h (by simp) he
  have hk : ∀ x ∈ Spec.conditions s, ∀ e, x.2 = some e → Known (Spec.conditions s) e := by
    intro x hx e he
    obtain ⟨w, hw, rfl⟩ := List.mem_map.1 hx
    exact hg.known w hw e he
  have hdep : ∀ i j, DependsOn (Spec.conditions (s.pushParameter h (mem h) d)) i j ↔
      DependsOn (Spec.conditions s) i j := by
    intro i j
    rw [push_conditions]
    exact depends_push hn hk
  have hpart : PartialOrder (Spec.conditions (s.pushParameter h (mem h) d)) (s.pushParameter h (mem h) d).sorted := by
    have hlen : (Spec.conditions s).length = s.params.length := conditions_length s
    refine ⟨?_, ?_, ?_⟩
    · simp only [Space.pushParameter]
      rw [List.nodup_append]
      refine ⟨hg.order.nodup, by simp, ?_⟩
      intro a ha b hb hab
      have := hg.order.bound a ha
      simp at hb
      omega
    · intro i hi
      rw [push_conditions]
      simp only [Space.pushParameter, List.mem_append, List.mem_cons, List.not_mem_nil, or_false] at hi
      simp only [List.length_append, List.length_cons, List.length_nil]
      rcases hi with hi | rfl
      · have := hg.order.bound i hi
        omega
      · omega
    · intro a i b hab j hd
      rw [hdep] at hd
      simp only [Space.pushParameter] at hab
      rcases List.append_eq_append_iff.1 hab with ⟨c, hc1, hc2⟩ | ⟨c, hc1, hc2⟩
      · have : i = s.params.length := by
          cases c with
          | nil => simp at hc2; exact hc2.1.symm
          | cons x c => simp at hc2
        subst this
        obtain ⟨x, y, z, t, hx, -, -⟩ := hd
        have := (List.getElem?_eq_some_iff.1 hx).1
        omega
      · cases c with
        | nil =>
          simp at hc2
          obtain ⟨x, y, z, t, hx, -, -⟩ := hd
          have := (List.getElem?_eq_some_iff.1 hx).1
          omega
        | cons x c =>
          simp at hc2
          obtain ⟨rfl, rfl⟩ := hc2
          exact hg.order.ordered a i c hc1 j hd
  refine ⟨?_, ?_, ?_, hpart, ?_⟩
  · intro w hw e he
    simp only [Space.pushParameter, List.mem_append, List.mem_cons, List.not_mem_nil, or_false] at hw
    rcases hw with hw | rfl
    · exact hg.built w hw e he
    · simp at he
  · intro w hw e he
    rw [push_conditions]
    simp only [Space.pushParameter, List.mem_append, List.mem_cons, List.not_mem_nil, or_false] at hw
    rcases hw with hw | rfl
    · exact known_append (hg.known w hw e he)
    · simp at he
  · intro i hc
    exact hg.acyclic i (chain_congr (fun i j h => (hdep i j).1 h) hc)
  · intro hok
    have hfull := hg.full hok
    refine evalOrder_of_partial hpart ?_
    have := hfull.1.length_eq
    rw [push_conditions]
    simp only [Space.pushParameter, List.length_append, List.length_cons, List.length_nil]
    simp at this
    omega

/-! ## Setting conditions -/

theorem setCondition_outcomes {mem : BitVec 64 → Param} {s : Space} (ht : Tables mem s) (hg : Graph s)
    (index : Nat) {e : Expr} (hb : Built e) :
    (s.params[toUint index]? = none ∧ setCondition s index e = (s, .err .outOfBounds)) ∨
    (∃ w c, s.params[toUint index]? = some w ∧ w.condition = some c ∧
      setCondition s index e = (s, .err .invalidParameter)) ∨
    (∃ w s' r, s.params[toUint index]? = some w ∧ w.condition = none ∧ setCondition s index e = (s', r) ∧
      ((r = .ok () ∧ Known (Spec.conditions s) e ∧
          Acyclic ((Spec.conditions s).modify (toUint index) fun x => (x.1, some e)) ∧
          SameSpace (s.withCondition (toUint index) (some e)) s' ∧ Tables mem s' ∧ Graph s' ∧ s'.graphOk = true) ∨
       (r = .err .invalidGraph ∧ Known (Spec.conditions s) e ∧
          ¬ Acyclic ((Spec.conditions s).modify (toUint index) fun x => (x.1, some e)) ∧
          SameSpace s s' ∧ Tables mem s' ∧ Graph s' ∧ s'.graphOk = false) ∨
       (r = .err .invalidParameter ∧ ¬ Known (Spec.conditions s) e ∧
          SameSpace s s' ∧ Tables mem s' ∧ Graph s' ∧ s'.graphOk = false ∧ s'.sorted = s.sorted))) := by
  generalize hidx : toUint index = i
  unfold setCondition
  rw [hidx]
  cases hw : s.params[i]? with
  | none => exact .inl ⟨rfl, rfl⟩
  | some w =>
    simp only
    cases hc : w.condition with
    | some c => exact .inr (.inl ⟨w, c, rfl, hc, rfl⟩)
    | none =>
      simp only
      refine .inr (.inr ?_)
      -- the space on which the graph is computed
      have hcond : Spec.conditions { s.withCondition i (some e) with graphOk := false } =
          (Spec.conditions s).modify i fun x => (x.1, some e) := withCondition_conditions s i (some e)
      have hidxd : Indexed { s.withCondition i (some e) with graphOk := false } :=
        withCondition_indexed ht.indexed i (some e)
      have hhand : Space.handles { s.withCondition i (some e) with graphOk := false } = s.handles :=
        withCondition_handles s i (some e)
      have hbuilt : CondBuilt { s.withCondition i (some e) with graphOk := false } := by
        intro w' hw' x hx
        obtain ⟨j, hlt, hwj⟩ := List.mem_iff_getElem.1 hw'
        have hget : (s.withCondition i (some e)).params[j]? = some w' := List.getElem?_eq_some_iff.2 ⟨hlt, hwj⟩
        rw [withCondition_get] at hget
        obtain ⟨u, hu, hu'⟩ := Option.map_eq_some_iff.1 hget
        split at hu'
        · subst hu'
          simp at hx
          subst hx
          exact hb
        · subst hu'
          exact hg.built u (List.mem_of_getElem? hu) x hx
      -- mentioned parameters
      have hkn : ∀ x, Known ((Spec.conditions s).modify i fun x => (x.1, some e)) x ↔ Known (Spec.conditions s) x := by
        intro x
        constructor
        · intro hk h ho
          obtain ⟨j, c, hj⟩ := hk h ho
          rw [List.getElem?_modify] at hj
          cases hcj : (Spec.conditions s)[j]? with
          | none => rw [hcj] at hj; simp at hj
          | some y =>
            rw [hcj] at hj
            simp only [Option.map_eq_map, Option.map_some, Option.some.injEq] at hj
            refine ⟨j, y.2, ?_⟩
            rw [hcj]
            split at hj
            · rw [← (Prod.mk.inj hj).1]
            · rw [hj]
        · intro hk h ho
          obtain ⟨j, c, hj⟩ := hk h ho
          by_cases hij : i = j
          · exact ⟨j, some e, by rw [List.getElem?_modify, hj]; simp [hij]⟩
          · exact ⟨j, c, by rw [List.getElem?_modify, hj]; simp [hij]⟩
      have hcondknown : CondKnown { s.withCondition i (some e) with graphOk := false } ↔
          Known (Spec.conditions s) e := by
        constructor
        · intro hk
          have hgi : (s.withCondition i (some e)).params[i]? = some { w with condition := some e } := by
            rw [withCondition_get, hw]; simp
          have := hk _ (List.mem_of_getElem? hgi) e rfl
          rw [hcond, hkn] at this
          exact this
        · intro hk w' hw' x hx
          rw [hcond, hkn]
          obtain ⟨j, hlt, hwj⟩ := List.mem_iff_getElem.1 hw'
          have hget : (s.withCondition i (some e)).params[j]? = some w' := List.getElem?_eq_some_iff.2 ⟨hlt, hwj⟩
          rw [withCondition_get] at hget
          obtain ⟨u, hu, hu'⟩ := Option.map_eq_some_iff.1 hget
          split at hu'
          · subst hu'
            simp at hx
            subst hx
            exact hk
          · subst hu'
            exact hg.known u (List.mem_of_getElem? hu) x hx
      -- dependencies only grow
      have hdep : ∀ a b, DependsOn (Spec.conditions s) a b →
          DependsOn ((Spec.conditions s).modify i fun x => (x.1, some e)) a b := by
        rintro a b ⟨x, y, z, t, hx, hz, ho⟩
        have hai : a ≠ i := by
          rintro rfl
          rw [conditions_get hw, hc] at hx
          simp at hx
        refine ⟨x, y, z, if i = b then some e else t, ?_, ?_, ho⟩
        · rw [List.getElem?_modify, hx]; simp [Ne.symm hai]
        · rw [List.getElem?_modify, hz]; split <;> simp
      obtain ⟨s', r, h1, h2, h3⟩ := generate_spec hidxd (by rw [hhand]; exact ht.handles) hbuilt
      have hrest : SameSpace s (s'.withCondition i none) := withCondition_restore (e := e) hw hc
        ⟨h2.params, h2.entries, h2.dists, h2.nextId, h2.clauses⟩
      rw [h1]
      rw [hcond, hcondknown] at h3
      rcases h3 with ⟨rfl, hk, ha, ho, hgo⟩ | ⟨rfl, hk, ha, ho, hgo⟩ | ⟨rfl, hk, hso, hgo⟩
      · refine ⟨w, s', .ok (), rfl, hc, rfl, .inl ⟨rfl, hk, ha, ⟨h2.params, h2.entries, h2.dists, h2.nextId, h2.clauses⟩, ?_, ?_, hgo⟩⟩
        · refine h2.tables ⟨hidxd, ?_, ?_⟩
          · have : List.map (fun w => w.param.name) (s.withCondition i (some e)).params =
                List.map (fun w => w.param.name) s.params := by
              apply List.ext_getElem?
              intro j
              rw [List.getElem?_map, List.getElem?_map, withCondition_get]
              cases s.params[j]? with
              | none => rfl
              | some u => simp only [Option.map_some]; split <;> rfl
            show (List.map (fun w => w.param.name) (s.withCondition i (some e)).params).Nodup
            rw [this]
            exact ht.names
          · intro w' hw'
            obtain ⟨j, hlt, hwj⟩ := List.mem_iff_getElem.1 hw'
            have hget : (s.withCondition i (some e)).params[j]? = some w' := List.getElem?_eq_some_iff.2 ⟨hlt, hwj⟩
            rw [withCondition_get] at hget
            obtain ⟨u, hu, hu'⟩ := Option.map_eq_some_iff.1 hget
            have := ht.mem u (List.mem_of_getElem? hu)
            subst hu'
            split <;> exact this
        · have hc' := h2.conditions
          refine ⟨h2.condBuilt hbuilt, h2.condKnown (hcondknown.2 hk), ?_, ?_, fun _ => ?_⟩
          · rw [hc', hcond]; exact ha
          · rw [hc', hcond]; exact evalOrder_partial ho
          · rw [hc', hcond]; exact ho
      · refine ⟨w, s'.withCondition i none, _, rfl, hc, rfl, .inr (.inl ⟨rfl, hk, ha, hrest, hrest.tables ht, ?_, hgo⟩)⟩
        have hc' := hrest.conditions
        refine ⟨hrest.condBuilt hg.built, hrest.condKnown hg.known, by rw [hc']; exact hg.acyclic, ?_, ?_⟩
        · rw [hc']
          refine ⟨ho.nodup, fun x hx => by simpa using ho.bound x hx, ?_⟩
          intro a x b hab j hd
          exact ho.ordered a x b hab j (hdep x j hd)
        · intro h
          have : s'.graphOk = true := h
          rw [hgo] at this
          exact absurd this (by simp)
      · refine ⟨w, s'.withCondition i none, _, rfl, hc, rfl, .inr (.inr ⟨rfl, hk, hrest, hrest.tables ht, ?_, hgo, hso⟩)⟩
        have hc' := hrest.conditions
        refine ⟨hrest.condBuilt hg.built, hrest.condKnown hg.known, by rw [hc']; exact hg.acyclic, ?_, ?_⟩
        · rw [hc']
          have : (s'.withCondition i none).sorted = s.sorted := hso
          rw [this]
          exact hg.order
        · intro h
          have : s'.graphOk = true := h
          rw [hgo] at this
          exact absurd this (by simp)

end CCS
