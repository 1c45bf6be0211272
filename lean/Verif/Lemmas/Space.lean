import Verif.Lemmas.Graph
import Verif.Lemmas.Expr

/-!
# The graph of conditions computed by a configuration space
-/

namespace CCS

open Spec

/-! ## What the graph computations preserve -/

/-- A wrapper without its edges. -/
def PWrap.core (w : PWrap) : PWrap := { w with parents := [], children := [] }

theorem core_get {ws ws' : List PWrap} (h : ws'.map PWrap.core = ws.map PWrap.core) (i : Nat) :
    (ws'[i]?).map PWrap.core = (ws[i]?).map PWrap.core := by
  have := congrArg (fun l => l[i]?) h
  simpa using this

theorem core_some {ws ws' : List PWrap} (h : ws'.map PWrap.core = ws.map PWrap.core) {i : Nat} {w' : PWrap}
    (hw : ws'[i]? = some w') : ∃ w, ws[i]? = some w ∧ w'.core = w.core := by
  have := core_get h i
  rw [hw] at this
  cases hws : ws[i]? with
  | none => rw [hws] at this; simp at this
  | some w =>
    rw [hws] at this
    exact ⟨w, rfl, by simpa using this⟩

theorem core_length {ws ws' : List PWrap} (h : ws'.map PWrap.core = ws.map PWrap.core) :
    ws'.length = ws.length := by simpa using congrArg List.length h

theorem core_fields {w w' : PWrap} (h : w'.core = w.core) :
    w'.handle = w.handle ∧ w'.param = w.param ∧ w'.dist = w.dist ∧ w'.distIndex = w.distIndex ∧
    w'.condition = w.condition := by
  cases w; cases w'
  simp [PWrap.core] at h
  simp [h]

theorem core_map {β : Type} {f : PWrap → β} (hf : ∀ w, f w = f w.core) {ws ws' : List PWrap}
    (h : ws'.map PWrap.core = ws.map PWrap.core) : ws'.map f = ws.map f := by
  have hcomp : ∀ l : List PWrap, l.map f = (l.map PWrap.core).map f := by
    intro l
    rw [List.map_map]
    exact List.map_congr_left fun w _ => hf w
  rw [hcomp ws', hcomp ws, h]

/-- Two spaces that differ only in edges, order and the graph flag. -/
structure SameSpace (s s' : Space) : Prop where
  params : s'.params.map PWrap.core = s.params.map PWrap.core
  entries : s'.entries = s.entries
  dists : s'.dists = s.dists
  nextId : s'.nextId = s.nextId
  clauses : s'.clauses = s.clauses

theorem SameSpace.refl (s : Space) : SameSpace s s := ⟨rfl, rfl, rfl, rfl, rfl⟩

theorem SameSpace.trans {a b c : Space} (h : SameSpace a b) (h' : SameSpace b c) : SameSpace a c :=
  ⟨h'.params.trans h.params, h'.entries.trans h.entries, h'.dists.trans h.dists, h'.nextId.trans h.nextId,
   h'.clauses.trans h.clauses⟩

theorem SameSpace.conditions {s s' : Space} (h : SameSpace s s') : Spec.conditions s' = Spec.conditions s :=
  core_map (f := fun w => (w.handle, w.condition)) (fun _ => rfl) h.params

theorem SameSpace.handles {s s' : Space} (h : SameSpace s s') : s'.handles = s.handles :=
  core_map (f := fun w => w.handle) (fun _ => rfl) h.params

theorem SameSpace.length {s s' : Space} (h : SameSpace s s') : s'.params.length = s.params.length :=
  core_length h.params

/-! ## The hash tables -/

/-- The records of the tables describe the parameters, position by position. -/
def Indexed (s : Space) : Prop :=
  s.entries.length = s.params.length ∧
  ∀ (i : Nat) e, s.entries[i]? = some e → ∃ w, s.params[i]? = some w ∧
    e = ⟨w.handle, w.param.name, i⟩

theorem Indexed.entry {s : Space} (h : Indexed s) {i : Nat} {w : PWrap} (hw : s.params[i]? = some w) :
    s.entries[i]? = some ⟨w.handle, w.param.name, i⟩ := by
  have hi : i < s.entries.length := by rw [h.1]; exact (List.getElem?_eq_some_iff.1 hw).1
  obtain ⟨w', hw', he⟩ := h.2 i _ (List.getElem?_eq_getElem hi)
  rw [hw] at hw'
  rw [List.getElem?_eq_getElem hi, he, Option.some.inj hw']

theorem SameSpace.indexed {s s' : Space} (h : SameSpace s s') (hi : Indexed s) : Indexed s' := by
  refine ⟨by rw [h.entries, h.length]; exact hi.1, fun i e he => ?_⟩
  rw [h.entries] at he
  obtain ⟨w, hw, rfl⟩ := hi.2 i e he
  obtain ⟨w', hw', hc⟩ := core_some h.params.symm hw
  have := core_fields hc
  exact ⟨w', hw', by rw [this.1, this.2.1]⟩

theorem handles_get {s : Space} {i : Nat} {w : PWrap} (hw : s.params[i]? = some w) :
    s.handles[i]? = some w.handle := by simp [Space.handles, hw]

theorem nodup_get {α : Type} {l : List α} (hn : l.Nodup) {i j : Nat} {x : α} (hi : l[i]? = some x)
    (hj : l[j]? = some x) : i = j := by
  obtain ⟨hi', rfl⟩ := List.getElem?_eq_some_iff.1 hi
  obtain ⟨hj', he⟩ := List.getElem?_eq_some_iff.1 hj
  have hp := List.pairwise_iff_getElem.1 hn
  apply Classical.byContradiction
  intro hne
  rcases Nat.lt_or_gt_of_ne hne with h | h
  · exact hp i j hi' hj' h he.symm
  · exact hp j i hj' hi' h he

theorem entryIndex_spec {s : Space} (hi : Indexed s) (h : BitVec 64) :
    (∃ (i : Nat) (w : PWrap), s.params[i]? = some w ∧ w.handle = h ∧ entryIndex s.entries h = .ok i) ∨
    ((∀ w ∈ s.params, w.handle ≠ h) ∧ entryIndex s.entries h = .err .invalidParameter) := by
  unfold entryIndex
  cases hf : s.entries.find? (fun e => decide (e.handle = h)) with
  | some e =>
    have he := List.find?_some hf
    obtain ⟨i, hlt, hei⟩ := List.mem_iff_getElem.1 (List.mem_of_find?_eq_some hf)
    obtain ⟨w, hw, hee⟩ := hi.2 i e (List.getElem?_eq_some_iff.2 ⟨hlt, hei⟩)
    refine .inl ⟨i, w, hw, ?_, ?_⟩
    · rw [hee] at he
      simpa using he
    · rw [hee]
  | none =>
    refine .inr ⟨fun w hw hh => ?_, rfl⟩
    obtain ⟨i, hlt, hwi⟩ := List.mem_iff_getElem.1 hw
    have hw' : s.params[i]? = some w := List.getElem?_eq_some_iff.2 ⟨hlt, hwi⟩
    have := List.find?_eq_none.1 hf _ (List.mem_of_getElem? (hi.entry hw'))
    simp [hh] at this

/-- Positions of the parameters mentioned by an expression. -/
theorem entryIndexes_spec {s : Space} (hi : Indexed s) (hn : s.handles.Nodup) (hs : List (BitVec 64)) :
    (∃ is, entryIndexes s.entries hs = .ok is ∧
      (∀ p, p ∈ is ↔ ∃ w, s.params[p]? = some w ∧ w.handle ∈ hs) ∧ ∀ h ∈ hs, ∃ w ∈ s.params, w.handle = h) ∨
    ((∃ h ∈ hs, ∀ w ∈ s.params, w.handle ≠ h) ∧ entryIndexes s.entries hs = .err .invalidParameter) := by
  induction hs with
  | nil => exact .inl ⟨[], rfl, by simp, by simp⟩
  | cons h hs ih =>
    unfold entryIndexes
    rcases entryIndex_spec hi h with ⟨i, w, hw, hh, he⟩ | ⟨hno, he⟩
    · rw [he, Out.bind_ok]
      rcases ih with ⟨is, his, hmem, hall⟩ | ⟨⟨x, hx, hno⟩, herr⟩
      · rw [his, Out.bind_ok]
        refine .inl ⟨i :: is, rfl, fun p => ?_, ?_⟩
        · rw [List.mem_cons, hmem]
          constructor
          · rintro (rfl | ⟨w', hw', hin⟩)
            · exact ⟨w, hw, by simp [hh]⟩
            · exact ⟨w', hw', by simp [hin]⟩
          · rintro ⟨w', hw', hin⟩
            rcases List.mem_cons.1 hin with hin | hin
            · left
              have h1 := handles_get hw
              have h2 := handles_get hw'
              rw [hin, ← hh] at h2
              exact nodup_get hn h2 h1
            · exact .inr ⟨w', hw', hin⟩
        · intro x hx
          rcases List.mem_cons.1 hx with rfl | hx
          · exact ⟨w, List.mem_of_getElem? hw, hh⟩
          · exact hall x hx
      · rw [herr]
        exact .inr ⟨⟨x, by simp [hx], hno⟩, rfl⟩
    · rw [he]
      exact .inr ⟨⟨h, by simp, hno⟩, rfl⟩

theorem conditions_get {s : Space} {i : Nat} {w : PWrap} (hw : s.params[i]? = some w) :
    (Spec.conditions s)[i]? = some (w.handle, w.condition) := by simp [Spec.conditions, hw]

theorem conditions_some {s : Space} {i : Nat} {h : BitVec 64} {c : Option Expr}
    (hc : (Spec.conditions s)[i]? = some (h, c)) :
    ∃ w, s.params[i]? = some w ∧ w.handle = h ∧ w.condition = c := by
  simp only [Spec.conditions, List.getElem?_map, Option.map_eq_some_iff] at hc
  obtain ⟨w, hw, he⟩ := hc
  exact ⟨w, hw, (Prod.mk.inj he).1, (Prod.mk.inj he).2⟩

theorem known_iff {s : Space} {e : Expr} (hb : Built e) :
    Known (Spec.conditions s) e ↔ ∀ h ∈ e.parameters, ∃ w ∈ s.params, w.handle = h := by
  have hmem : ∀ h, h ∈ e.parameters ↔ Occurs h e := fun h => by
    rw [(parameters_spec e).1 h]
    exact ⟨fun h => h.1, fun h => ⟨h, occurs_ne_zero hb h⟩⟩
  constructor
  · intro hk h hh
    obtain ⟨j, c, hj⟩ := hk h ((hmem h).1 hh)
    obtain ⟨w, hw, hwh, -⟩ := conditions_some hj
    exact ⟨w, List.mem_of_getElem? hw, hwh⟩
  · intro hk h hh
    obtain ⟨w, hw, hwh⟩ := hk h ((hmem h).2 hh)
    obtain ⟨i, hlt, hwi⟩ := List.mem_iff_getElem.1 hw
    exact ⟨i, w.condition, by rw [conditions_get (List.getElem?_eq_some_iff.2 ⟨hlt, hwi⟩), hwh]⟩

/-- Positions of the parameters of a condition. -/
theorem parents_spec {s : Space} (hi : Indexed s) (hn : s.handles.Nodup) {e : Expr} (hb : Built e) :
    (Known (Spec.conditions s) e ∧ ∃ is, entryIndexes s.entries e.parameters = .ok is ∧
      ∀ p, p ∈ is ↔ ∃ w, s.params[p]? = some w ∧ Occurs w.handle e) ∨
    (¬ Known (Spec.conditions s) e ∧ entryIndexes s.entries e.parameters = .err .invalidParameter) := by
  have hmem : ∀ h, h ∈ e.parameters ↔ Occurs h e := fun h => by
    rw [(parameters_spec e).1 h]
    exact ⟨fun h => h.1, fun h => ⟨h, occurs_ne_zero hb h⟩⟩
  rcases entryIndexes_spec hi hn e.parameters with ⟨is, his, hin, hall⟩ | ⟨⟨h, hh, hno⟩, herr⟩
  · refine .inl ⟨(known_iff hb).2 hall, is, his, fun p => ?_⟩
    rw [hin p]
    simp [hmem]
  · refine .inr ⟨fun hk => ?_, herr⟩
    obtain ⟨w, hw, hwh⟩ := (known_iff hb).1 hk h hh
    exact hno w hw hwh

/-! ## Edges -/

theorem pushEdges_spec (index : Nat) : ∀ (ps : List Nat) (ws : List PWrap), index < ws.length →
    (∀ p ∈ ps, p < ws.length) →
    ∃ ws', pushEdges index ps ws = .ok ws' ∧ ws'.map PWrap.core = ws.map PWrap.core ∧
      ∀ (i : Nat) w', ws'[i]? = some w' → ∃ w, ws[i]? = some w ∧
        (∀ p, p ∈ w'.parents ↔ p ∈ w.parents ∨ (i = index ∧ p ∈ ps)) ∧
        (∀ c, c ∈ w'.children ↔ c ∈ w.children ∨ (c = index ∧ i ∈ ps))
  | [], ws, _, _ => ⟨ws, rfl, rfl, fun i w' h => ⟨w', h, by simp, by simp⟩⟩
  | p :: ps, ws, hindex, hps => by
    have hp := hps p (by simp)
    unfold pushEdges
    rw [if_pos hp]
    have hlen : ((ws.modify index fun w => { w with parents := w.parents ++ [p] }).modify p
        fun w => { w with children := w.children ++ [index] }).length = ws.length := by simp
    obtain ⟨ws', hok, hcore, hget⟩ := pushEdges_spec index ps _ (by rw [hlen]; exact hindex)
      (fun x hx => by rw [hlen]; exact hps x (by simp [hx]))
    refine ⟨ws', hok, ?_, ?_⟩
    · rw [hcore]
      apply List.ext_getElem?
      intro i
      simp only [List.getElem?_map, List.getElem?_modify]
      cases ws[i]? with
      | none => simp
      | some w =>
        simp only [Option.map_some]
        split <;> split <;> rfl
    · intro i w' hw'
      obtain ⟨w1, hw1, hpar, hchi⟩ := hget i w' hw'
      rw [List.getElem?_modify, List.getElem?_modify] at hw1
      cases hws : ws[i]? with
      | none => rw [hws] at hw1; simp at hw1
      | some w =>
        rw [hws] at hw1
        simp only [Option.map_eq_map, Option.map_some, Option.some.injEq] at hw1
        refine ⟨w, rfl, fun x => ?_, fun c => ?_⟩
        · rw [hpar, ← hw1]
          split <;> split <;> simp_all <;> grind
        · rw [hchi, ← hw1]
          split <;> split <;> simp_all <;> grind

/-- The edges written for the parameters before position `k`. -/
def EdgesUpTo (ps : List (BitVec 64 × Option Expr)) (ws : List PWrap) (k : Nat) : Prop :=
  ∀ (i : Nat) w, ws[i]? = some w →
    (∀ p, p ∈ w.parents ↔ i < k ∧ DependsOn ps i p) ∧ (∀ c, c ∈ w.children ↔ c < k ∧ DependsOn ps c i)

theorem edgesLoop_spec {s : Space} (hi : Indexed s) (hn : s.handles.Nodup)
    (hb : ∀ w ∈ s.params, ∀ e, w.condition = some e → Built e) :
    ∀ (todo k : Nat) (ws : List PWrap), k + todo = s.params.length →
      ws.map PWrap.core = s.params.map PWrap.core → EdgesUpTo (Spec.conditions s) ws k →
      (∃ ws', edgesLoop s.entries todo k ws = (ws', .ok ()) ∧
        ws'.map PWrap.core = s.params.map PWrap.core ∧ EdgesUpTo (Spec.conditions s) ws' s.params.length ∧
        ∀ (i : Nat) w e, k ≤ i → s.params[i]? = some w → w.condition = some e →
          Known (Spec.conditions s) e) ∨
      (∃ ws', edgesLoop s.entries todo k ws = (ws', .err .invalidParameter) ∧
        ws'.map PWrap.core = s.params.map PWrap.core ∧
        ∃ w ∈ s.params, ∃ e, w.condition = some e ∧ ¬ Known (Spec.conditions s) e)
  | 0, k, ws, hk, hcore, hup => by
    have : k = s.params.length := by omega
    subst this
    refine .inl ⟨ws, rfl, hcore, hup, ?_⟩
    intro i w e hki hw
    have := (List.getElem?_eq_some_iff.1 hw).1
    omega
  | todo + 1, k, ws, hk, hcore, hup => by
    have hlen := core_length hcore
    have hklt : k < ws.length := by omega
    have hw : ws[k]? = some ws[k] := List.getElem?_eq_getElem hklt
    obtain ⟨w0, hw0, hc⟩ := core_some hcore hw
    have hf := core_fields hc
    unfold edgesLoop
    rw [hw]
    simp only
    cases hcond : ws[k].condition with
    | none =>
      simp only
      have hnodep : ∀ p, ¬ DependsOn (Spec.conditions s) k p := by
        rintro p ⟨h, e, h', c, h1, -, -⟩
        rw [conditions_get hw0, ← hf.2.2.2.2, hcond] at h1
        simp at h1
      have hup' : EdgesUpTo (Spec.conditions s) ws (k + 1) := by
        intro i w hwi
        obtain ⟨h1, h2⟩ := hup i w hwi
        refine ⟨fun p => ?_, fun c => ?_⟩
        · rw [h1]
          constructor
          · rintro ⟨a, b⟩; exact ⟨by omega, b⟩
          · rintro ⟨a, b⟩
            refine ⟨?_, b⟩
            apply Classical.byContradiction
            intro hni
            have : i = k := by omega
            exact hnodep p (this ▸ b)
        · rw [h2]
          constructor
          · rintro ⟨a, b⟩; exact ⟨by omega, b⟩
          · rintro ⟨a, b⟩
            refine ⟨?_, b⟩
            apply Classical.byContradiction
            intro hni
            have : c = k := by omega
            exact hnodep i (this ▸ b)
      rcases edgesLoop_spec hi hn hb todo (k + 1) ws (by omega) hcore hup' with ⟨ws', h1, h2, h3, h4⟩ | h
      · refine .inl ⟨ws', h1, h2, h3, ?_⟩
        intro i w e hki hwi hce
        by_cases hik : i = k
        · subst hik
          rw [hw0] at hwi
          rw [← Option.some.inj hwi, ← hf.2.2.2.2, hcond] at hce
          simp at hce
        · exact h4 i w e (by omega) hwi hce
      · exact .inr h
    | some e =>
      simp only
      have hce : w0.condition = some e := by rw [← hf.2.2.2.2, hcond]
      have hbe := hb w0 (List.mem_of_getElem? hw0) e hce
      rcases parents_spec hi hn hbe with ⟨hknown, is, his, hmem⟩ | ⟨hnk, herr⟩
      · rw [his, Out.bind_ok]
        obtain ⟨ws1, hok, hcore1, hget⟩ := pushEdges_spec k is ws hklt (by
          intro p hp
          obtain ⟨w, hwp, -⟩ := (hmem p).1 hp
          have := (List.getElem?_eq_some_iff.1 hwp).1
          omega)
        rw [hok]
        simp only
        have hdep : ∀ p, DependsOn (Spec.conditions s) k p ↔ p ∈ is := by
          intro p
          rw [hmem p]
          constructor
          · rintro ⟨h, e', h', c, h1, h2, h3⟩
            rw [conditions_get hw0, hce] at h1
            obtain ⟨w, hwp, hwh, -⟩ := conditions_some h2
            have he : e' = e := by simpa using (Prod.mk.inj (Option.some.inj h1)).2.symm
            exact ⟨w, hwp, by rw [hwh, ← he]; exact h3⟩
          · rintro ⟨w, hwp, hocc⟩
            exact ⟨w0.handle, e, w.handle, w.condition, by rw [conditions_get hw0, hce], conditions_get hwp, hocc⟩
        have hup' : EdgesUpTo (Spec.conditions s) ws1 (k + 1) := by
          intro i w1 hw1
          obtain ⟨w, hwi, hpar, hchi⟩ := hget i w1 hw1
          obtain ⟨h1, h2⟩ := hup i w hwi
          refine ⟨fun p => ?_, fun c => ?_⟩
          · rw [hpar, h1]
            constructor
            · rintro (⟨a, b⟩ | ⟨rfl, b⟩)
              · exact ⟨by omega, b⟩
              · exact ⟨by omega, (hdep p).2 b⟩
            · rintro ⟨a, b⟩
              by_cases hik : i = k
              · subst hik
                exact .inr ⟨rfl, (hdep p).1 b⟩
              · exact .inl ⟨by omega, b⟩
          · rw [hchi, h2]
            constructor
            · rintro (⟨a, b⟩ | ⟨rfl, b⟩)
              · exact ⟨by omega, b⟩
              · exact ⟨by omega, (hdep i).2 b⟩
            · rintro ⟨a, b⟩
              by_cases hck : c = k
              · subst hck
                exact .inr ⟨rfl, (hdep i).1 b⟩
              · exact .inl ⟨by omega, b⟩
        rcases edgesLoop_spec hi hn hb todo (k + 1) ws1 (by omega) (hcore1.trans hcore) hup' with
          ⟨ws', h1, h2, h3, h4⟩ | h
        · refine .inl ⟨ws', h1, h2, h3, ?_⟩
          intro i w e' hki hwi hce'
          by_cases hik : i = k
          · subst hik
            rw [hw0] at hwi
            rw [← Option.some.inj hwi, hce] at hce'
            rw [← Option.some.inj hce']
            exact hknown
          · exact h4 i w e' (by omega) hwi hce'
        · exact .inr h
      · rw [herr]
        exact .inr ⟨ws, rfl, hcore, w0, List.mem_of_getElem? hw0, e, hce, hnk⟩

theorem clearEdges_core (ws : List PWrap) : (clearEdges ws).map PWrap.core = ws.map PWrap.core := by
  rw [clearEdges, List.map_map]
  exact List.map_congr_left fun w _ => rfl

theorem uniqEdges_core (ws : List PWrap) : (uniqEdges ws).map PWrap.core = ws.map PWrap.core := by
  rw [uniqEdges, List.map_map]
  exact List.map_congr_left fun w _ => rfl

/-- All conditions of a space come from the constructors. -/
def CondBuilt (s : Space) : Prop := ∀ w ∈ s.params, ∀ e, w.condition = some e → Built e

/-- All conditions of a space mention only its parameters. -/
def CondKnown (s : Space) : Prop := ∀ w ∈ s.params, ∀ e, w.condition = some e → Known (Spec.conditions s) e

theorem recomputeGraph_spec {s : Space} (hi : Indexed s) (hn : s.handles.Nodup) (hb : CondBuilt s) :
    (CondKnown s ∧ ∃ ws, recomputeGraph s = ({ s with params := ws }, .ok ()) ∧
      ws.map PWrap.core = s.params.map PWrap.core ∧ EdgesOk ws ∧
      ∀ (i : Nat) w, ws[i]? = some w → ∀ p, p ∈ w.parents ↔ DependsOn (Spec.conditions s) i p) ∨
    (¬ CondKnown s ∧ ∃ ws, recomputeGraph s = ({ s with params := ws }, .err .invalidParameter) ∧
      ws.map PWrap.core = s.params.map PWrap.core) := by
  have hstart : EdgesUpTo (Spec.conditions s) (clearEdges s.params) 0 := by
    intro i w hw
    simp only [clearEdges, List.getElem?_map, Option.map_eq_some_iff] at hw
    obtain ⟨w', -, rfl⟩ := hw
    exact ⟨by simp, by simp⟩
  unfold recomputeGraph
  rcases edgesLoop_spec hi hn hb s.params.length 0 (clearEdges s.params) (by omega) (clearEdges_core _) hstart with
    ⟨ws, h1, h2, h3, h4⟩ | ⟨ws, h1, h2, w, hw, e, hce, hnk⟩
  · rw [h1]
    have hlen := core_length h2
    have hget : ∀ (i : Nat) w, (uniqEdges ws)[i]? = some w → w.parents.Nodup ∧ w.children.Nodup ∧
        (∀ p, p ∈ w.parents ↔ DependsOn (Spec.conditions s) i p) ∧
        (∀ c, c ∈ w.children ↔ DependsOn (Spec.conditions s) c i) := by
      intro i w hw
      simp only [uniqEdges, List.getElem?_map, Option.map_eq_some_iff] at hw
      obtain ⟨w', hw', rfl⟩ := hw
      obtain ⟨ha, hb'⟩ := h3 i w' hw'
      have hlt := (List.getElem?_eq_some_iff.1 hw').1
      refine ⟨uniqNat_nodup _, uniqNat_nodup _, fun p => ?_, fun c => ?_⟩
      · rw [mem_uniqNat, ha]
        exact ⟨fun h => h.2, fun h => ⟨by omega, h⟩⟩
      · rw [mem_uniqNat, hb']
        refine ⟨fun h => h.2, fun h => ⟨?_, h⟩⟩
        obtain ⟨x, y, z, t, hx, -, -⟩ := h
        obtain ⟨w, hw, -⟩ := conditions_some hx
        exact (List.getElem?_eq_some_iff.1 hw).1
    have hlen' : (uniqEdges ws).length = s.params.length := by simp [uniqEdges, hlen]
    refine .inl ⟨?_, uniqEdges ws, rfl, (uniqEdges_core ws).trans h2, ⟨?_, ?_⟩, fun i w hw => (hget i w hw).2.2.1⟩
    · intro w hw e hce
      obtain ⟨i, hlt, hwi⟩ := List.mem_iff_getElem.1 hw
      exact h4 i w e (by omega) (List.getElem?_eq_some_iff.2 ⟨hlt, hwi⟩) hce
    · intro i w hw
      refine ⟨(hget i w hw).1, fun p hp => ?_⟩
      obtain ⟨x, y, z, t, -, hy, -⟩ := ((hget i w hw).2.2.1 p).1 hp
      obtain ⟨w', hw', -⟩ := conditions_some hy
      rw [hlen']
      exact (List.getElem?_eq_some_iff.1 hw').1
    · intro i w hw
      refine ⟨(hget i w hw).2.1, fun c => ?_⟩
      rw [(hget i w hw).2.2.2]
      constructor
      · intro hd
        have hd' := hd
        obtain ⟨x, y, z, t, hx, -, -⟩ := hd
        obtain ⟨wc, hwc, -⟩ := conditions_some hx
        have hlt : c < (uniqEdges ws).length := by rw [hlen']; exact (List.getElem?_eq_some_iff.1 hwc).1
        refine ⟨_, List.getElem?_eq_getElem hlt, ?_⟩
        exact ((hget c _ (List.getElem?_eq_getElem hlt)).2.2.1 i).2 hd'
      · rintro ⟨w', hw', hp⟩
        exact ((hget c w' hw').2.2.1 i).1 hp
  · rw [h1]
    exact .inr ⟨fun hk => hnk (hk w hw e hce), ws, rfl, h2⟩

/-! ## The whole computation -/

/-- Every listed parameter comes after those its condition mentions. -/
def Ordered (ps : List (BitVec 64 × Option Expr)) (l : List Nat) : Prop :=
  ∀ before i after, l = before ++ i :: after → ∀ j, DependsOn ps i j → j ∈ before

/-- `l` lists distinct parameters of a space in an acceptable order, perhaps not all of them. -/
structure PartialOrder (ps : List (BitVec 64 × Option Expr)) (l : List Nat) : Prop where
  nodup : l.Nodup
  bound : ∀ i ∈ l, i < ps.length
  ordered : Ordered ps l

theorem chain_congr {R R' : Nat → Nat → Prop} (h : ∀ i j, R i j → R' i j) {i j : Nat} (hc : Chain R i j) :
    Chain R' i j := by
  induction hc with
  | one a => exact .one (h _ _ a)
  | more a _ ih => exact .more (h _ _ a) ih

theorem conditions_length (s : Space) : (Spec.conditions s).length = s.params.length := by
  simp [Spec.conditions]

theorem generate_spec {s : Space} (hi : Indexed s) (hn : s.handles.Nodup) (hb : CondBuilt s) :
    ∃ s' r, generateConstraints s = (s', r) ∧ SameSpace s s' ∧
      ((r = .ok () ∧ CondKnown s ∧ Acyclic (Spec.conditions s) ∧ EvalOrder (Spec.conditions s) s'.sorted ∧
          s'.graphOk = true) ∨
       (r = .err .invalidGraph ∧ CondKnown s ∧ ¬ Acyclic (Spec.conditions s) ∧
          PartialOrder (Spec.conditions s) s'.sorted ∧ s'.graphOk = s.graphOk) ∨
       (r = .err .invalidParameter ∧ ¬ CondKnown s ∧ s'.sorted = s.sorted ∧ s'.graphOk = s.graphOk)) := by
  unfold generateConstraints
  rcases recomputeGraph_spec hi hn hb with ⟨hk, ws, h1, h2, h3, h4⟩ | ⟨hk, ws, h1, h2⟩
  · rw [h1]
    simp only
    obtain ⟨l, hkahn, hnd, hbd, hord, hcyc⟩ := kahn_result h3
    have hlen : ws.length = (Spec.conditions s).length := by
      rw [core_length h2, conditions_length]
    have hrel : ∀ i p, (∃ w, ws[i]? = some w ∧ p ∈ w.parents) ↔ DependsOn (Spec.conditions s) i p := by
      intro i p
      constructor
      · rintro ⟨w, hw, hp⟩
        exact (h4 i w hw p).1 hp
      · intro hd
        have hd' := hd
        obtain ⟨x, y, z, t, hx, -, -⟩ := hd
        have hlt : i < ws.length := by rw [hlen]; exact (List.getElem?_eq_some_iff.1 hx).1
        exact ⟨_, List.getElem?_eq_getElem hlt, (h4 i _ (List.getElem?_eq_getElem hlt) p).2 hd'⟩
    have hordered : Ordered (Spec.conditions s) l := by
      intro a i b hab j hd
      obtain ⟨w, hw, hp⟩ := (hrel i j).2 hd
      exact hord a i b hab w hw j hp
    have hcyc' : l.length < ws.length ↔ ¬ Acyclic (Spec.conditions s) := by
      rw [hcyc]
      constructor
      · rintro ⟨i, hc⟩ ha
        exact ha i (chain_congr (fun i j h => (hrel i j).1 h) hc)
      · intro hna
        apply Classical.byContradiction
        intro hno
        apply hna
        intro i hc
        exact hno ⟨i, chain_congr (fun i j h => (hrel i j).2 h) hc⟩
    unfold topologicalSort
    simp only
    rw [hkahn]
    simp only
    by_cases hlt : l.length < ws.length
    · rw [if_pos hlt]
      refine ⟨_, _, rfl, ⟨h2, rfl, rfl, rfl, rfl⟩, .inr (.inl ⟨rfl, hk, hcyc'.1 hlt, ⟨hnd, ?_, hordered⟩, rfl⟩)⟩
      intro i hil
      rw [← hlen]
      exact hbd i hil
    · rw [if_neg hlt]
      refine ⟨_, _, rfl, ⟨h2, rfl, rfl, rfl, rfl⟩, .inl ⟨rfl, hk, ?_, ⟨?_, hordered⟩, rfl⟩⟩
      · exact Classical.byContradiction fun h => hlt (hcyc'.2 h)
      · rw [← hlen]
        exact perm_range hnd hbd (Nat.le_of_not_lt hlt)
  · rw [h1]
    exact ⟨_, _, rfl, ⟨h2, rfl, rfl, rfl, rfl⟩, .inr (.inr ⟨rfl, hk, rfl, rfl⟩)⟩

end CCS
