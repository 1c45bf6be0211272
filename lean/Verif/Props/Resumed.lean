/-
C162: a search that goes on after its space was saved and read.
-/
import Verif.Spec.Resumed
import Verif.Lemmas.Seeded
import Verif.Props.SpaceWire

namespace CCS.Props.Resumed
open CCS CCS.Spec CCS.Resumed.Spec CCS.Props

section
variable {τ : Type} {ops : FloatOps} {jen : Bytes → BitVec 32} {little : Bool}

/-- The generator is the same, and what is found is the same. -/
def Agree {α : Type} (x y : Out α × τ) : Prop := x.2 = y.2 ∧ ∀ a, x.1 = .ok a ↔ y.1 = .ok a

/-- Two spaces that draw alike and judge alike. -/
structure Alike (ops : FloatOps) (jen : Bytes → BitVec 32) (little : Bool) (s s' : Space) (src src' : BitVec 64 → Seeded.Source τ) : Prop where
  length : s'.params.length = s.params.length
  draws : ∀ vals g, Seeded.drawAll s' src' s'.dists vals g = Seeded.drawAll s src s.dists vals g
  actives : ∀ raw, raw.length = s.params.length → ∀ a, setActives ops jen little s' s'.sorted raw = .ok a ↔ setActives ops jen little s s.sorted raw = .ok a
  clauses : ∀ vals, testForbidden ops jen little s' vals s'.clauses = testForbidden ops jen little s vals s.clauses

theorem writeBack_len : ∀ (is : List Nat) (vs vals out : List Value), writeBack is vs vals = .ok out → out.length = vals.length
  | [], _, _, _, h => by cases h; rfl
  | _ :: _, [], _, _, h => by cases h
  | i :: is, v :: vs, vals, out, h => by
    unfold writeBack at h
    split at h
    · rw [writeBack_len is vs _ _ h, List.length_set]
    · cases h

theorem drawAll_len (s : Space) (src : BitVec 64 → Seeded.Source τ) : ∀ (l : List DWrap) (vals out : List Value) (g : τ),
    (Seeded.drawAll s src l vals g).1 = .ok out → out.length = vals.length
  | [], _, _, _, h => by cases h; rfl
  | d :: ds, vals, out, g, h => by
    unfold Seeded.drawAll at h
    rcases hx : Seeded.request s src d g with ⟨vs | e | _, g1⟩ <;> rw [hx] at h
    · simp only [Seeded.andThen] at h
      cases hw : writeBack d.indexes vs vals with
      | ok vals' =>
        rw [hw] at h
        rw [drawAll_len s src ds vals' out g1 h, writeBack_len _ _ _ _ hw]
      | err e => rw [hw] at h; cases h
      | ub => rw [hw] at h; cases h
    · cases h
    · cases h

variable {s s' : Space} {src src' : BitVec 64 → Seeded.Source τ}

theorem attempt_agree (h : Alike ops jen little s s' src src') (vals : List Value) (hl : vals.length = s.params.length) (g : τ) :
    Agree (Seeded.attempt ops jen little s' src' vals g) (Seeded.attempt ops jen little s src vals g) := by
  unfold Seeded.attempt
  rw [h.draws]
  rcases hx : Seeded.drawAll s src s.dists vals g with ⟨raw | e | _, g1⟩
  · have hr : raw.length = s.params.length := (drawAll_len s src s.dists vals raw g (by rw [hx])).trans hl
    have ha := h.actives raw hr
    dsimp only [Seeded.andThen]
    cases h1 : setActives ops jen little s' s'.sorted raw with
    | ok a =>
      rw [(ha a).1 h1]
      dsimp only
      rw [h.clauses]
      exact ⟨rfl, fun _ => Iff.rfl⟩
    | err e =>
      cases h2 : setActives ops jen little s s.sorted raw with
      | ok a => rw [(ha a).2 h2] at h1; cases h1
      | err e' => exact ⟨rfl, fun a => ⟨nofun, nofun⟩⟩
      | ub => exact ⟨rfl, fun a => ⟨nofun, nofun⟩⟩
    | ub =>
      cases h2 : setActives ops jen little s s.sorted raw with
      | ok a => rw [(ha a).2 h2] at h1; cases h1
      | err e' => exact ⟨rfl, fun a => ⟨nofun, nofun⟩⟩
      | ub => exact ⟨rfl, fun a => ⟨nofun, nofun⟩⟩
  · exact ⟨rfl, fun _ => Iff.rfl⟩
  · exact ⟨rfl, fun _ => Iff.rfl⟩

theorem attempt_len {vals : List Value} {g g1 : τ} {r : Bool × List Value} (h : Seeded.attempt ops jen little s src vals g = (.ok r, g1)) :
    r.2.length = vals.length := by
  unfold Seeded.attempt at h
  rcases hx : Seeded.drawAll s src s.dists vals g with ⟨raw | e | _, g2⟩ <;> rw [hx] at h
  · dsimp only [Seeded.andThen] at h
    cases h1 : setActives ops jen little s s.sorted raw with
    | ok a =>
      rw [h1] at h
      dsimp only at h
      cases h2 : testForbidden ops jen little s a s.clauses with
      | ok b =>
        rw [h2] at h
        cases h
        exact (setActives_length _ _ _ h1).trans (drawAll_len s src s.dists vals raw g (by rw [hx]))
      | err e => rw [h2] at h; cases h
      | ub => rw [h2] at h; cases h
    | err e => rw [h1] at h; cases h
    | ub => rw [h1] at h; cases h
  · cases h
  · cases h

theorem round_agree (h : Alike ops jen little s s' src src') {vals : List Value} (hl : vals.length = s.params.length) (g : τ)
    {f f' : List Value → τ → Out (List Value) × τ} (hf : ∀ vals, vals.length = s.params.length → ∀ g, Agree (f' vals g) (f vals g)) :
    Agree (Seeded.andThen (Seeded.attempt ops jen little s' src' vals g) fun r g => if r.1 then (.ok r.2, g) else f' r.2 g)
      (Seeded.andThen (Seeded.attempt ops jen little s src vals g) fun r g => if r.1 then (.ok r.2, g) else f r.2 g) := by
  have ha := attempt_agree h vals hl g
  have hlen : ∀ r g1, Seeded.attempt ops jen little s src vals g = (.ok r, g1) → r.2.length = s.params.length := fun r g1 h1 => (attempt_len h1).trans hl
  generalize Seeded.attempt ops jen little s' src' vals g = x at ha ⊢
  generalize Seeded.attempt ops jen little s src vals g = y at ha hlen ⊢
  obtain ⟨x, g1⟩ := x
  obtain ⟨y, g2⟩ := y
  obtain ⟨hg, ho⟩ := ha
  cases hg
  cases x with
  | ok r =>
    cases (ho r).1 rfl
    have hr := hlen r _ rfl
    dsimp only [Seeded.andThen]
    cases r.1 with
    | true => exact ⟨rfl, fun _ => Iff.rfl⟩
    | false => exact hf _ hr _
  | err e =>
    cases y with
    | ok r => cases (ho r).2 rfl
    | err e' => exact ⟨rfl, fun a => ⟨nofun, nofun⟩⟩
    | ub => exact ⟨rfl, fun a => ⟨nofun, nofun⟩⟩
  | ub =>
    cases y with
    | ok r => cases (ho r).2 rfl
    | err e' => exact ⟨rfl, fun a => ⟨nofun, nofun⟩⟩
    | ub => exact ⟨rfl, fun a => ⟨nofun, nofun⟩⟩

theorem loop_zero (s : Space) (src : BitVec 64 → Seeded.Source τ) (vals : List Value) (g : τ) :
    Seeded.sampleLoop ops jen little s src 0 vals g = Seeded.andThen (Seeded.attempt ops jen little s src vals g) fun r g =>
      if r.1 then (.ok r.2, g) else (fun _ g => (.err .samplingUnsuccessful, g)) r.2 g := by
  unfold Seeded.sampleLoop
  rfl

theorem loop_succ (s : Space) (src : BitVec 64 → Seeded.Source τ) (left : Nat) (vals : List Value) (g : τ) :
    Seeded.sampleLoop ops jen little s src (left + 1) vals g = Seeded.andThen (Seeded.attempt ops jen little s src vals g) fun r g =>
      if r.1 then (.ok r.2, g) else Seeded.sampleLoop ops jen little s src left r.2 g := by
  conv => lhs; unfold Seeded.sampleLoop

theorem loop_agree (h : Alike ops jen little s s' src src') (left : Nat) : ∀ (vals : List Value), vals.length = s.params.length → ∀ g,
    Agree (Seeded.sampleLoop ops jen little s' src' left vals g) (Seeded.sampleLoop ops jen little s src left vals g) := by
  induction left with
  | zero =>
    intro vals hl g
    rw [loop_zero, loop_zero]
    exact round_agree (f := fun _ g => (.err .samplingUnsuccessful, g)) (f' := fun _ g => (.err .samplingUnsuccessful, g)) h hl g
      fun _ _ _ => ⟨rfl, fun _ => Iff.rfl⟩
  | succ left ih =>
    intro vals hl g
    rw [loop_succ, loop_succ]
    exact round_agree h hl g ih

theorem search_agree (h : Alike ops jen little s s' src src') (hg : s.graphOk = true) (hg' : s'.graphOk = true) : ∀ (k : Nat) (g : τ),
    askAgain ops jen little src' k s' g = askAgain ops jen little src k s g
  | 0, _ => rfl
  | k + 1, g => by
    have e1 : Seeded.sampleOne ops jen little s src g = (s, Seeded.sampleLoop ops jen little s src 99 s.blank g) := by
      unfold Seeded.sampleOne ensureGraph
      rw [if_pos hg]
    have e2 : Seeded.sampleOne ops jen little s' src' g = (s', Seeded.sampleLoop ops jen little s' src' 99 s.blank g) := by
      unfold Seeded.sampleOne ensureGraph
      rw [if_pos hg']
      show (s', Seeded.sampleLoop ops jen little s' src' 99 s'.blank g) = _
      rw [show s'.blank = s.blank by unfold Space.blank; rw [h.length]]
    obtain ⟨a1, a2⟩ := loop_agree h 99 s.blank (by simp [Space.blank]) g
    unfold askAgain
    rw [e1, e2]
    dsimp only
    rw [a1, search_agree h hg hg' k]
    congr 2
    generalize (Seeded.sampleLoop ops jen little s' src' 99 s.blank g).1 = x at a2 ⊢
    generalize (Seeded.sampleLoop ops jen little s src 99 s.blank g).1 = y at a2 ⊢
    cases x with
    | ok v => rw [(a2 v).1 rfl]
    | err e =>
      cases y with
      | ok v => cases (a2 v).2 rfl
      | err _ => rfl
      | ub => rfl
    | ub =>
      cases y with
      | ok v => cases (a2 v).2 rfl
      | err _ => rfl
      | ub => rfl

theorem many_step (s : Space) (src : BitVec 64 → Seeded.Source τ) (n left : Nat) (cur : List Value) (found : List (List Value)) (g : τ)
    (hn : ¬ n ≤ found.length) : Seeded.samplesLoop ops jen little s src n (left + 1) cur found g =
      match Seeded.attempt ops jen little s src cur g with
      | (.err e, g) => (found, .err e, g)
      | (.ub, g) => (found, .ub, g)
      | (.ok r, g) =>
        if r.1 then Seeded.samplesLoop ops jen little s src n left s.blank (found ++ [r.2]) g
        else Seeded.samplesLoop ops jen little s src n left r.2 found g := by
  conv => lhs; unfold Seeded.samplesLoop
  rw [if_neg hn]
  dsimp only
  rcases Seeded.attempt ops jen little s src cur g with ⟨r | e | _, g1⟩ <;> rfl

theorem many_zero (s : Space) (src : BitVec 64 → Seeded.Source τ) (n : Nat) (cur : List Value) (found : List (List Value)) (g : τ)
    (hn : ¬ n ≤ found.length) : Seeded.samplesLoop ops jen little s src n 0 cur found g = (found, .err .samplingUnsuccessful, g) := by
  unfold Seeded.samplesLoop
  rw [if_neg hn]

theorem many_done (s : Space) (src : BitVec 64 → Seeded.Source τ) (n left : Nat) (cur : List Value) (found : List (List Value)) (g : τ)
    (hn : n ≤ found.length) : Seeded.samplesLoop ops jen little s src n left cur found g = (found, .ok (), g) := by
  unfold Seeded.samplesLoop
  rw [if_pos hn]

theorem many_agree (h : Alike ops jen little s s' src src') (n left : Nat) : ∀ (cur : List Value), cur.length = s.params.length →
    ∀ (found : List (List Value)) (g : τ),
    SameSamples (Seeded.samplesLoop ops jen little s' src' n left cur found g) (Seeded.samplesLoop ops jen little s src n left cur found g) := by
  have hb : s'.blank = s.blank := by unfold Space.blank; rw [h.length]
  induction left with
  | zero =>
    intro cur hl found g
    by_cases hn : n ≤ found.length
    · rw [many_done _ _ _ _ _ _ _ hn, many_done _ _ _ _ _ _ _ hn]
      exact ⟨rfl, Iff.rfl, rfl⟩
    · rw [many_zero _ _ _ _ _ _ hn, many_zero _ _ _ _ _ _ hn]
      exact ⟨rfl, Iff.rfl, rfl⟩
  | succ left ih =>
    intro cur hl found g
    by_cases hn : n ≤ found.length
    · rw [many_done _ _ _ _ _ _ _ hn, many_done _ _ _ _ _ _ _ hn]
      exact ⟨rfl, Iff.rfl, rfl⟩
    · rw [many_step _ _ _ _ _ _ _ hn, many_step _ _ _ _ _ _ _ hn, hb]
      have ha := attempt_agree h cur hl g
      have hlen : ∀ r g1, Seeded.attempt ops jen little s src cur g = (.ok r, g1) → r.2.length = s.params.length :=
        fun r g1 h1 => (attempt_len h1).trans hl
      generalize Seeded.attempt ops jen little s' src' cur g = x at ha ⊢
      generalize Seeded.attempt ops jen little s src cur g = y at ha hlen ⊢
      obtain ⟨x, g1⟩ := x
      obtain ⟨y, g2⟩ := y
      obtain ⟨hg, ho⟩ := ha
      cases hg
      cases x with
      | ok r =>
        cases (ho r).1 rfl
        have hr := hlen r _ rfl
        dsimp only
        cases r.1 with
        | true => exact ih s.blank (by simp [Space.blank]) _ _
        | false => exact ih r.2 hr _ _
      | err e =>
        cases y with
        | ok r => cases (ho r).2 rfl
        | err e' => exact ⟨rfl, ⟨nofun, nofun⟩, rfl⟩
        | ub => exact ⟨rfl, ⟨nofun, nofun⟩, rfl⟩
      | ub =>
        cases y with
        | ok r => cases (ho r).2 rfl
        | err e' => exact ⟨rfl, ⟨nofun, nofun⟩, rfl⟩
        | ub => exact ⟨rfl, ⟨nofun, nofun⟩, rfl⟩

theorem search_ensure {s₁ : Space} (h : ensureGraph s = (s₁, .ok ())) (hg : s₁.graphOk = true) (k : Nat) (g : τ) :
    askAgain ops jen little src k s g = askAgain ops jen little src k s₁ g := by
  cases k with
  | zero => rfl
  | succ k =>
    have e1 : Seeded.sampleOne ops jen little s src g = Seeded.sampleOne ops jen little s₁ src g := by
      unfold Seeded.sampleOne
      rw [h, show ensureGraph s₁ = (s₁, .ok ()) by unfold ensureGraph; rw [if_pos hg]]
    unfold askAgain
    rw [e1]

theorem draw_alike (hlen : s'.params.length = s.params.length) (hpa : ∀ l, paramsAt s'.params l = paramsAt s.params l) :
    ∀ (l' l : List DWrap) (vals : List Value) (g : τ), l'.length = l.length →
    (∀ (j : Nat) w' w, l'[j]? = some w' → l[j]? = some w → w'.indexes = w.indexes ∧ w'.dist.dim = w.dist.dim ∧ w'.dist.bounds = w.dist.bounds ∧
      src' w'.dist.handle = src w.dist.handle) →
    Seeded.drawAll s' src' l' vals g = Seeded.drawAll s src l vals g
  | [], [], _, _, _, _ => rfl
  | [], _ :: _, _, _, h, _ => by simp at h
  | _ :: _, [], _, _, h, _ => by simp at h
  | w' :: l', w :: l, vals, g, h, hj => by
    obtain ⟨h1, h2, h3, h4⟩ := hj 0 w' w rfl rfl
    have hr : Seeded.request s' src' w' g = Seeded.request s src w g := by
      unfold Seeded.request
      rw [h1, hlen, hpa, h4]
      congr 1
      congr 1
      funext ps g
      unfold Seeded.jointSamples Seeded.jointMany
      rw [h2, h3]
    unfold Seeded.drawAll
    rw [hr, h1]
    congr 1
    funext vs g
    congr 1
    funext vals' g
    exact draw_alike hlen hpa l' l vals' g (by simpa using h) fun j a b ha hb => hj (j + 1) a b (by simpa using ha) (by simpa using hb)

end

variable {σ τ : Type} {H : Host σ} {mem mem' : BitVec 64 → Param} {mk : Nat → Param → Out Dist} {hp : Heap} {o : SpaceObj}

/-- The space read back draws and judges as the one written, once this has its evaluation order. -/
theorem read_alike (h : Stored H H.little mem mem' mk hp o) (hv : ShowsDists H hp o.space)
    (hall : recreateAll H.M (o.space.dists.map fun w => hp.dist w.dist.handle) =
      .ok (o.space.dists.map fun w => hp.dist w.dist.handle))
    {r : ReadSpace} (hr : rebuilt H mem' H.little hp o = .ok r)
    {draws : DistObj → Seeded.Source τ} {src src' : BitVec 64 → Seeded.Source τ}
    (hs : DrawsBy draws src (o.space.dists.map (·.dist.handle)) (o.space.dists.map fun w => hp.dist w.dist.handle))
    (hs' : DrawsBy draws src' (r.space.dists.map (·.dist.handle)) r.dists) :
    ∃ s₁, ensureGraph o.space = (s₁, .ok ()) ∧ s₁.graphOk = true ∧ r.space.graphOk = true ∧
      Alike H.M.ops H.jen H.little s₁ r.space src src' := by
  obtain ⟨-, -, -, -, -, -, b7, b8, b9, b10⟩ := (C87_rebuilt_exactly h).2 r hr
  have hds := Out.ok.inj (hall.symm.trans b7)
  have hset := h.setting
  have hw := reachable_witnessed h.one h.reach
  have hg' := reachable_good h.sound.one b10
  have hc := twin_copied b8
  have ho : EvalOrder (Spec.conditions o.space) r.space.sorted := copied_order hset hg' hc b9
  obtain ⟨s₁, he₁, hg₁, hsame, hok₁⟩ := ensure_effect h.good
  have ho₁ := hg₁.graph.full hok₁
  have hsd : SameDists o.space (placed H r.dists) := by
    refine ⟨by rw [placed_length, ← hds, List.length_map], fun j d w hj hwj => ?_⟩
    obtain ⟨x, hx, rfl⟩ := placed_get hj
    rw [← hds, List.getElem?_map, hwj] at hx
    obtain rfl := Option.some.inj hx
    exact hv w (List.mem_of_getElem? hwj) _
  have hl : r.space.dists.length = o.space.dists.length := by
    have := congrArg List.length b8.dists
    simpa [hsd.1] using this
  refine ⟨s₁, he₁, hok₁, b9, by rw [hc.length, hsame.length], fun vals g => ?_, fun raw hraw a => ?_, fun vals => ?_⟩
  · have e1 : Seeded.drawAll s₁ src s₁.dists vals g = Seeded.drawAll o.space src o.space.dists vals g := by
      rw [hsame.dists]
      exact draw_alike hsame.length (fun l => by rw [paramsAt_congr (core_map (f := fun w => w.param) (fun _ => rfl) hsame.params)]) _ _ vals g rfl
        fun j w' w h1 h2 => by
          obtain rfl := Option.some.inj (h1.symm.trans h2)
          exact ⟨rfl, rfl, rfl, rfl⟩
    rw [e1]
    refine draw_alike hc.length (copied_paramsAt hc) _ _ vals g hl fun j w' w hj' hj => ?_
    have h1 := congrArg (fun l => l[j]?) b8.dists
    simp only [List.getElem?_map, hj', Option.map_some] at h1
    have h1' := h1.symm
    rw [List.getElem?_zip_eq_some] at h1'
    obtain ⟨h2, h3⟩ := h1'
    rw [List.getElem?_map, hj] at h3
    obtain ⟨d1, d2, -⟩ := hsd.2 j _ w h2 hj
    refine ⟨(Option.some.inj h3).symm, d1, d2, ?_⟩
    have hx : r.dists[j]? = some (hp.dist w.dist.handle) := by rw [← hds, List.getElem?_map, hj, Option.map_some]
    rw [hs' j w'.dist.handle _ (by rw [List.getElem?_map, hj', Option.map_some]) hx,
      hs j w.dist.handle _ (by rw [List.getElem?_map, hj, Option.map_some]) (by rw [List.getElem?_map, hj, Option.map_some])]
  · have hraw' : raw.length = o.space.params.length := hraw.trans hsame.length
    rw [copied_actives hset hg' hc h.honest, setActives_iff ho hraw', setActives_iff ho₁ hraw, hsame.solves]
  · rw [b8.clauses, twin_forbidden hset hg' hc h.honest hw vals _ fun _ h => h, hsame.clauses, hsame.testForbidden]

/-- **C162** A space that is written and read where its distributions are made again as they were, goes on as the one written: asked for configurations
any number of times, with a generator in any state, both give the same configurations, fail at the same places, and leave the generator in the same
state. -/
theorem C162_goes_on (h : Stored H H.little mem mem' mk hp o) (hv : ShowsDists H hp o.space)
    (hall : recreateAll H.M (o.space.dists.map fun w => hp.dist w.dist.handle) =
      .ok (o.space.dists.map fun w => hp.dist w.dist.handle))
    {r : ReadSpace} (hr : rebuilt H mem' H.little hp o = .ok r)
    {draws : DistObj → Seeded.Source τ} {src src' : BitVec 64 → Seeded.Source τ}
    (hs : DrawsBy draws src (o.space.dists.map (·.dist.handle)) (o.space.dists.map fun w => hp.dist w.dist.handle))
    (hs' : DrawsBy draws src' (r.space.dists.map (·.dist.handle)) r.dists) (k : Nat) (g : τ) :
    askAgain H.M.ops H.jen H.little src' k r.space g = askAgain H.M.ops H.jen H.little src k o.space g := by
  obtain ⟨s₁, h1, h2, h3, h4⟩ := read_alike h hv hall hr hs hs'
  rw [search_ensure h1 h2]
  exact search_agree h4 h2 h3 k g

/-- **C162** A space that is written and read where its distributions are made again as they were, gives as the one written when asked for
many configurations at once: the same configurations in the same order, all of them or not, and the generator is left in the same state. -/
theorem C162_many (h : Stored H H.little mem mem' mk hp o) (hv : ShowsDists H hp o.space)
    (hall : recreateAll H.M (o.space.dists.map fun w => hp.dist w.dist.handle) =
      .ok (o.space.dists.map fun w => hp.dist w.dist.handle))
    {r : ReadSpace} (hr : rebuilt H mem' H.little hp o = .ok r)
    {draws : DistObj → Seeded.Source τ} {src src' : BitVec 64 → Seeded.Source τ}
    (hs : DrawsBy draws src (o.space.dists.map (·.dist.handle)) (o.space.dists.map fun w => hp.dist w.dist.handle))
    (hs' : DrawsBy draws src' (r.space.dists.map (·.dist.handle)) r.dists) (n : Nat) (g : τ) :
    SameSamples (Seeded.sampleMany H.M.ops H.jen H.little r.space src' n g).2 (Seeded.sampleMany H.M.ops H.jen H.little o.space src n g).2 := by
  obtain ⟨s₁, h1, h2, h3, h4⟩ := read_alike h hv hall hr hs hs'
  unfold Seeded.sampleMany
  split
  · exact ⟨rfl, Iff.rfl, rfl⟩
  · rw [h1, show ensureGraph r.space = (r.space, .ok ()) by unfold ensureGraph; rw [if_pos h3]]
    dsimp only
    rw [show r.space.blank = s₁.blank by unfold Space.blank; rw [h4.length]]
    exact many_agree h4 n _ _ (by simp [Space.blank]) _ _

/-- **C162** (partial) A search can be stopped and taken up again: a space that is written with its generator, and read by a process of the same byte
order, gives from then on, however often it is asked, the configurations that the space written would have given, and the generators stay the same.
Missing: processes of another byte order or with generators of another size, see `C162_restarts`, and the limits of C87 (shared expressions, clauses
without a value on the default configuration, distributions that do not come back identical). -/
theorem C162_resume_partial (h : Stored H H.little mem mem' mk hp o) (hn : (written o).Nodup) (hM : H.M.ops = ieee) (hv : ShowsDists H hp o.space)
    (hd : ∀ w ∈ o.space.dists, SteadyDist (hp.dist w.dist.handle))
    {fresh : Bytes} (hg : newGenerator H.gens o.rng.name = .ok fresh) (hsize : o.rng.state.length = fresh.length)
    (hc : o.space.clauses = [] ∨ DefaultEvaluates H.M.ops H.jen H.little o.space) :
    ∃ bs r, WritesBytes (serSpace H.M.ops H.little hp o) bs ∧ ReadsBack (deSpace H) bs r ∧
      ∀ (draws : DistObj → Seeded.Source Bytes) (src src' : BitVec 64 → Seeded.Source Bytes),
        DrawsBy draws src (o.space.dists.map (·.dist.handle)) (o.space.dists.map fun w => hp.dist w.dist.handle) →
        DrawsBy draws src' (r.space.dists.map (·.dist.handle)) r.dists →
        ∀ k, askAgain H.M.ops H.jen H.little src' k r.space r.rng.state = askAgain H.M.ops H.jen H.little src k o.space o.rng.state := by
  obtain ⟨bs, a1, -, a3⟩ := C87_reads_as_rebuilt h hn
  have hall : recreateAll H.M (o.space.dists.map fun w => hp.dist w.dist.handle) =
      .ok (o.space.dists.map fun w => hp.dist w.dist.handle) := by
    refine DistObj.recreateAll_same fun c hm => ?_
    obtain ⟨w, hw, rfl⟩ := List.mem_map.mp hm
    exact DistObj.recreate_same hM (h.holds w hw).1 (hd w hw)
  obtain ⟨r, hr⟩ := (C87_rebuilt_exactly h).1.mpr ⟨⟨fresh, hg⟩, ⟨_, hall⟩, hc⟩
  refine ⟨bs, r, a1, fun tail => by rw [a3 tail, hr], fun draws src src' h1 h2 k => ?_⟩
  have hst : r.rng.state = o.rng.state := by
    have hr' := hr
    unfold rebuilt at hr'
    obtain ⟨fresh', g1, hr'⟩ := bind_eq_ok hr'
    obtain ⟨ds, g2, hr'⟩ := bind_eq_ok hr'
    obtain ⟨s', g3, hr'⟩ := bind_eq_ok hr'
    obtain rfl := Out.ok.inj hr'
    obtain rfl := Out.ok.inj (g1.symm.trans hg)
    simp only [true_and, if_pos hsize]
  rw [hst]
  exact C162_goes_on h hv hall hr h1 h2 k o.rng.state

/-- **C162** fails between processes of different byte orders, or whose generators differ in size: without any error the space read starts again with
a new generator. -/
theorem C162_restarts {little : Bool} (h : Stored H little mem mem' mk hp o) (hn : (written o).Nodup)
    {fresh : Bytes} (hg : newGenerator H.gens o.rng.name = .ok fresh) (hne : ¬ (little = H.little ∧ o.rng.state.length = fresh.length)) :
    ∃ bs, WritesBytes (serSpace H.M.ops little hp o) bs ∧ ∀ tail x, deSpace H (bs ++ tail) = .ok x → x.1.rng.state = fresh := by
  obtain ⟨bs, a1, -, a3⟩ := C87_reads_as_rebuilt h hn
  refine ⟨bs, a1, fun tail x hx => ?_⟩
  rw [a3 tail] at hx
  cases hr : rebuilt H mem' little hp o with
  | ok r =>
    rw [hr] at hx
    obtain rfl := Out.ok.inj hx
    have hr' := hr
    unfold rebuilt at hr'
    obtain ⟨fresh', g1, hr'⟩ := bind_eq_ok hr'
    obtain ⟨ds, g2, hr'⟩ := bind_eq_ok hr'
    obtain ⟨s', g3, hr'⟩ := bind_eq_ok hr'
    obtain rfl := Out.ok.inj hr'
    obtain rfl := Out.ok.inj (g1.symm.trans hg)
    exact if_neg hne
  | err e => rw [hr] at hx; cases hx
  | ub => rw [hr] at hx; cases hx

/-- Numbers drawn from a generator of four bytes: the last byte is where it stands. -/
def exDrawn (_ : DistObj) : Seeded.Source Bytes := fun n g =>
  (.ok [(List.range n).map fun i => BitVec.ofNat 64 (((g.getD 3 0#8).toNat + i) % 10)], g.set 3 (g.getD 3 0#8 + BitVec.ofNat 8 n))

/-- The hypotheses are met by a space with a condition and a clause, and what is given depends on where the generator stands. -/
example : DrawsBy exDrawn (fun a => exDrawn (exStore.dist a)) ((exSpaceObj exPlain).space.dists.map (·.dist.handle))
      ((exSpaceObj exPlain).space.dists.map fun w => exStore.dist w.dist.handle) ∧
    (askAgain ieee exJen true (fun a => exDrawn (exStore.dist a)) 3 (exSpaceObj exPlain).space (exSpaceObj exPlain).rng.state).1 ≠
      (askAgain ieee exJen true (fun a => exDrawn (exStore.dist a)) 3 (exSpaceObj exPlain).space [0#8, 0#8, 0#8, 0#8]).1 := by
  refine ⟨fun j a d ha hd => ?_, by decide +kernel⟩
  rw [List.getElem?_map] at ha hd
  obtain ⟨w, hw, rfl⟩ := Option.map_eq_some_iff.1 ha
  rw [hw] at hd
  cases hd
  rfl

/-- It is read back, and the distributions of the reading process draw by their contents too. -/
example : ∃ r, rebuilt exHost exMem' true exStore (exSpaceObj exPlain) = .ok r ∧
    DrawsBy exDrawn (fun _ => exDrawn exTen) (r.space.dists.map (·.dist.handle)) r.dists := by
  have hst : Stored exHost exHost.little exMem exMem' exDefault exStore (exSpaceObj exPlain) := exPlain_stored
  obtain ⟨r, hr⟩ := (C87_rebuilt_exactly hst).1.mpr ⟨⟨[0#8, 0#8, 0#8, 0#8], by decide⟩, ⟨_, exTen_back exPlain⟩, .inr exPlain_default⟩
  obtain ⟨-, -, -, -, -, -, b7, -⟩ := (C87_rebuilt_exactly hst).2 r hr
  have hds := Out.ok.inj ((exTen_back exPlain).symm.trans b7)
  refine ⟨r, hr, fun j a d _ hd => ?_⟩
  rw [← hds, List.getElem?_map] at hd
  obtain ⟨w, -, rfl⟩ := Option.map_eq_some_iff.1 hd
  rfl

end CCS.Props.Resumed
