import Verif.Spec.TreeRunWire
import Verif.Lemmas.RunTuner
import Verif.Props.TreeWire
import Verif.Props.TreeRun

/-! Helper lemmas about the serialization of tree spaces, configurations, evaluations and tuners. -/

namespace CCS

open Spec

/-! ### Answers of the same tree -/

namespace Forest

theorem sameTree_root {g g' : Grove} {h h' : Nat} (hs : SameTree g h g' h') :
    ∃ n n', g.trees.node h = some n ∧ g'.trees.node h' = some n' ∧ n.arity = n'.arity ∧ n.value = n'.value ∧
      look g'.trees h' = look g.trees h := by
  obtain ⟨k', hl, s, s1, s2, -⟩ := hs.1 [] h .here
  cases hl
  have e1 := shows_iff.mp s1
  have e2 := shows_iff.mp s2
  obtain ⟨n, a1, a2, a3, -⟩ := e1
  obtain ⟨n', b1, b2, b3, -⟩ := e2
  refine ⟨n, n', a1, b1, a3.trans b3.symm, a2.trans b2.symm, ?_⟩
  unfold look
  rw [s1.1, s1.2.1, s1.2.2.1, s1.2.2.2, s2.1, s2.2.1, s2.2.2.1, s2.2.2.2]

theorem getChild_node {f : Forest} {h i : Nat} {n : TreeNode} (hn : f.node h = some n) :
    f.getChild h i = if n.arity ≤ i then .err .outOfBounds else .ok (n.children.getD i none) := by
  unfold getChild
  rw [hn]

/-- Children at the same index: both out of bounds, both missing, or the roots of the same trees. -/
theorem sameTree_kids {g g' : Grove} {h h' : Nat} (hs : SameTree g h g' h') (i : Nat) :
    (g'.trees.getChild h' i = g.trees.getChild h i ∧ ∀ c, g.trees.getChild h i ≠ .ok (some c)) ∨
    ∃ c c', g.trees.getChild h i = .ok (some c) ∧ g'.trees.getChild h' i = .ok (some c') ∧ SameTree g c g' c' := by
  obtain ⟨n, n', h1, h2, h3, -⟩ := sameTree_root hs
  cases hc : g.trees.getChild h i with
  | ok o =>
    cases o with
    | some c =>
      obtain ⟨c', h4, h5⟩ := sameTree_child hs hc
      exact .inr ⟨c, c', rfl, h4, h5⟩
    | none =>
      left
      rw [getChild_node h1] at hc
      rw [getChild_node h2, ← h3]
      split at hc
      · cases hc
      next hi =>
        rw [if_neg hi]
        refine ⟨?_, fun c hcc => by cases hcc⟩
        cases hx : n'.children.getD i none with
        | none => rfl
        | some c' =>
          obtain ⟨k, hk⟩ := hs.2 [i] c' (.down (by rw [getChild_node h2, ← h3, if_neg hi, hx]) .here)
          obtain ⟨c, hk1, hk2⟩ := leads_cons hk
          rw [getChild_node h1, if_neg hi, Out.ok.inj hc] at hk1
          cases hk1
  | err e =>
    left
    rw [getChild_node h1] at hc
    rw [getChild_node h2, ← h3]
    split at hc
    next hi => rw [if_pos hi, hc]; exact ⟨rfl, fun c hcc => by cases hcc⟩
    · cases hc
  | ub =>
    rw [getChild_node h1] at hc
    split at hc <;> cases hc

theorem walk_same {g g' : Grove} : ∀ (p : List Nat) {h h' : Nat}, SameTree g h g' h' →
    (∃ k k', g.trees.walk h p = .ok k ∧ g'.trees.walk h' p = .ok k' ∧ SameTree g k g' k') ∨
    (∃ e, g.trees.walk h p = .err e ∧ g'.trees.walk h' p = .err e) ∨
    (g.trees.walk h p = .ub ∧ g'.trees.walk h' p = .ub)
  | [], h, h', hs => .inl ⟨h, h', rfl, rfl, hs⟩
  | i :: p, h, h', hs => by
    simp only [walk, stepDown]
    rcases sameTree_kids hs i with ⟨h1, h2⟩ | ⟨c, c', h1, h2, h3⟩
    · rw [h1]
      cases hc : g.trees.getChild h i with
      | ok o =>
        cases o with
        | none => exact .inr (.inl ⟨_, rfl, rfl⟩)
        | some c => exact absurd hc (h2 c)
      | err e => exact .inr (.inl ⟨_, rfl, rfl⟩)
      | ub => exact .inr (.inr ⟨rfl, rfl⟩)
    · rw [h1, h2]
      exact walk_same p h3

theorem walkValues_same {g g' : Grove} : ∀ (p : List Nat) {h h' : Nat}, SameTree g h g' h' →
    g'.trees.walkValues h' p = g.trees.walkValues h p
  | [], h, h', hs => rfl
  | i :: p, h, h', hs => by
    simp only [walkValues, stepDown]
    rcases sameTree_kids hs i with ⟨h1, h2⟩ | ⟨c, c', h1, h2, h3⟩
    · rw [h1]
      cases hc : g.trees.getChild h i with
      | ok o =>
        cases o with
        | none => rfl
        | some c => exact absurd hc (h2 c)
      | err e => rfl
      | ub => rfl
    · rw [h1, h2]
      obtain ⟨n, n', a1, a2, -, a3, -⟩ := sameTree_root h3
      have e1 : g.trees.getValue c = .ok n.value := by unfold getValue; rw [a1]
      have e2 : g'.trees.getValue c' = .ok n.value := by unfold getValue; rw [a2, a3]
      simp only [Out.bind_ok, e1, e2, walkValues_same p h3]

theorem validLoop_same {g g' : Grove} : ∀ (p : List Nat) {h h' : Nat}, SameTree g h g' h' →
    g'.trees.validLoop (some h') p = g.trees.validLoop (some h) p
  | [], h, h', hs => rfl
  | i :: p, h, h', hs => by
    obtain ⟨n, n', a1, a2, a3, -⟩ := sameTree_root hs
    simp only [validLoop, a1, a2, ← a3]
    by_cases hi : n.arity ≤ i
    · rw [if_pos hi, if_pos hi]
    · rw [if_neg hi, if_neg hi]
      rcases sameTree_kids hs i with ⟨h1, h2⟩ | ⟨c, c', h1, h2, h3⟩
      · rw [getChild_node a1, getChild_node a2, ← a3, if_neg hi, if_neg hi] at h1
        rw [Out.ok.inj h1]
        cases hx : n.children.getD i none with
        | none => cases p <;> rfl
        | some c => exact absurd (by rw [getChild_node a1, if_neg hi, hx]) (h2 c)
      · rw [getChild_node a1, if_neg hi] at h1
        rw [getChild_node a2, ← a3, if_neg hi] at h2
        rw [Out.ok.inj h1, Out.ok.inj h2]
        exact validLoop_same p h3

theorem staticAnswer_same {g g' : Grove} {h h' : Nat} (hs : SameTree g h g' h') (q : DynTree.Query) :
    staticAnswer g'.trees h' q = staticAnswer g.trees h q := by
  obtain ⟨n, n', a1, a2, -, a3, -⟩ := sameTree_root hs
  cases q with
  | node p =>
    simp only [staticAnswer, nodeAt, a1, a2]
    rcases walk_same p hs with ⟨k, k', h1, h2, h3⟩ | ⟨e, h1, h2⟩ | ⟨h1, h2⟩
    · rw [h1, h2]
      obtain ⟨_, _, _, _, _, _, h4⟩ := sameTree_root h3
      simp only [Out.bind_ok, h4]
    · rw [h1, h2]; rfl
    · rw [h1, h2]; rfl
  | values p room => simp only [staticAnswer, valuesAt, a1, a2, a3, walkValues_same p hs]
  | valid p => simp only [staticAnswer, positionIsValid, a1, a2, validLoop_same p hs]

end Forest

/-! ### Tree spaces -/

/-- Bytes of the state of a dynamic space. -/
def stateBytes : Option Bytes → Bytes
  | none => []
  | some s => blobBytes s

/-- Bytes of a tree space up to its state. -/
def treeSpaceHead (little : Bool) (g : Grove) (addr : Nat → BitVec 64) (o : TreeSpaceObj) : Bytes :=
  objBytes treeSpaceType o.handle ++ (lebBytes o.type ++ (strBytes o.name ++ (rngBytes little o.rngHandle o.rng ++
    Forest.treeBytes g addr (g.trees.length + 1) o.root)))

/-- Bytes of a tree space. -/
def treeSpaceBytes (little : Bool) (g : Grove) (addr : Nat → BitVec 64) (o : TreeSpaceObj) : Bytes :=
  treeSpaceHead little g addr o ++ (stateBytes o.state ++ blobBytes o.data)

theorem writes_state (s : Option Bytes) : WritesBytes (serState s) (stateBytes s) := by
  cases s with
  | none => exact writes_nop
  | some s => exact writes_userData s

section
variable {ops : FloatOps} {g : Grove} {o : TreeSpaceObj}

theorem treeSpace_tree (h : StorableTreeSpace ops g o) (little : Bool) (addr : Nat → BitVec 64) :
    WritesBytes (Forest.serTree little g addr o.root) (Forest.treeBytes g addr (g.trees.length + 1) o.root) ∧
    Forest.szTree g addr o.root = .ok (Forest.treeBytes g addr (g.trees.length + 1) o.root).length := by
  have hh := Forest.grown_healthy h.made
  obtain ⟨n, hn⟩ := h.root
  obtain ⟨d, hd⟩ := hh.linked.rooted hn
  exact Forest.writes_tree little addr hh (fuel := g.trees.length + 1) hd (by omega) h.tree

theorem writes_treeSpace (h : StorableTreeSpace ops g o) (little : Bool) (addr : Nat → BitVec 64) :
    WritesBytes (serTreeSpace little g addr o) (treeSpaceBytes little g addr o) := by
  have := writes_seq (writes_obj treeSpaceType o.handle) (writes_seq (writes_seq (writes_enum o.type) (writes_seq (writes_string o.name)
    (writes_seq (writes_rng little o.rngHandle o.rng) (writes_seq (treeSpace_tree h little addr).1 (writes_state o.state)))))
    (writes_userData o.data))
  rw [treeSpaceBytes, treeSpaceHead]
  simp only [List.append_assoc] at this ⊢
  exact this

theorem length_treeSpace (h : StorableTreeSpace ops g o) (little : Bool) (addr : Nat → BitVec 64) :
    szTreeSpace little g addr o = .ok (treeSpaceBytes little g addr o).length := by
  have hs : (stateBytes o.state).length = szState o.state := by
    cases o.state with
    | none => rfl
    | some s => exact length_userData s
  rw [szTreeSpace, (treeSpace_tree h little addr).2, Out.bind_ok, treeSpaceBytes, treeSpaceHead]
  simp only [List.length_append, length_obj, length_string, length_rng, length_userData, hs,
    show (lebBytes o.type).length = szEnum o.type from length_leb _]
  congr 1
  omega

theorem Replanted_of {room g' : Grove} {h' : Nat} (p : Forest.Planted ops g o.root room g' h') : Replanted ops g o.root room g' h' := by
  refine ⟨p.grown, p.same, ?_, p.kept⟩
  obtain ⟨m, hm, hp⟩ := p.root
  simp [Forest.getParent, hm, hp]

/-- Outcome of reading a tree space, up to the map: what follows its tree is read as user data. -/
theorem readsAs_treeSpace (h : StorableTreeSpace ops g o) (little little' : Bool) (addr : Nat → BitVec 64)
    (gens : List (Bytes × Bytes)) (fresh : RngObj) (vector : Option TreeVector) {room : Grove} (hr : GrownForest ops room.trees)
    (m : Handles) (a : BitVec 64) {st : Bytes} (hst : st.length < 2 ^ 64) :
    ∃ g' h', Replanted ops g o.root room g' h' ∧
      ReadsAs (deTreeSpace ops little' gens fresh vector room m a) (treeSpaceHead little g addr o ++ blobBytes st) (do
        let f ← newGenerator gens o.rng.name
        let s ← makeTreeSpace fresh vector o.type
          ⟨o.rng.name, if little = little' ∧ o.rng.state.length = f.length then o.rng.state else f, o.rng.data⟩
        let m' ← m.add o.handle ⟨treeSpaceType, a, Ctx.empty⟩
        .ok (m', g', ⟨o.handle, o.name, s.1, h', s.2, st⟩)) := by
  have hh := Forest.grown_healthy h.made
  obtain ⟨n, hn⟩ := h.root
  obtain ⟨d, hd⟩ := hh.linked.rooted hn
  obtain ⟨g', h', r, p⟩ := Forest.reads_tree little' addr h.made (fuel := g.trees.length + 1) hd (by omega) h.tree room hr
  refine ⟨g', h', Replanted_of p, ?_⟩
  have ht : ReadsBack (Forest.deTree ops little' room) (Forest.treeBytes g addr (g.trees.length + 1) o.root) (g', h') := by
    intro tail
    exact r _ (by rw [List.length_append]; omega) tail
  unfold deTreeSpace treeSpaceHead
  simp only [List.append_assoc]
  refine readsAs_step (decodes_obj _ _).1 (readsAs_pass (by simp) (readsAs_step (decodes_enum _).1 (readsAs_pass ?_
    (readsAs_step (decodes_string h.name.1 h.name.2).1 ?_))))
  · unfold TreeSpaceObj.type
    split <;> decide
  have hg := readsAs_rng little little' gens o.rngHandle h.rng
  have e1 : ∀ k : RngObj → Out (Handles × Grove × ReadTreeSpace), (newGenerator gens o.rng.name >>= fun f => k
      ⟨o.rng.name, if little = little' ∧ o.rng.state.length = f.length then o.rng.state else f, o.rng.data⟩) =
      (newGenerator gens o.rng.name >>= fun f => Out.ok (o.rngHandle, (⟨o.rng.name,
        if little = little' ∧ o.rng.state.length = f.length then o.rng.state else f, o.rng.data⟩ : RngObj))) >>= fun x => k x.2 := by
    intro k
    cases newGenerator gens o.rng.name <;> rfl
  rw [e1 fun x => do
    let s ← makeTreeSpace fresh vector o.type x
    let m' ← m.add o.handle ⟨treeSpaceType, a, Ctx.empty⟩
    .ok (m', g', ⟨o.handle, o.name, s.1, h', s.2, st⟩)]
  refine readsAs_bind hg fun x _ => readsAs_step ht ?_
  exact readsAs_lift_bind fun s _ => readsAs_lift_bind fun m' _ => readsAs_ok (reads_bind_pure (reads_userData hst) rfl)

end

/-! ### Tree configurations -/

/-- Bytes of a tree configuration. -/
def treeConfBytes (o : TreeConfObj) : Bytes :=
  objBytes treeConfigurationType o.handle ++ ((lebBytes o.config.space ++ (lebBytes (BitVec.ofNat 64 o.config.position.length) ++
    o.config.position.flatMap fun i => lebBytes (BitVec.ofNat 64 i.toNat))) ++ blobBytes o.data)

theorem writes_treeConf (o : TreeConfObj) : WritesBytes (serTreeConf o) (treeConfBytes o) :=
  writes_seq (writes_obj _ _) (writes_seq (writes_seq (writes_handle _) (writes_seq (writes_size _)
    (writes_all _ fun _ _ => writes_size _))) (writes_userData _))

theorem length_treeConf (o : TreeConfObj) : (treeConfBytes o).length = szTreeConf o := by
  have : (o.config.position.flatMap fun i => lebBytes (BitVec.ofNat 64 i.toNat)).length =
      (o.config.position.map fun i => szSize i.toNat).sum := by
    rw [List.length_flatMap]
    congr 1
    exact List.map_congr_left fun i _ => length_size _
  simp only [treeConfBytes, szTreeConf, List.length_append, length_obj, length_size, length_userData, this,
    show (lebBytes o.config.space).length = szHandle o.config.space from length_leb _]
  omega

theorem reads_steps (l : List (BitVec 64)) :
    ReadsBack (deSize.times l.length) (l.flatMap fun i => lebBytes (BitVec.ofNat 64 i.toNat)) (l.map (·.toNat)) :=
  reads_times' l fun i _ => (decodes_size i.isLt).1

theorem reads_position {l : List (BitVec 64)} (hl : l.length < 2 ^ 61) :
    ReadsBack dePosition (lebBytes (BitVec.ofNat 64 l.length) ++ l.flatMap fun i => lebBytes (BitVec.ofNat 64 i.toNat)) l := by
  unfold dePosition
  refine reads_bind (decodes_size (by omega)).1 ?_
  rw [if_neg (by omega)]
  refine reads_bind_pure (reads_steps l) ?_
  congr 1
  rw [List.map_map]
  conv => rhs; rw [← List.map_id l]
  exact List.map_congr_left fun i _ => by simp

/-- Outcome of looking up the space of a tree configuration. -/
def spaceOf (m : Handles) (h : BitVec 64) : Out (BitVec 64) := do
  let s ← m.space treeSpaceType h
  .ok s.1

theorem foundSpace (m : Handles) (h : BitVec 64) : FoundSpace m h (spaceOf m h) := by
  unfold spaceOf Handles.space
  cases hg : m.get h with
  | none => exact .unknown hg
  | some x =>
    dsimp only
    split
    next ht => exact .found hg ht
    next ht => exact .other hg ht

theorem readsAs_treeConf (mapped : Bool) (m : Handles) (addr : BitVec 64) {o : TreeConfObj} (h : StorableTreeConf o) :
    ReadsAs (deTreeConf mapped (some m) addr) (treeConfBytes o) (do
      let s ← spaceOf m o.config.space
      let m' ← addMapped mapped m o.handle ⟨treeConfigurationType, addr, Ctx.empty⟩
      .ok (m', ⟨addr, ⟨s, o.config.position⟩, o.data⟩)) := by
  unfold deTreeConf treeConfBytes
  simp only [List.append_assoc]
  refine readsAs_step (decodes_obj _ _).1 (readsAs_pass (by simp) (readsAs_step (decodes_handle _).1 ?_))
  rw [← List.append_assoc]
  refine readsAs_step (reads_position h.position) ?_
  rw [spaceOf, bind_bind]
  exact readsAs_lift_bind fun s _ => readsAs_lift_bind fun m' _ => readsAs_ok (reads_bind_pure (reads_userData h.data) rfl)

/-! ### Tree evaluations -/

/-- Bytes of a tree evaluation. -/
def treeEvalBytes (e : TreeEvalObj) : Bytes :=
  objBytes treeEvaluationType e.handle ++ ((bindingBytes e.binding ++ (treeConfBytes e.configuration ++ lebBytes (zigzag e.result))) ++
    blobBytes e.data)

theorem writes_treeEval (little : Bool) {e : TreeEvalObj} (h : StorableTreeEval e) :
    WritesBytes (serTreeEval little e) (treeEvalBytes e) :=
  writes_seq (writes_obj _ _) (writes_seq (writes_seq (writes_binding little h.binding) (writes_seq (writes_treeConf _)
    (writes_result _))) (writes_userData _))

theorem length_treeEval {e : TreeEvalObj} (h : StorableTreeEval e) : szTreeEval e = .ok (treeEvalBytes e).length := by
  rw [szTreeEval, length_binding h.binding, Out.bind_ok, treeEvalBytes]
  simp only [List.length_append, length_obj, length_userData, length_signed, length_treeConf]
  congr 1
  unfold szResult
  omega

/-- Outcome of reading a tree evaluation. -/
def treeEvalOutcome (jen : Bytes → BitVec 32) (little mapped : Bool) (m : Handles) (p : EvalPlace) (e : TreeEvalObj) :
    Out (Handles × TreeEvalObj) := do
  let s ← spaceOf m e.configuration.config.space
  let b ← attach jen little m objectiveSpaceType e.binding
  let m' ← addMapped mapped m e.handle ⟨treeEvaluationType, p.eval, Ctx.empty⟩
  .ok (m', ⟨p.eval, b, ⟨p.conf, ⟨s, e.configuration.config.position⟩, e.configuration.data⟩, e.result, e.data⟩)

theorem readsAs_treeEval (jen : Bytes → BitVec 32) (little mapped : Bool) (m : Handles) (p : EvalPlace) {e : TreeEvalObj}
    (h : StorableTreeEval e) :
    ReadsAs (deTreeEval jen little mapped (some m) p) (treeEvalBytes e) (treeEvalOutcome jen little mapped m p e) := by
  unfold deTreeEval treeEvalBytes
  refine readsAs_step (decodes_obj _ _).1 (readsAs_pass (by simp) ?_)
  simp only [List.append_assoc]
  refine readsAs_step (reads_binding little h.binding) ?_
  have e1 : treeEvalOutcome jen little mapped m p e = (spaceOf m e.configuration.config.space >>= fun s =>
      addMapped false m e.configuration.handle ⟨treeConfigurationType, p.conf, Ctx.empty⟩ >>= fun m' =>
        Out.ok (m', (⟨p.conf, ⟨s, e.configuration.config.position⟩, e.configuration.data⟩ : TreeConfObj))) >>= fun c => 
      attach jen little m objectiveSpaceType e.binding >>= fun b =>
      addMapped mapped m e.handle ⟨treeEvaluationType, p.eval, Ctx.empty⟩ >>= fun m' =>
      .ok (m', ⟨p.eval, b, c.2, e.result, e.data⟩) := by
    unfold treeEvalOutcome
    cases spaceOf m e.configuration.config.space <;> rfl
  rw [e1]
  refine readsAs_bind (readsAs_treeConf false m p.conf h.configuration) fun c _ => ?_
  refine readsAs_step (decodes_result _).1 ?_
  rw [attach, bind_bind]
  exact readsAs_lift_bind fun c _ => readsAs_lift_bind fun b _ => readsAs_lift_bind fun m' _ =>
    readsAs_ok (reads_bind_pure (reads_userData h.data) rfl)

/-! ### Tree tuners -/

/-- What the map knows of the spaces of a tree tuner. -/
structure KnowsTreeSpaces (P : Places) (o : TreeTunerObj) (m : Handles) : Prop where
  space : m.get o.space.handle = some ⟨treeSpaceType, P.space, Ctx.empty⟩
  objectives : ∃ c, m.get o.objectives.handle = some ⟨objectiveSpaceType, P.objectives, c⟩ ∧ c.params.length < 2 ^ 32 ∧
    c.params.map (·.2) = o.objectives.space.ctx.params.map (·.2)

theorem KnowsTreeSpaces.add {P : Places} {o : TreeTunerObj} {m m' : Handles} (hk : KnowsTreeSpaces P o m) {h : BitVec 64} {x : Mapped}
    (ha : m.add h x = .ok m') : KnowsTreeSpaces P o m' := by
  have hn : m.get h = none := by
    unfold Handles.add at ha
    split at ha
    · cases ha
    · assumption
  have keep : ∀ k y, m.get k = some y → m'.get k = some y := by
    intro k y hy
    rw [Handles.get_add ha, if_neg ?_]
    · exact hy
    · rintro rfl
      rw [hn] at hy
      cases hy
  obtain ⟨d, h3, h4⟩ := hk.objectives
  exact ⟨keep _ _ hk.space, ⟨d, keep _ _ h3, h4⟩⟩

theorem treeEval_belongs (jen : Bytes → BitVec 32) (little : Bool) {P : Places} {o : TreeTunerObj} {m : Handles}
    (hk : KnowsTreeSpaces P o m) (p : EvalPlace) {e : TreeEvalObj} (hs : StorableTreeEval e) (hb : BelongsTo o e) :
    ∃ e', SameTreeEval P p e e' ∧ treeEvalOutcome jen little true m p e =
      (m.add e.handle ⟨treeEvaluationType, p.eval, Ctx.empty⟩ >>= fun m' => .ok (m', e')) := by
  obtain ⟨d, g2, l2, s2⟩ := hk.objectives
  obtain ⟨bo, a2, v2⟩ := attach_fits jen little hs.binding (by rw [hb.objectives.1]; exact g2) l2 (fits_same s2 hb.objectives.2)
  have a1 : spaceOf m e.configuration.config.space = .ok P.space := by
    unfold spaceOf Handles.space
    rw [hb.configuration, hk.space]
    rfl
  refine ⟨⟨p.eval, bo, ⟨p.conf, ⟨P.space, e.configuration.config.position⟩, e.configuration.data⟩, e.result, e.data⟩,
    ⟨rfl, v2, rfl, rfl, rfl⟩, ?_⟩
  unfold treeEvalOutcome
  rw [a1, Out.bind_ok, a2, Out.bind_ok]
  rfl

/-- Outcome of reading the history. -/
def treeHistoryOutcome (jen : Bytes → BitVec 32) (little : Bool) (P : Places) :
    Nat → Handles → List TreeEvalObj → Out (Handles × List TreeEvalObj)
  | _, m, [] => .ok (m, [])
  | i, m, e :: es => do
    let r ← treeEvalOutcome jen little true m (P.evalAt i) e
    let s ← treeHistoryOutcome jen little P (i + 1) r.1 es
    .ok (s.1, r.2 :: s.2)

theorem readsAs_treeHistory (jen : Bytes → BitVec 32) (little : Bool) (P : Places) : ∀ (es : List TreeEvalObj) (i : Nat) (m : Handles),
    (∀ e ∈ es, StorableTreeEval e) →
    ReadsAs (deTreeHistory jen little P es.length i m) (es.flatMap treeEvalBytes) (treeHistoryOutcome jen little P i m es)
  | [], i, m, _ => readsAs_ok (reads_pure _)
  | e :: es, i, m, h => by
    rw [List.length_cons, deTreeHistory, List.flatMap_cons, treeHistoryOutcome]
    refine readsAs_bind (readsAs_treeEval jen little true m (P.evalAt i) (h e (by simp))) fun r _ => ?_
    rw [← List.append_nil (es.flatMap treeEvalBytes)]
    exact readsAs_bind (readsAs_treeHistory jen little P es (i + 1) r.1 fun x hx => h x (by simp [hx])) fun s _ => readsAs_done _

theorem treeHistory_fresh (jen : Bytes → BitVec 32) (little : Bool) {P : Places} {o : TreeTunerObj} :
    ∀ (es : List TreeEvalObj) (i : Nat) (m : Handles),
    KnowsTreeSpaces P o m → (∀ e ∈ es, StorableTreeEval e ∧ BelongsTo o e) → (∀ e ∈ es, m.get e.handle = none) →
    (es.map (·.handle)).Nodup →
    ∃ m' es', treeHistoryOutcome jen little P i m es = .ok (m', es') ∧ KnowsTreeSpaces P o m' ∧
      KnowsEvals P i (es.map (·.handle)) m' ∧
      (∀ k, k ∉ es.map (·.handle) → m'.get k = m.get k) ∧ es'.length = es.length ∧
      ∀ (j : Nat) e, es[j]? = some e → ∃ e', es'[j]? = some e' ∧ SameTreeEval P (P.evalAt (i + j)) e e'
  | [], i, m, hk, _, _, _ => ⟨m, [], rfl, hk, by intro j h hj; simp at hj, fun _ _ => rfl, rfl, by intro j e he; simp at he⟩
  | e :: es, i, m, hk, hb, hn, hd => by
    obtain ⟨e', h1, h2⟩ := treeEval_belongs jen little hk (P.evalAt i) (hb e (by simp)).1 (hb e (by simp)).2
    rw [List.map_cons, List.nodup_cons] at hd
    have ha := Handles.add_ok (hn e (by simp)) ⟨treeEvaluationType, (P.evalAt i).eval, Ctx.empty⟩
    obtain ⟨m', es', h3, h4, h5, h6, h7, h8⟩ := treeHistory_fresh jen little es (i + 1) _ (hk.add ha) (fun x hx => hb x (by simp [hx]))
      (fun x hx => by
        rw [Handles.get_add ha, if_neg ?_]
        · exact hn x (by simp [hx])
        · intro he
          exact hd.1 (he ▸ List.mem_map.mpr ⟨x, hx, rfl⟩)) hd.2
    refine ⟨m', e' :: es', ?_, h4, ?_, ?_, by simp [h7], ?_⟩
    · rw [treeHistoryOutcome, h2, ha, Out.bind_ok, Out.bind_ok, h3]
      rfl
    · intro j h hj
      cases j with
      | zero =>
        simp only [List.map_cons, List.getElem?_cons_zero, Option.some.injEq] at hj
        subst hj
        refine ⟨_, by rw [h6 _ hd.1, Handles.get_add ha, if_pos rfl], rfl⟩
      | succ j =>
        rw [List.map_cons, List.getElem?_cons_succ] at hj
        obtain ⟨x, hx, hxa⟩ := h5 j h hj
        exact ⟨x, hx, by rw [hxa, show i + 1 + j = i + (j + 1) by omega]⟩
    · intro k hkn
      rw [List.map_cons, List.mem_cons, not_or] at hkn
      rw [h6 k hkn.2, Handles.get_add ha, if_neg hkn.1]
    · intro j x hx
      cases j with
      | zero =>
        obtain rfl := Option.some.inj hx
        exact ⟨e', rfl, h1⟩
      | succ j =>
        obtain ⟨x', hx', hs⟩ := h8 j x (by simpa using hx)
        exact ⟨x', by simpa using hx', by rw [show i + (j + 1) = i + 1 + j by omega]; exact hs⟩

theorem treeHistory_clash (jen : Bytes → BitVec 32) (little : Bool) {P : Places} {o : TreeTunerObj} :
    ∀ (es : List TreeEvalObj) (i : Nat) (m : Handles),
    KnowsTreeSpaces P o m → (∀ e ∈ es, StorableTreeEval e ∧ BelongsTo o e) →
    ¬ ((∀ e ∈ es, m.get e.handle = none) ∧ (es.map (·.handle)).Nodup) → treeHistoryOutcome jen little P i m es = .err .duplicateHandle
  | [], i, m, _, _, h => absurd ⟨by simp, by simp⟩ h
  | e :: es, i, m, hk, hb, hc => by
    obtain ⟨e', h1, h2⟩ := treeEval_belongs jen little hk (P.evalAt i) (hb e (by simp)).1 (hb e (by simp)).2
    by_cases hn : m.get e.handle = none
    · have ha := Handles.add_ok hn ⟨treeEvaluationType, (P.evalAt i).eval, Ctx.empty⟩
      have := treeHistory_clash jen little es (i + 1) _ (hk.add ha) (fun x hx => hb x (by simp [hx])) (by
        rintro ⟨k1, k2⟩
        refine hc ⟨?_, ?_⟩
        · intro x hx
          rcases List.mem_cons.mp hx with rfl | hx
          · exact hn
          · have := k1 x hx
            rw [Handles.get_add ha] at this
            split at this
            · cases this
            · exact this
        · rw [List.map_cons, List.nodup_cons]
          refine ⟨fun hm => ?_, k2⟩
          obtain ⟨x, hx, he⟩ := List.mem_map.mp hm
          have := k1 x hx
          rw [Handles.get_add ha, if_pos he] at this
          cases this)
      rw [treeHistoryOutcome, h2, ha, Out.bind_ok, Out.bind_ok, this]
      rfl
    · rw [treeHistoryOutcome, h2, Handles.add_err hn]
      rfl

theorem treeHistory_append (jen : Bytes → BitVec 32) (little : Bool) (P : Places) : ∀ (es fs : List TreeEvalObj) (i : Nat) (m : Handles),
    treeHistoryOutcome jen little P i m (es ++ fs) = treeHistoryOutcome jen little P i m es >>= fun r =>
      treeHistoryOutcome jen little P (i + es.length) r.1 fs >>= fun s => .ok (s.1, r.2 ++ s.2)
  | [], fs, i, m => by
    rw [List.nil_append, treeHistoryOutcome, Out.bind_ok]
    dsimp only
    rw [show i + [].length = i from rfl]
    cases treeHistoryOutcome jen little P i m fs <;> rfl
  | e :: es, fs, i, m => by
    rw [List.cons_append, treeHistoryOutcome, treeHistoryOutcome, bind_bind]
    congr 1
    funext r
    rw [treeHistory_append jen little P es fs (i + 1) r.1, bind_bind, bind_bind]
    congr 1
    funext s
    rw [bind_bind, Out.bind_ok, show i + 1 + es.length = i + (e :: es).length by simp; omega]
    cases treeHistoryOutcome jen little P (i + (e :: es).length) s.1 fs <;> rfl

/-- Bytes of a tree tuner from its objective space to its optima. -/
def treeTunerTail (pdata : BitVec 64 → Bytes) (o : TreeTunerObj) : Bytes :=
  objSpaceBytes pdata o.objectives ++ (lebBytes (BitVec.ofNat 64 o.tuner.history.length) ++
    (lebBytes (BitVec.ofNat 64 o.tuner.optima.length) ++ ((o.tuner.history.flatMap fun e => treeEvalBytes (o.evals e)) ++
      o.tuner.optima.flatMap lebBytes)))

/-- Bytes of a tree tuner after its type. -/
def treeRunBytes (little : Bool) (g : Grove) (addr : Nat → BitVec 64) (pdata : BitVec 64 → Bytes) (o : TreeTunerObj) : Bytes :=
  strBytes o.name ++ (treeSpaceBytes little g addr o.space ++ treeTunerTail pdata o)

/-- Bytes of a tree tuner. -/
def treeTunerBytes (little : Bool) (g : Grove) (addr : Nat → BitVec 64) (pdata : BitVec 64 → Bytes) (o : TreeTunerObj) : Bytes :=
  objBytes treeTunerType o.handle ++ ((lebBytes randomTuner ++ treeRunBytes little g addr pdata o) ++ blobBytes o.data)

section
variable {H : TreeHost} {P : Places} {mem mem' : BitVec 64 → Param} {g : Grove} {pdata : BitVec 64 → Bytes} {o : TreeTunerObj}

theorem writes_treeRun (h : StoredTreeRun H P mem mem' g pdata o) (addr : Nat → BitVec 64) :
    WritesBytes (serTreeRun H.little g addr pdata o) (treeRunBytes H.little g addr pdata o) :=
  writes_seq (writes_string o.name)
    (writes_seq (writes_treeSpace h.space H.little addr) (writes_seq (writes_objSpace h.objectives) (writes_seq (writes_size o.tuner.history.length)
    (writes_seq (writes_size o.tuner.optima.length) (writes_seq
    (writes_all o.tuner.history fun e he => writes_treeEval H.little (h.evals e he).2) (writes_all o.tuner.optima fun e _ => writes_handle e))))))

theorem writes_treeTuner (h : StoredTreeTuner H P mem mem' g pdata o) (addr : Nat → BitVec 64) :
    WritesBytes (serTreeTuner H.little g addr pdata o) (treeTunerBytes H.little g addr pdata o) :=
  writes_seq (writes_obj _ _) (writes_seq (writes_seq (writes_enum _) (writes_treeRun h.toStoredTreeRun addr)) (writes_userData _))

theorem length_treeRun (h : StoredTreeRun H P mem mem' g pdata o) (addr : Nat → BitVec 64) :
    szTreeRun H.little g addr pdata o = .ok (treeRunBytes H.little g addr pdata o).length := by
  have ho : (o.tuner.optima.flatMap lebBytes).length = (o.tuner.optima.map szHandle).sum := by
    rw [List.length_flatMap]
    congr 1
    exact List.map_congr_left fun x _ => length_leb x
  rw [szTreeRun, length_treeSpace h.space H.little addr, Out.bind_ok, length_objSpace h.objectives, Out.bind_ok,
    szAll_eq (g := fun e => treeEvalBytes (o.evals e)) fun e he => length_treeEval (h.evals e he).2, Out.bind_ok, treeRunBytes,
    treeTunerTail]
  simp only [List.length_append, length_string, length_size, ho]
  congr 1
  omega

theorem length_treeTuner (h : StoredTreeTuner H P mem mem' g pdata o) (addr : Nat → BitVec 64) :
    szTreeTuner H.little g addr pdata o = .ok (treeTunerBytes H.little g addr pdata o).length := by
  rw [szTreeTuner, length_treeRun h.toStoredTreeRun, Out.bind_ok, treeTunerBytes]
  simp only [List.length_append, length_obj, length_userData, show (lebBytes randomTuner).length = szEnum randomTuner from length_leb _]
  congr 1
  omega

theorem readsAs_treeRun (h : StoredTreeRun H P mem mem' g pdata o) (addr : Nat → BitVec 64) (hstatic : o.space.state = none)
    {f : Bytes} (hgen : newGenerator H.gens o.space.rng.name = .ok f) :
    ∃ (g' : Grove) (root' : Nat) (s' : ObjSpace) (m : Handles), Replanted H.ops g o.space.root H.room g' root' ∧
      ObjTwin P.objParamAt o.objectives.space s' ∧ ObjReachable mem' s' ∧
      KnowsTreeSpaces P o m ∧ (∀ k, m.get k = none ↔ k ∉ [o.space.handle, o.objectives.handle]) ∧
      ReadsAs (deTreeRun H P) (treeRunBytes H.little g addr pdata o) (do
        let es ← treeHistoryOutcome H.jen H.little P 0 m (o.tuner.history.map o.evals)
        let optima ← findOptima es.1 o.tuner.optima
        .ok ⟨o.name, g', ⟨o.space.handle, o.space.name, H.fresh, root', none, o.space.data⟩,
          (⟨P.objectives, o.objectives.name, s', o.objectives.data⟩, o.objectives.space.ctx.params.map fun x => pdata x.1),
          es.2, optima⟩) := by
  obtain ⟨g', root', r1, r2⟩ := readsAs_treeSpace h.space H.little H.little addr H.gens H.fresh H.vector h.room [] P.space h.space.data
  have htype : o.space.type = staticSpace := by unfold TreeSpaceObj.type; rw [hstatic]; rfl
  have hn0 : Handles.get [] o.space.handle = none := rfl
  have ha0 := Handles.add_ok hn0 ⟨treeSpaceType, P.space, Ctx.empty⟩
  rw [hgen, Out.bind_ok, htype, show ∀ r, makeTreeSpace H.fresh H.vector staticSpace r = .ok (H.fresh, none) from fun _ => if_pos rfl, Out.bind_ok, ha0,
    Out.bind_ok] at r2
  have hg1 := Handles.get_add ha0
  obtain ⟨s', q1, q2, q3⟩ := readsAs_objSpace H.little h.objectives h.objPlaces [(o.space.handle, ⟨treeSpaceType, P.space, Ctx.empty⟩)]
    P.objectives
  have ha1 := Handles.add_ok (m := [(o.space.handle, ⟨treeSpaceType, P.space, Ctx.empty⟩)])
    (by rw [hg1, if_neg (Ne.symm h.spaces)]; rfl) ⟨objectiveSpaceType, P.objectives, s'.ctx⟩
  rw [claimAll_ok (by simp) h.objAddrs, Out.bind_ok, ha1, Out.bind_ok] at q3
  have hg2 := Handles.get_add ha1
  refine ⟨g', root', s', (o.objectives.handle, ⟨objectiveSpaceType, P.objectives, s'.ctx⟩) ::
    [(o.space.handle, ⟨treeSpaceType, P.space, Ctx.empty⟩)], r1, q2, q1, ⟨?_, ⟨s'.ctx, ?_, ?_, SameParams_params q2.params⟩⟩, fun k => ?_, ?_⟩
  · rw [hg2, if_neg h.spaces, hg1, if_pos rfl]
  · rw [hg2, if_pos rfl]
  · rw [q2.params.length]
    exact h.objectives.small
  · rw [hg2, hg1]
    by_cases h1 : k = o.objectives.handle
    · simp [h1]
    · by_cases h2 : k = o.space.handle
      · rw [if_neg h1]; simp [h2]
      · rw [if_neg h1, if_neg h2]
        simp [h1, h2, show Handles.get [] k = none from rfl]
  · unfold deTreeRun treeRunBytes treeTunerTail
    have hsz := h.size
    have hb : treeSpaceBytes H.little g addr o.space = treeSpaceHead H.little g addr o.space ++ blobBytes o.space.data := by
      unfold treeSpaceBytes
      rw [hstatic]
      rfl
    rw [hb]
    refine readsAs_step (decodes_string h.name.1 h.name.2).1
      (readsAs_step r2 (readsAs_step q3 (readsAs_step (decodes_size (by omega)).1 (readsAs_step (decodes_size (by omega)).1 ?_))))
    rw [if_neg (by omega)]
    have hh := readsAs_treeHistory H.jen H.little P (o.tuner.history.map o.evals) 0
      ((o.objectives.handle, ⟨objectiveSpaceType, P.objectives, s'.ctx⟩) :: [(o.space.handle, ⟨treeSpaceType, P.space, Ctx.empty⟩)]) (by
      intro e he
      obtain ⟨x, hx, rfl⟩ := List.mem_map.mp he
      exact (h.evals x hx).2)
    rw [List.length_map, List.flatMap_map] at hh
    refine readsAs_bind hh fun es _ => ?_
    have ht : ReadsBack (deHandle.times o.tuner.optima.length) (o.tuner.optima.flatMap lebBytes) o.tuner.optima :=
      reads_times _ fun x _ => (decodes_handle x).1
    rw [← List.append_nil (o.tuner.optima.flatMap lebBytes)]
    exact readsAs_step ht (readsAs_lift_bind fun os _ => readsAs_ok (reads_pure _))

theorem readsAs_treeTuner (h : StoredTreeTuner H P mem mem' g pdata o) (addr : Nat → BitVec 64) (hstatic : o.space.state = none)
    {f : Bytes} (hgen : newGenerator H.gens o.space.rng.name = .ok f) :
    ∃ (g' : Grove) (root' : Nat) (s' : ObjSpace) (m : Handles), Replanted H.ops g o.space.root H.room g' root' ∧
      ObjTwin P.objParamAt o.objectives.space s' ∧ ObjReachable mem' s' ∧
      KnowsTreeSpaces P o m ∧ (∀ k, m.get k = none ↔ k ∉ [o.space.handle, o.objectives.handle]) ∧
      ReadsAs (deTreeTuner H P) (treeTunerBytes H.little g addr pdata o) (do
        let es ← treeHistoryOutcome H.jen H.little P 0 m (o.tuner.history.map o.evals)
        let optima ← findOptima es.1 o.tuner.optima
        .ok ⟨o.handle, o.name, g', ⟨o.space.handle, o.space.name, H.fresh, root', none, o.space.data⟩,
          (⟨P.objectives, o.objectives.name, s', o.objectives.data⟩, o.objectives.space.ctx.params.map fun x => pdata x.1),
          es.2, ⟨es.2.map (·.handle), optima⟩, o.data⟩) := by
  obtain ⟨g', root', s', m, h1, h2, h3, h4, h5, h6⟩ := readsAs_treeRun h.toStoredTreeRun addr hstatic hgen
  refine ⟨g', root', s', m, h1, h2, h3, h4, h5, ?_⟩
  unfold deTreeTuner treeTunerBytes
  refine readsAs_step (decodes_obj _ _).1 (readsAs_pass (by simp) ?_)
  rw [List.append_assoc]
  refine readsAs_step (decodes_enum _).1 (readsAs_pass (by simp) ?_)
  have := readsAs_bind h6 (b₂ := blobBytes o.data) fun r _ => readsAs_ok (reads_bind_pure
    (f := fun data => (pure ⟨o.handle, r.name, r.trees, r.space, r.objectives, r.history, ⟨r.history.map (·.handle), r.optima⟩,
      data⟩ : Rd ReadTreeTuner)) (reads_userData h.data) rfl)
  simp only [bind_bind, Out.bind_ok] at this
  exact this

/-- What is written of a tree tuner over a static space comes back. -/
theorem treeRun_back (h : StoredTreeRun H P mem mem' g pdata o) (addr : Nat → BitVec 64) (hst : o.space.state = none)
    {f : Bytes} (hgen : newGenerator H.gens o.space.rng.name = .ok f) (hb : ∀ x ∈ o.tuner.history, BelongsTo o (o.evals x))
    (hn : ([o.space.handle, o.objectives.handle] ++ o.tuner.history).Nodup)
    (hopt : ∀ x ∈ o.tuner.optima, x ∈ o.tuner.history) :
    ∃ r, ReadsBack (deTreeRun H P) (treeRunBytes H.little g addr pdata o) r ∧
      SameTreeTuner H P mem' g pdata o ⟨o.handle, r.name, r.trees, r.space, r.objectives, r.history, ⟨r.history.map (·.handle), r.optima⟩, o.data⟩ := by
  obtain ⟨g', root', s', m, h1, h2, h3, h5, h6, h7⟩ := readsAs_treeRun h addr hst hgen
  have hmap : (o.tuner.history.map o.evals).map (·.handle) = o.tuner.history := by
    rw [List.map_map]
    conv => rhs; rw [← List.map_id o.tuner.history]
    exact List.map_congr_left fun x hx => (h.evals x hx).1
  rw [List.nodup_append] at hn
  obtain ⟨m', es', e1, e2, e3, e4, e5, e6⟩ := treeHistory_fresh H.jen H.little (P := P) (o := o) (o.tuner.history.map o.evals) 0 m h5
    (fun e he => by
      obtain ⟨x, hx, rfl⟩ := List.mem_map.mp he
      exact ⟨(h.evals x hx).2, hb x hx⟩)
    (fun e he => by
      obtain ⟨x, hx, rfl⟩ := List.mem_map.mp he
      rw [h6, (h.evals x hx).1]
      intro hs
      exact hn.2.2 x hs x hx rfl)
    (by rw [hmap]; exact hn.2.1)
  rw [hmap] at e3
  rw [e1, Out.bind_ok, findOptima_known e3 o.tuner.optima hopt, Out.bind_ok] at h7
  rw [List.length_map] at e5
  have hev : ∀ (i : Nat) x, o.tuner.history[i]? = some x → ∃ e, es'[i]? = some e ∧ SameTreeEval P (P.evalAt i) (o.evals x) e := by
    intro i x hi
    obtain ⟨e, k1, k2⟩ := e6 i (o.evals x) (by rw [List.getElem?_map, hi]; rfl)
    rw [Nat.zero_add] at k2
    exact ⟨e, k1, k2⟩
  refine ⟨_, fun tail => h7 tail,
    ⟨rfl, rfl, rfl, rfl, rfl, h1, ⟨h2, h3, rfl, rfl, rfl, rfl⟩, e5, hev, ?_, rfl⟩⟩
  refine List.ext_getElem? fun i => ?_
  show (es'.map (·.handle))[i]? = (o.tuner.history.map (followEval P o.tuner))[i]?
  rw [List.getElem?_map, List.getElem?_map]
  cases hi : o.tuner.history[i]? with
  | none =>
    have : es'[i]? = none := by
      rw [List.getElem?_eq_none_iff] at hi ⊢
      omega
    rw [this]
    rfl
  | some x =>
    obtain ⟨e, k1, k2⟩ := hev i x hi
    rw [k1]
    show some e.handle = some (followEval P o.tuner x)
    have hx : o.tuner.history.idxOf x = i := by
      have hm := List.mem_of_getElem? hi
      have hl := List.idxOf_lt_length_of_mem hm
      have := List.getElem_idxOf hl
      have h1 : o.tuner.history[o.tuner.history.idxOf x]? = some x := by rw [List.getElem?_eq_getElem hl, this]
      exact (List.getElem?_inj hl hn.2.1).mp (h1.trans hi.symm)
    rw [k2.handle, followEval, hx]

theorem treeRun_clash (h : StoredTreeRun H P mem mem' g pdata o) (addr : Nat → BitVec 64) (hst : o.space.state = none)
    {f : Bytes} (hgen : newGenerator H.gens o.space.rng.name = .ok f) (hb : ∀ x ∈ o.tuner.history, BelongsTo o (o.evals x))
    (hn : ¬ ([o.space.handle, o.objectives.handle] ++ o.tuner.history).Nodup) :
    ReadsAs (deTreeRun H P) (treeRunBytes H.little g addr pdata o) (.err .duplicateHandle) := by
  obtain ⟨g', root', s', m, h1, h2, h3, h5, h6, h7⟩ := readsAs_treeRun h addr hst hgen
  have hmap : (o.tuner.history.map o.evals).map (·.handle) = o.tuner.history := by
    rw [List.map_map]
    conv => rhs; rw [← List.map_id o.tuner.history]
    exact List.map_congr_left fun x hx => (h.evals x hx).1
  have hc := treeHistory_clash H.jen H.little (P := P) (o := o) (o.tuner.history.map o.evals) 0 m h5
    (fun e he => by
      obtain ⟨x, hx, rfl⟩ := List.mem_map.mp he
      exact ⟨(h.evals x hx).2, hb x hx⟩)
    (by
      rintro ⟨k1, k2⟩
      rw [hmap] at k2
      refine hn (List.nodup_append.mpr ⟨by simpa using h.spaces, k2, fun a ha b hb' hab => ?_⟩)
      subst hab
      have := k1 (o.evals a) (List.mem_map.mpr ⟨a, hb', rfl⟩)
      rw [(h.evals a hb').1, h6] at this
      exact this ha)
  rwa [hc, Out.bind_err] at h7

theorem treeRun_foreign (h : StoredTreeRun H P mem mem' g pdata o) (addr : Nat → BitVec 64) (hst : o.space.state = none)
    {f : Bytes} (hgen : newGenerator H.gens o.space.rng.name = .ok f) {pre post : List (BitVec 64)} {x : BitVec 64}
    (he : o.tuner.history = pre ++ x :: post) (hb : ∀ y ∈ pre, BelongsTo o (o.evals y))
    (hn : ([o.space.handle, o.objectives.handle] ++ pre).Nodup)
    (hf : (o.evals x).configuration.config.space ∉ [o.space.handle, o.objectives.handle] ++ pre) :
    ReadsAs (deTreeRun H P) (treeRunBytes H.little g addr pdata o) (.err .invalidHandle) := by
  obtain ⟨g', root', s', m, h1, h2, h3, h5, h6, h7⟩ := readsAs_treeRun h addr hst hgen
  have hin : ∀ y ∈ pre, y ∈ o.tuner.history := fun y hy => by rw [he]; simp [hy]
  have hmap : (pre.map o.evals).map (·.handle) = pre := by
    rw [List.map_map]
    conv => rhs; rw [← List.map_id pre]
    exact List.map_congr_left fun y hy => (h.evals y (hin y hy)).1
  rw [List.nodup_append] at hn
  obtain ⟨m', es', e1, e2, e3, e4, e5, e6⟩ := treeHistory_fresh H.jen H.little (P := P) (o := o) (pre.map o.evals) 0 m h5
    (fun e he => by
      obtain ⟨y, hy, rfl⟩ := List.mem_map.mp he
      exact ⟨(h.evals y (hin y hy)).2, hb y hy⟩)
    (fun e he => by
      obtain ⟨y, hy, rfl⟩ := List.mem_map.mp he
      rw [h6, (h.evals y (hin y hy)).1]
      intro hs
      exact hn.2.2 y hs y hy rfl)
    (by rw [hmap]; exact hn.2.1)
  rw [hmap] at e4
  rw [List.mem_append, not_or] at hf
  have hnone : m'.get (o.evals x).configuration.config.space = none := by
    rw [e4 _ hf.2, h6]
    exact hf.1
  have hx : ∀ i, treeEvalOutcome H.jen H.little true m' (P.evalAt i) (o.evals x) = .err .invalidHandle := by
    intro i
    unfold treeEvalOutcome spaceOf Handles.space
    rw [hnone]
    rfl
  have hc : treeHistoryOutcome H.jen H.little P 0 m (o.tuner.history.map o.evals) = .err .invalidHandle := by
    rw [he, List.map_append, List.map_cons, treeHistory_append, e1, Out.bind_ok, treeHistoryOutcome, hx, Out.bind_err, Out.bind_err]
  rwa [hc, Out.bind_err] at h7

/-- When reading a tree tuner fails after its type, reading the tuner fails. -/
theorem treeTuner_err {addr : Nat → BitVec 64} {e : Err} (h : ReadsAs (deTreeRun H P) (treeRunBytes H.little g addr pdata o) (.err e)) :
    ReadsAs (deTreeTuner H P) (treeTunerBytes H.little g addr pdata o) (.err e) := by
  unfold deTreeTuner treeTunerBytes
  refine readsAs_step (decodes_obj _ _).1 (readsAs_pass (by simp) ?_)
  rw [List.append_assoc]
  refine readsAs_step (decodes_enum _).1 (readsAs_pass (by simp) ?_)
  exact readsAs_bind (g := fun _ : ReadTreeRun => (.err e : Out ReadTreeTuner)) h (fun x hx => nomatch hx)

/-- An optimum that is neither an evaluation of the history nor a space makes the message unreadable. -/
theorem treeRun_optimum (h : StoredTreeRun H P mem mem' g pdata o) (addr : Nat → BitVec 64) (hst : o.space.state = none)
    {f : Bytes} (hgen : newGenerator H.gens o.space.rng.name = .ok f) (hb : ∀ x ∈ o.tuner.history, BelongsTo o (o.evals x))
    (hn : ([o.space.handle, o.objectives.handle] ++ o.tuner.history).Nodup) {x : BitVec 64} (hx : x ∈ o.tuner.optima)
    (hx' : x ∉ [o.space.handle, o.objectives.handle] ++ o.tuner.history) :
    ReadsAs (deTreeRun H P) (treeRunBytes H.little g addr pdata o) (.err .invalidHandle) := by
  obtain ⟨g', root', s', m, h1, h2, h3, h5, h6, h7⟩ := readsAs_treeRun h addr hst hgen
  have hmap : (o.tuner.history.map o.evals).map (·.handle) = o.tuner.history := by
    rw [List.map_map]
    conv => rhs; rw [← List.map_id o.tuner.history]
    exact List.map_congr_left fun x hx => (h.evals x hx).1
  rw [List.nodup_append] at hn
  obtain ⟨m', es', e1, e2, e3, e4, e5, e6⟩ := treeHistory_fresh H.jen H.little (P := P) (o := o) (o.tuner.history.map o.evals) 0 m h5
    (fun e he => by
      obtain ⟨x, hx, rfl⟩ := List.mem_map.mp he
      exact ⟨(h.evals x hx).2, hb x hx⟩)
    (fun e he => by
      obtain ⟨x, hx, rfl⟩ := List.mem_map.mp he
      rw [h6, (h.evals x hx).1]
      intro hs
      exact hn.2.2 x hs x hx rfl)
    (by rw [hmap]; exact hn.2.1)
  rw [hmap] at e4
  rw [List.mem_append, not_or] at hx'
  rwa [e1, Out.bind_ok, findOptima_unknown o.tuner.optima hx (by rw [e4 _ hx'.2, h6]; exact hx'.1), Out.bind_err] at h7

end

/-! ### Reading at the wrong place -/

theorem run_step {α β : Type} {r : Rd α} {f : α → Rd β} {b : Bytes} {x : α} (h : ReadsBack r b x) (rest : Bytes) :
    (r >>= f) (b ++ rest) = f x rest := by
  rw [Rd.bind_eq, h, Out.bind_ok]

theorem lift_run {α β : Type} (o : Out α) (f : α → Rd β) (rest : Bytes) : (Rd.lift o >>= f) rest = o >>= fun x => f x rest := by
  cases o <;> rfl

/-- The encoding of a number does not depend on the width of its type. -/
theorem leb_width {w w' : Nat} (hw : 8 ≤ w) (hw' : 8 ≤ w') (v : BitVec w) (v' : BitVec w') (h : v.toNat = v'.toNat) :
    lebBytes v = lebBytes v' := by
  generalize hn : v.toNat = n
  induction n using Nat.strongRecOn generalizing v v' with
  | _ n ih =>
    have hs : (v >>> 7).toNat = (v' >>> 7).toNat := by simp [h]
    have h7 : ∀ u : Nat, 8 ≤ u → 127 < 2 ^ u := fun u hu => Nat.lt_of_lt_of_le (by decide : 127 < 2 ^ 8) (Nat.pow_le_pow_right (by decide) hu)
    have hb : (v &&& BitVec.ofNat w 0x7f).setWidth 8 = (v' &&& BitVec.ofNat w' 0x7f).setWidth 8 := by
      apply BitVec.eq_of_toNat_eq
      simp only [BitVec.toNat_setWidth, BitVec.toNat_and, BitVec.toNat_ofNat, h]
      rw [Nat.mod_eq_of_lt (h7 w hw), Nat.mod_eq_of_lt (h7 w' hw')]
    by_cases hz : v >>> 7 = 0#w
    · have hz' : v' >>> 7 = 0#w' := by
        apply BitVec.eq_of_toNat_eq
        rw [← hs, hz]
        simp
      conv => lhs; unfold lebBytes
      conv => rhs; unfold lebBytes
      rw [dif_neg (by simp [hz]), dif_neg (by simp [hz']), hb]
    · have hz' : v' >>> 7 ≠ 0#w' := by
        intro h0
        apply hz
        apply BitVec.eq_of_toNat_eq
        rw [hs, h0]
        simp
      conv => lhs; unfold lebBytes
      conv => rhs; unfold lebBytes
      rw [dif_pos hz, dif_pos hz', hb, ih _ (hn ▸ BitVec_ushiftRight7_lt v hz) _ _ hs rfl]

theorem obj_at_blob {d : Bytes} (hl : d.length < 2 ^ 32) (rest : Bytes) :
    deObj (blobBytes d ++ rest) = deHandle (d ++ rest) >>= fun p => .ok ((BitVec.ofNat 32 d.length, p.1), p.2) := by
  have e : blobBytes d ++ rest = lebBytes (BitVec.ofNat 32 d.length) ++ (d ++ rest) := by
    rw [blobBytes, List.append_assoc,
      leb_width (by decide) (by decide) (BitVec.ofNat 64 d.length) (BitVec.ofNat 32 d.length) (by
      rw [BitVec.toNat_ofNat, BitVec.toNat_ofNat, Nat.mod_eq_of_lt (by omega), Nat.mod_eq_of_lt hl])]
  rw [e, deObj, run_step (decodes_enum _).1, Rd.bind_eq]
  rfl

/-- Reading an objective space where a blob was written. -/
theorem objSpace_at_blob (ops : FloatOps) (jen : Bytes → BitVec 32) (little : Bool) (paramAt : Nat → BitVec 64) (m : Handles)
    (addr : BitVec 64) {d : Bytes} (hl : d.length < 2 ^ 32) (hl' : d.length ≠ 6) (rest : Bytes) :
    deObjSpace ops jen little paramAt m addr (blobBytes d ++ rest) = deHandle (d ++ rest) >>= fun _ => .err .invalidType := by
  have hne : BitVec.ofNat 32 d.length ≠ objectiveSpaceType := by
    intro h
    have := congrArg BitVec.toNat h
    rw [BitVec.toNat_ofNat, Nat.mod_eq_of_lt hl] at this
    exact hl' this
  unfold deObjSpace
  rw [Rd.bind_eq, obj_at_blob hl, bind_bind]
  congr 1
  funext x
  rw [Out.bind_ok, lift_run, refute, if_pos hne]
  rfl

end CCS
