import Verif.Lemmas.TreeRunWire
import Verif.Props.RunWire

/-!
# C93–C96: serialization of tree spaces, tree configurations, tree evaluations and tree tuners

The specification is in `Verif/Spec/TreeRunWire.lean`: what can be stored, and what being the same means (`Replanted`, `SameTreeEval`,
`SameTreeTuner`).
-/

namespace CCS.Props

open CCS CCS.Spec

/-! ## C93: tree spaces -/

section
variable {ops : FloatOps} {g room : Grove} {o : TreeSpaceObj} {gens : List (Bytes × Bytes)} {fresh : RngObj} {vector : Option TreeVector}

/-- **C93, proved part** A static tree space is written on the announced bytes, and read, next to any other trees and on a
host of any byte order, as a static space with the same name, user data and tree; it joins the handle map, and is refused when
its address is already there.

Missing: its generator (`C93_generator_lost`); dynamic spaces (`C93_dynamic_misread`). -/
theorem C93_static_partial (h : StorableTreeSpace ops g o) (hs : o.state = none) (little little' : Bool) (addr : Nat → BitVec 64)
    {f : Bytes} (hg : newGenerator gens o.rng.name = .ok f) (hr : GrownForest ops room.trees) (m : Handles) (a : BitVec 64) :
    ∃ bs g' root, WritesBytes (serTreeSpace little g addr o) bs ∧ szTreeSpace little g addr o = .ok bs.length ∧
      Replanted ops g o.root room g' root ∧
      (m.get o.handle ≠ none → ∀ tail, deTreeSpace ops little' gens fresh vector room m a (bs ++ tail) = .err .duplicateHandle) ∧
      (m.get o.handle = none → ∃ m' r, ReadsBack (deTreeSpace ops little' gens fresh vector room m a) bs (m', g', r) ∧
        r.handle = o.handle ∧ r.name = o.name ∧ r.root = root ∧ r.data = o.data ∧ r.restored = none ∧
        ∀ k, m'.get k = if k = o.handle then some ⟨treeSpaceType, a, Ctx.empty⟩ else m.get k) := by
  obtain ⟨g', root, r1, r2⟩ := readsAs_treeSpace h little little' addr gens fresh vector hr m a h.data
  have htype : o.type = staticSpace := by unfold TreeSpaceObj.type; rw [hs]; rfl
  rw [hg, Out.bind_ok, htype, show ∀ r, makeTreeSpace fresh vector staticSpace r = .ok (fresh, none) from fun _ => if_pos rfl,
    Out.bind_ok] at r2
  have hb : treeSpaceBytes little g addr o = treeSpaceHead little g addr o ++ blobBytes o.data := by
    unfold treeSpaceBytes
    rw [hs]
    rfl
  refine ⟨_, g', root, writes_treeSpace h little addr, length_treeSpace h little addr, r1, fun hn tail => ?_, fun hn => ?_⟩
  · rw [hb]
    have := r2 tail
    rwa [Handles.add_err hn, Out.bind_err] at this
  · have ha := Handles.add_ok hn ⟨treeSpaceType, a, Ctx.empty⟩
    rw [ha, Out.bind_ok] at r2
    exact ⟨_, _, by rw [hb]; exact fun tail => r2 tail, rfl, rfl, rfl, rfl, rfl, fun k => Handles.get_add ha k⟩

/-- **C93, violated** Whatever the generator of a static tree space, what is read has a new generator of the default type instead. -/
theorem C93_generator_lost (h : StorableTreeSpace ops g o) (hs : o.state = none) (little little' : Bool) (addr : Nat → BitVec 64)
    (hr : GrownForest ops room.trees) (m : Handles) (a : BitVec 64) {bs tail rest : Bytes} {m' : Handles} {g' : Grove} {r : ReadTreeSpace}
    (hw : WritesBytes (serTreeSpace little g addr o) bs)
    (hrd : deTreeSpace ops little' gens fresh vector room m a (bs ++ tail) = .ok ((m', g', r), rest)) :
    r.rng = fresh ∧ (o.rng ≠ fresh → r.rng ≠ o.rng) := by
  obtain ⟨g'', root, -, r2⟩ := readsAs_treeSpace h little little' addr gens fresh vector hr m a h.data
  have htype : o.type = staticSpace := by unfold TreeSpaceObj.type; rw [hs]; rfl
  have hb : treeSpaceBytes little g addr o = treeSpaceHead little g addr o ++ blobBytes o.data := by
    unfold treeSpaceBytes
    rw [hs]
    rfl
  obtain rfl := writes_unique hw (writes_treeSpace h little addr)
  rw [hb, r2 tail] at hrd
  have key : r.rng = fresh := by
    cases hg : newGenerator gens o.rng.name with
    | ok f =>
      rw [hg, Out.bind_ok, htype, show ∀ r, makeTreeSpace fresh vector staticSpace r = .ok (fresh, none) from fun _ => if_pos rfl,
        Out.bind_ok] at hrd
      cases ha : m.add o.handle ⟨treeSpaceType, a, Ctx.empty⟩ with
      | ok x =>
        rw [ha] at hrd
        cases hrd
        rfl
      | err e => rw [ha] at hrd; cases hrd
      | ub => rw [ha] at hrd; cases hrd
    | err e => rw [hg] at hrd; cases hrd
    | ub => rw [hg] at hrd; cases hrd
  exact ⟨key, fun hne he => hne (he ▸ key)⟩

/-- **C93** A tree that came back gives the same answers: the same positions are valid, with the same nodes and the same values. -/
theorem C93_same_answers {g' : Grove} {root root' : Nat} (h : Replanted ops g root room g' root') (q : DynTree.Query) :
    staticAnswer g'.trees root' q = staticAnswer g.trees root q :=
  Forest.staticAnswer_same h.same q

/-- **C93** A configuration is accepted by the tree that came back when it was by the tree written, with the same values. -/
theorem C93_same_configuration {g' : Grove} {root root' : Nat} (h : Replanted ops g root room g' root') (s s' : BitVec 64)
    (p : List (BitVec 64)) (size : Option Nat) (count : Bool) :
    TreeConfig.checkIn g'.trees root' s' ⟨s', p⟩ = TreeConfig.checkIn g.trees root s ⟨s, p⟩ ∧
    TreeConfig.getValues g'.trees root' ⟨s', p⟩ size count = TreeConfig.getValues g.trees root ⟨s, p⟩ size count := by
  have h1 := C93_same_answers h (.valid (p.map (·.toNat)))
  have h2 := fun k => C93_same_answers h (.values (p.map (·.toNat)) k)
  simp only [staticAnswer, Answer.valid.injEq, Answer.values.injEq] at h1 h2
  constructor
  · unfold TreeConfig.checkIn
    rw [refute_false (by simp), refute_false (by simp), Out.bind_ok, Out.bind_ok]
    exact h1
  · unfold TreeConfig.getValues
    cases size with
    | none => rfl
    | some k =>
      dsimp only
      rw [h2 k]

/-- **C93 (partial)** With IEEE arithmetic and the same draws, sampling the tree that came back gives the same positions.

Missing: trees with a node whose total is NaN. -/
theorem C93_same_samples_partial {g' : Grove} {root root' : Nat} (hg : GrownForest ieee g.trees) (h : Replanted ieee g root room g' root')
    (hnan : ∀ p k m, Leads g.trees root p k → g.trees.node k = some m → F64.isNaN m.sum = false) (s : BitVec 64)
    (guess : Int → F64 → Int) (turns fuel : Nat) (rnd : Nat → F64) (n : Nat) :
    (TreeSource.mk s g'.trees root' guess turns fuel).sample rnd n = (TreeSource.mk s g.trees root guess turns fuel).sample rnd n := by
  unfold TreeSource.sample
  dsimp only
  rw [Forest.samplePositions_same hg h.grown guess turns rnd fuel h.same hnan]

/-- **C93, violated** A dynamic tree space read with the callbacks it needs, if reading succeeds: its state is handed over as
its user data, `deserialize_state` is called with an empty state if it is there, and its user data are left unread. -/
theorem C93_dynamic_misread (h : StorableTreeSpace ops g o) {st : Bytes} (hs : o.state = some st) (little little' : Bool)
    (addr : Nat → BitVec 64) {f : Bytes} (hg : newGenerator gens o.rng.name = .ok f) (hr : GrownForest ops room.trees) (m : Handles)
    (a : BitVec 64) (hm : m.get o.handle = none) {v : TreeVector} (hv : v.complete = true)
    (hv' : ∀ restore, v.restore = some restore → restore [] = .ok ()) :
    ∃ bs g' root r m' ud, WritesBytes (serTreeSpace little g addr o) bs ∧ szTreeSpace little g addr o = .ok bs.length ∧
      WritesBytes (serUserData o.data) ud ∧ Replanted ops g o.root room g' root ∧
      (∀ tail, deTreeSpace ops little' gens fresh (some v) room m a (bs ++ tail) = .ok ((m', g', r), ud ++ tail)) ∧
      r.name = o.name ∧ r.root = root ∧ r.data = st ∧ r.restored = v.restore.map (fun _ => []) ∧
      (little = little' → o.rng.state.length = f.length → r.rng = o.rng) := by
  obtain ⟨g', root, r1, r2⟩ := readsAs_treeSpace h little little' addr gens fresh (some v) hr m a (h.state st hs)
  have htype : o.type = dynamicSpace := by unfold TreeSpaceObj.type; rw [hs]; rfl
  have hb : treeSpaceBytes little g addr o = (treeSpaceHead little g addr o ++ blobBytes st) ++ blobBytes o.data := by
    unfold treeSpaceBytes
    rw [hs, List.append_assoc]
    rfl
  have hmk : ∀ r, makeTreeSpace fresh (some v) dynamicSpace r = .ok (r, v.restore.map fun _ => []) := by
    intro r
    unfold makeTreeSpace
    rw [if_neg (by decide)]
    dsimp only
    rw [if_pos hv]
    cases hres : v.restore with
    | none => rfl
    | some rs =>
      dsimp only
      rw [hv' rs hres]
      rfl
  rw [hg, Out.bind_ok, htype, hmk, Out.bind_ok, Handles.add_ok hm, Out.bind_ok] at r2
  exact ⟨_, g', root, ⟨o.handle, o.name, ⟨o.rng.name, if little = little' ∧ o.rng.state.length = f.length then o.rng.state else f,
      o.rng.data⟩, root, v.restore.map fun _ => [], st⟩, _, blobBytes o.data, writes_treeSpace h little addr,
    length_treeSpace h little addr, writes_userData _, r1, fun tail => by
      rw [hb, List.append_assoc]
      exact r2 _, rfl, rfl, rfl, rfl, fun h1 h2 => by
      dsimp only
      rw [if_pos ⟨h1, h2⟩]⟩

/-- **C93** Without its callbacks, or with a mandatory one missing, a dynamic tree space is refused; when `deserialize_state` refuses
the (empty) state it is given, so does the call. -/
theorem C93_dynamic_refused (h : StorableTreeSpace ops g o) {st : Bytes} (hs : o.state = some st) (little little' : Bool)
    (addr : Nat → BitVec 64) {f : Bytes} (hg : newGenerator gens o.rng.name = .ok f) (hr : GrownForest ops room.trees) (m : Handles)
    (a : BitVec 64) {bs : Bytes} (hw : WritesBytes (serTreeSpace little g addr o) bs) (tail : Bytes) :
    ((∀ v, vector = some v → v.complete = false) →
      deTreeSpace ops little' gens fresh vector room m a (bs ++ tail) = .err .invalidValue) ∧
    (∀ v restore e, vector = some v → v.complete = true → v.restore = some restore → restore [] = .err e →
      deTreeSpace ops little' gens fresh vector room m a (bs ++ tail) = .err e) := by
  obtain ⟨g', root, r1, r2⟩ := readsAs_treeSpace h little little' addr gens fresh vector hr m a (h.state st hs)
  have htype : o.type = dynamicSpace := by unfold TreeSpaceObj.type; rw [hs]; rfl
  have hb : treeSpaceBytes little g addr o = (treeSpaceHead little g addr o ++ blobBytes st) ++ blobBytes o.data := by
    unfold treeSpaceBytes
    rw [hs, List.append_assoc]
    rfl
  obtain rfl := writes_unique hw (writes_treeSpace h little addr)
  rw [hg, Out.bind_ok, htype] at r2
  refine ⟨fun hv => ?_, fun v restore e h1 h2 h3 h4 => ?_⟩
  · have hmk : ∀ r, makeTreeSpace fresh vector dynamicSpace r = .err .invalidValue := by
      intro r
      unfold makeTreeSpace
      rw [if_neg (by decide)]
      cases vector with
      | none => rfl
      | some v =>
        dsimp only
        rw [hv v rfl]
        rfl
    rw [hmk, Out.bind_err] at r2
    rw [hb, List.append_assoc]
    exact r2 _
  · have hmk : ∀ r, makeTreeSpace fresh vector dynamicSpace r = .err e := by
      intro r
      unfold makeTreeSpace
      rw [if_neg (by decide), h1]
      dsimp only
      rw [if_pos h2, h3]
      dsimp only
      rw [h4]
      rfl
    rw [hmk, Out.bind_err] at r2
    rw [hb, List.append_assoc]
    exact r2 _

end

/-! ## C94: tree configurations -/

/-- **C94** A tree configuration is written on the announced bytes.  Without a handle map they are refused; with one, the space is looked
up by its written address, and if a tree space is there the configuration comes back in it with the same position and the same
user data; it joins the map if asked, unless its address is already there. -/
theorem C94_outcome (mapped : Bool) {o : TreeConfObj} (h : StorableTreeConf o) (m : Handles) (addr : BitVec 64) :
    ∃ bs, WritesBytes (serTreeConf o) bs ∧ bs.length = szTreeConf o ∧
      (∀ tail, deTreeConf mapped none addr (bs ++ tail) = .err .invalidObject) ∧
      ∃ rs, FoundSpace m o.config.space rs ∧
        (∀ x, rs = .err x → ∀ tail, deTreeConf mapped (some m) addr (bs ++ tail) = .err x) ∧
        ∀ s, rs = .ok s →
          (mapped = true → m.get o.handle ≠ none →
            ∀ tail, deTreeConf mapped (some m) addr (bs ++ tail) = .err .duplicateHandle) ∧
          ((mapped = true → m.get o.handle = none) → ∃ m',
            ReadsBack (deTreeConf mapped (some m) addr) bs (m', ⟨addr, ⟨s, o.config.position⟩, o.data⟩) ∧
            ∀ k, m'.get k = if mapped = true ∧ k = o.handle then some ⟨treeConfigurationType, addr, Ctx.empty⟩ else m.get k) := by
  have hr := readsAs_treeConf mapped m addr h
  refine ⟨treeConfBytes o, writes_treeConf o, length_treeConf o, fun tail => rfl, spaceOf m o.config.space, foundSpace m _, ?_, ?_⟩
  · intro x hx tail
    have := hr tail
    rwa [hx, Out.bind_err] at this
  · intro s hs
    rw [hs, Out.bind_ok] at hr
    unfold addMapped at hr
    refine ⟨fun h1 h2 tail => ?_, fun h1 => ?_⟩
    · have := hr tail
      rwa [if_pos h1, Handles.add_err h2, Out.bind_err] at this
    · cases mapped with
      | false => exact ⟨m, fun tail => hr tail, fun k => by simp⟩
      | true =>
        have ha := Handles.add_ok (h1 rfl) ⟨treeConfigurationType, addr, Ctx.empty⟩
        rw [if_pos rfl, ha, Out.bind_ok] at hr
        exact ⟨_, fun tail => hr tail, fun k => by rw [Handles.get_add ha]; simp⟩

/-- **C94, violated** A message that announces a position of 2^61 indexes or more, and contains enough of them, makes the
library write outside of the array it has allocated. -/
theorem C94_huge_position (mapped : Bool) (m : Handles) (addr handle space : BitVec 64) {n : Nat} (hn : 2 ^ 61 ≤ n) (hn' : n < 2 ^ 64)
    {indexes : List (BitVec 64)} (hi : indexes.length = n % 2 ^ 61 + 1) {bs : Bytes}
    (hw : WritesBytes (serObj treeConfigurationType handle ⨟ serHandle space ⨟ serSize n ⨟
      Wr.all (fun i => serSize i.toNat) indexes) bs) (tail : Bytes) :
    deTreeConf mapped (some m) addr (bs ++ tail) = .ub := by
  obtain rfl := writes_unique hw (writes_seq (writes_obj _ _) (writes_seq (writes_handle _) (writes_seq (writes_size _)
    (writes_all (g := fun i => lebBytes (BitVec.ofNat 64 i.toNat)) _ fun _ _ => writes_size _))))
  have key : ReadsAs (deTreeConf mapped (some m) addr) (objBytes treeConfigurationType handle ++ (lebBytes space ++
      (lebBytes (BitVec.ofNat 64 n) ++ indexes.flatMap fun i => lebBytes (BitVec.ofNat 64 i.toNat)))) .ub := by
    unfold deTreeConf
    refine readsAs_step (decodes_obj _ _).1 (readsAs_pass (by simp) (readsAs_step (decodes_handle _).1 ?_))
    have hp : ReadsAs dePosition (lebBytes (BitVec.ofNat 64 n) ++ indexes.flatMap fun i => lebBytes (BitVec.ofNat 64 i.toNat)) .ub := by
      unfold dePosition
      refine readsAs_step (decodes_size hn').1 ?_
      rw [if_pos hn, show 8 * n % 2 ^ 64 / 8 + 1 = indexes.length by omega]
      have h1 := readsAs_step (reads_steps indexes) (f := fun _ => (Rd.undef : Rd (List (BitVec 64)))) (b₂ := []) (o := .ub)
        (fun _ => rfl)
      rwa [List.append_nil] at h1
    have := readsAs_bind (g := fun _ => (.ub : Out (Handles × TreeConfObj))) hp (f := fun p => do
      let s ← Rd.lift (m.space treeSpaceType space)
      let m' ← Rd.lift (if mapped then m.add handle ⟨treeConfigurationType, addr, Ctx.empty⟩ else .ok m)
      let data ← deUserData
      pure (m', ⟨addr, ⟨s.1, p⟩, data⟩)) (b₂ := []) (fun x hx => nomatch hx)
    rwa [List.append_nil] at this
  exact key tail

/-! ## C95: tree evaluations -/

/-- **C95** What storing a tree evaluation gives: the bytes announced are written, in any process; without a handle map they are
refused; with one, the space of its configuration, then its objective space, are looked up by their written addresses,
and the values are bound again to the latter.  The position, the result code and the user data come back. -/
theorem C95_outcome (jen : Bytes → BitVec 32) (little little' mapped : Bool) {e : TreeEvalObj} (h : StorableTreeEval e) {m : Handles}
    (hm : SmallMap m) (p : EvalPlace) :
    ∃ bs, WritesBytes (serTreeEval little e) bs ∧ szTreeEval e = .ok bs.length ∧
      (∀ tail, deTreeEval jen little' mapped none p (bs ++ tail) = .err .invalidObject) ∧
      ∃ rs rb, FoundSpace m e.configuration.config.space rs ∧ Attached m objectiveSpaceType e.binding rb ∧
        (∀ x, rs = .err x → ∀ tail, deTreeEval jen little' mapped (some m) p (bs ++ tail) = .err x) ∧
        (∀ s x, rs = .ok s → rb = .err x → ∀ tail, deTreeEval jen little' mapped (some m) p (bs ++ tail) = .err x) ∧
        ∀ s b, rs = .ok s → rb = .ok b →
          (mapped = true → m.get e.handle ≠ none →
            ∀ tail, deTreeEval jen little' mapped (some m) p (bs ++ tail) = .err .duplicateHandle) ∧
          ((mapped = true → m.get e.handle = none) → ∃ m' e',
            ReadsBack (deTreeEval jen little' mapped (some m) p) bs (m', e') ∧ e'.handle = p.eval ∧ e'.binding = b ∧
            e'.configuration = ⟨p.conf, ⟨s, e.configuration.config.position⟩, e.configuration.data⟩ ∧
            e'.result = e.result ∧ e'.data = e.data ∧
            ∀ k, m'.get k = if mapped = true ∧ k = e.handle then some ⟨treeEvaluationType, p.eval, Ctx.empty⟩ else m.get k) := by
  have hr := readsAs_treeEval jen little' mapped m p h
  unfold treeEvalOutcome at hr
  refine ⟨treeEvalBytes e, writes_treeEval little h, length_treeEval h, fun tail => rfl, spaceOf m e.configuration.config.space,
    attach jen little' m objectiveSpaceType e.binding, foundSpace m _, attached_attach jen little' hm _ h.binding, ?_, ?_, ?_⟩
  · intro x hx tail
    have := hr tail
    rwa [hx, Out.bind_err] at this
  · intro s x hs hx tail
    have := hr tail
    rwa [hs, Out.bind_ok, hx, Out.bind_err] at this
  · intro s b hs hb
    rw [hs, Out.bind_ok, hb, Out.bind_ok] at hr
    refine ⟨fun ht hn tail => ?_, fun hn => ?_⟩
    · subst ht
      have := hr tail
      rwa [addMapped, if_pos rfl, Handles.add_err hn, Out.bind_err] at this
    · cases mapped with
      | false => exact ⟨m, _, fun tail => hr tail, rfl, rfl, rfl, rfl, rfl, fun k => by simp⟩
      | true =>
        have ha := Handles.add_ok (hn rfl) ⟨treeEvaluationType, p.eval, Ctx.empty⟩
        rw [addMapped, if_pos rfl, ha, Out.bind_ok] at hr
        exact ⟨_, _, fun tail => hr tail, rfl, rfl, rfl, rfl, rfl, fun k => by rw [Handles.get_add ha]; simp⟩

/-- **C95, proved part** When the map has, at the written addresses, a tree space and an objective space in which the values fit, the
tree evaluation comes back the same, in those spaces. -/
theorem C95_round_trip_partial (jen : Bytes → BitVec 32) (little little' mapped : Bool) {e : TreeEvalObj} (h : StorableTreeEval e)
    {m : Handles} (p : EvalPlace) (P : Places) {c d : Ctx}
    (hc : m.get e.configuration.config.space = some ⟨treeSpaceType, P.space, c⟩)
    (hd : m.get e.binding.context = some ⟨objectiveSpaceType, P.objectives, d⟩) (ld : d.params.length < 2 ^ 32) (fd : FitsSpace d e.binding)
    (hn : mapped = true → m.get e.handle = none) :
    ∃ bs m' e', WritesBytes (serTreeEval little e) bs ∧ szTreeEval e = .ok bs.length ∧
      ReadsBack (deTreeEval jen little' mapped (some m) p) bs (m', e') ∧ SameTreeEval P p e e' := by
  have hr := readsAs_treeEval jen little' mapped m p h
  unfold treeEvalOutcome at hr
  obtain ⟨bd, d1, d2⟩ := attach_fits jen little' h.binding hd ld fd
  have a1 : spaceOf m e.configuration.config.space = .ok P.space := by
    unfold spaceOf Handles.space
    rw [hc]
    rfl
  rw [a1, Out.bind_ok, d1, Out.bind_ok] at hr
  have hs : SameTreeEval P p e ⟨p.eval, bd, ⟨p.conf, ⟨P.space, e.configuration.config.position⟩, e.configuration.data⟩, e.result, e.data⟩ :=
    ⟨rfl, d2, rfl, rfl, rfl⟩
  cases mapped with
  | false => exact ⟨_, m, _, writes_treeEval little h, length_treeEval h, fun tail => hr tail, hs⟩
  | true =>
    rw [addMapped, if_pos rfl, Handles.add_ok (hn rfl), Out.bind_ok] at hr
    exact ⟨_, _, _, writes_treeEval little h, length_treeEval h, fun tail => hr tail, hs⟩

/-- **C95, violated** A tree evaluation whose objective space has got other parameters since is written, and what was written is refused. -/
theorem C95_grown_refused (jen : Bytes → BitVec 32) (little little' mapped : Bool) {e : TreeEvalObj} (h : StorableTreeEval e)
    {m : Handles} (hm : SmallMap m) (p : EvalPlace) {a b : BitVec 64} {c d : Ctx}
    (hc : m.get e.configuration.config.space = some ⟨treeSpaceType, a, c⟩)
    (hd : m.get e.binding.context = some ⟨objectiveSpaceType, b, d⟩) (hv : e.binding.values ≠ [])
    (hl : e.binding.values.length ≠ d.params.length) :
    ∃ bs, WritesBytes (serTreeEval little e) bs ∧ szTreeEval e = .ok bs.length ∧
      ∀ tail, deTreeEval jen little' mapped (some m) p (bs ++ tail) = .err .invalidValue := by
  obtain ⟨bs, h1, h2, -, rs, rb, h3, h5, -, h6, -⟩ := C95_outcome jen little little' mapped h hm p
  refine ⟨bs, h1, h2, ?_⟩
  have hrb : rb = .err .invalidValue := by
    cases h5 with
    | unknown hg => rw [hd] at hg; cases hg
    | other hg ht => rw [hd] at hg; cases hg; exact absurd rfl ht
    | found hg ht hr =>
      rw [hd] at hg; cases hg
      cases hr with
      | same _ h => exact absurd h hl
      | blank h => exact absurd h hv
      | count => rfl
      | illegal _ h => exact absurd h hl
  cases h3 with
  | unknown hg => rw [hc] at hg; cases hg
  | other hg ht => rw [hc] at hg; cases hg; exact absurd rfl ht
  | found hg ht => exact h6 _ _ rfl hrb

/-! ## C96: tree tuners -/

section
variable {H : TreeHost} {P : Places} {mem mem' : BitVec 64 → Param} {g : Grove} {pdata : BitVec 64 → Bytes} {o : TreeTunerObj}

/-- **C96, proved part** A random tree tuner over a static tree space made by calls, told once each of its evaluations, all of its own
spaces and fitting in them, is written on the announced bytes and comes back: same name, same user data, same tree, same
objectives, same evaluations in the same order, and the optima at the same positions.

Missing: the generator of the space (`C93_generator_lost`), evaluations told twice or foreign (`C96_told_twice_refused`,
`C96_foreign_refused`), dynamic tree spaces (`C96_dynamic_unreadable`). -/
theorem C96_round_trip_partial (h : StoredTreeTuner H P mem mem' g pdata o) (addr : Nat → BitVec 64) (hst : o.space.state = none)
    {f : Bytes} (hgen : newGenerator H.gens o.space.rng.name = .ok f) (hb : ∀ x ∈ o.tuner.history, BelongsTo o (o.evals x))
    (hn : ([o.space.handle, o.objectives.handle] ++ o.tuner.history).Nodup) :
    ∃ bs r, WritesBytes (serTreeTuner H.little g addr pdata o) bs ∧ szTreeTuner H.little g addr pdata o = .ok bs.length ∧
      ReadsBack (deTreeTuner H P) bs r ∧ SameTreeTuner H P mem' g pdata o r := by
  obtain ⟨r, h1, h2⟩ := treeRun_back h.toStoredTreeRun addr hst hgen hb hn (by
    obtain ⟨calls, hc⟩ := h.made
    rw [hc]
    exact tells_optima calls _ (by simp [Tuner.empty]))
  refine ⟨_, _, writes_treeTuner h addr, length_treeTuner h addr, ?_, h2⟩
  show ReadsAs _ _ (.ok _)
  unfold deTreeTuner treeTunerBytes
  refine readsAs_step (decodes_obj _ _).1 (readsAs_pass (by simp) ?_)
  rw [List.append_assoc]
  exact readsAs_step (decodes_enum _).1 (readsAs_pass (by simp) (readsAs_step h1 (readsAs_ok (reads_bind_pure (reads_userData h.data) rfl))))

/-- **C96, violated** When a tree evaluation was told twice to the tuner, or has the address of one of its spaces, the tuner is written,
and what was written is refused. -/
theorem C96_told_twice_refused (h : StoredTreeTuner H P mem mem' g pdata o) (addr : Nat → BitVec 64) (hst : o.space.state = none)
    {f : Bytes} (hgen : newGenerator H.gens o.space.rng.name = .ok f) (hb : ∀ x ∈ o.tuner.history, BelongsTo o (o.evals x))
    (hn : ¬ ([o.space.handle, o.objectives.handle] ++ o.tuner.history).Nodup) :
    ∃ bs, WritesBytes (serTreeTuner H.little g addr pdata o) bs ∧ szTreeTuner H.little g addr pdata o = .ok bs.length ∧
      ∀ tail, deTreeTuner H P (bs ++ tail) = .err .duplicateHandle :=
  ⟨_, writes_treeTuner h addr, length_treeTuner h addr, fun tail => treeTuner_err (treeRun_clash h.toStoredTreeRun addr hst hgen hb hn) tail⟩

/-- **C96, violated** When an evaluation told to the tuner is for a configuration of another tree space (which the calls accept), the
tuner is written, and what was written is refused. -/
theorem C96_foreign_refused (h : StoredTreeTuner H P mem mem' g pdata o) (addr : Nat → BitVec 64) (hst : o.space.state = none)
    {f : Bytes} (hgen : newGenerator H.gens o.space.rng.name = .ok f) {pre post : List (BitVec 64)} {x : BitVec 64}
    (he : o.tuner.history = pre ++ x :: post) (hb : ∀ y ∈ pre, BelongsTo o (o.evals y))
    (hn : ([o.space.handle, o.objectives.handle] ++ pre).Nodup)
    (hf : (o.evals x).configuration.config.space ∉ [o.space.handle, o.objectives.handle] ++ pre) :
    ∃ bs, WritesBytes (serTreeTuner H.little g addr pdata o) bs ∧ szTreeTuner H.little g addr pdata o = .ok bs.length ∧
      ∀ tail, deTreeTuner H P (bs ++ tail) = .err .invalidHandle :=
  ⟨_, writes_treeTuner h addr, length_treeTuner h addr, fun tail => treeTuner_err (treeRun_foreign h.toStoredTreeRun addr hst hgen he hb hn hf) tail⟩

/-- **C96, violated** A random tree tuner over a dynamic tree space is written on the announced bytes.  Whatever the callbacks given to
read it, it does not come back, unless the user data of its space has exactly 6 bytes; with the right callbacks and no user data,
the outcome is that of a message of the wrong type. -/
theorem C96_dynamic_unreadable (h : StoredTreeTuner H P mem mem' g pdata o) (addr : Nat → BitVec 64) {st : Bytes}
    (hst : o.space.state = some st) (hl : o.space.data.length < 2 ^ 32) (hl' : o.space.data.length ≠ 6) :
    ∃ bs, WritesBytes (serTreeTuner H.little g addr pdata o) bs ∧ szTreeTuner H.little g addr pdata o = .ok bs.length ∧
      (∀ tail r, deTreeTuner H P (bs ++ tail) ≠ .ok r) ∧
      ((∃ f, newGenerator H.gens o.space.rng.name = .ok f) → (∃ v, H.vector = some v ∧ v.complete = true ∧ v.restore = none) →
        o.space.data = [] → ∀ tail, deTreeTuner H P (bs ++ tail) = .err .invalidType) := by
  obtain ⟨g', root', r1, r2⟩ := readsAs_treeSpace h.space H.little H.little addr H.gens H.fresh H.vector h.room [] P.space
    (h.space.state st hst)
  have htype : o.space.type = dynamicSpace := by unfold TreeSpaceObj.type; rw [hst]; rfl
  have hb : treeSpaceBytes H.little g addr o.space = (treeSpaceHead H.little g addr o.space ++ blobBytes st) ++ blobBytes o.space.data := by
    unfold treeSpaceBytes
    rw [hst, List.append_assoc]
    rfl
  refine ⟨_, writes_treeTuner h addr, length_treeTuner h addr, ?_⟩
  have e : ∀ tail, treeRunBytes H.little g addr pdata o ++ tail =
      strBytes o.name ++ ((treeSpaceHead H.little g addr o.space ++ blobBytes st) ++ (blobBytes o.space.data ++
        (treeTunerTail pdata o ++ tail))) := by
    intro tail
    rw [treeRunBytes, hb]
    simp only [List.append_assoc]
  have hspace := fun tail => r2 (blobBytes o.space.data ++ (treeTunerTail pdata o ++ tail))
  generalize hout : (do
    let f ← newGenerator H.gens o.space.rng.name
    let s ← makeTreeSpace H.fresh H.vector o.space.type
      ⟨o.space.rng.name, if H.little = H.little ∧ o.space.rng.state.length = f.length then o.space.rng.state else f, o.space.rng.data⟩
    let m' ← Handles.add [] o.space.handle ⟨treeSpaceType, P.space, Ctx.empty⟩
    Out.ok (m', g', (⟨o.space.handle, o.space.name, s.1, root', s.2, st⟩ : ReadTreeSpace))) = out at hspace
  have key' : ∀ tail, deTreeRun H P (treeRunBytes H.little g addr pdata o ++ tail) = out >>= fun _ =>
      deHandle (o.space.data ++ (treeTunerTail pdata o ++ tail)) >>= fun _ => .err .invalidType := by
    intro tail
    rw [e, deTreeRun, run_step (decodes_string h.name.1 h.name.2).1, Rd.bind_eq, hspace]
    cases out with
    | ok x =>
      rw [Out.bind_ok, Out.bind_ok]
      dsimp only
      rw [Rd.bind_eq, objSpace_at_blob _ _ _ _ _ _ hl hl', bind_bind]
      rfl
    | err e => rfl
    | ub => rfl
  have key : ∀ tail, deTreeTuner H P (treeTunerBytes H.little g addr pdata o ++ tail) = out >>= fun _ =>
      deHandle (o.space.data ++ (treeTunerTail pdata o ++ (blobBytes o.data ++ tail))) >>= fun _ => .err .invalidType := by
    intro tail
    rw [show treeTunerBytes H.little g addr pdata o ++ tail = objBytes treeTunerType o.handle ++ (lebBytes randomTuner ++
        (treeRunBytes H.little g addr pdata o ++ (blobBytes o.data ++ tail))) by rw [treeTunerBytes]; simp only [List.append_assoc],
      deTreeTuner, run_step (decodes_obj _ _).1, lift_run, refute, if_neg (by simp), Out.bind_ok, run_step (decodes_enum _).1,
      lift_run, refute, if_neg (by simp), Out.bind_ok, Rd.bind_eq, key', bind_bind]
    congr 1
    funext x
    rw [bind_bind]
    rfl
  constructor
  · intro tail r hr
    rw [key] at hr
    cases out with
    | ok x =>
      rw [Out.bind_ok] at hr
      obtain ⟨_, -, hr⟩ := bind_eq_ok hr
      cases hr
    | err e => cases hr
    | ub => cases hr
  · rintro ⟨f, hf⟩ ⟨v, v1, v2, v3⟩ hd tail
    have hmk : ∀ r, makeTreeSpace H.fresh H.vector o.space.type r = .ok (r, none) := by
      intro r
      unfold makeTreeSpace
      rw [htype, if_neg (by decide), v1]
      dsimp only
      rw [if_pos v2, v3]
    have hn0 : Handles.get [] o.space.handle = none := rfl
    rw [hf, Out.bind_ok, hmk, Out.bind_ok, Handles.add_ok hn0, Out.bind_ok] at hout
    rw [key, ← hout, Out.bind_ok, hd, List.nil_append]
    unfold treeTunerTail objSpaceBytes objBytes
    simp only [List.append_assoc]
    rw [leb_width (by decide) (by decide) objectiveSpaceType 6#64 (by decide), (decodes_handle _).1, Out.bind_ok]

section
variable (h : StoredTreeTuner H P mem mem' g pdata o) (hb : ∀ x ∈ o.tuner.history, BelongsTo o (o.evals x)) {r : ReadTreeTuner}
  (hs : SameTreeTuner H P mem' g pdata o r) (hnull : 0#64 ∉ o.tuner.history)
  (hd : ∀ i j, i < o.tuner.history.length → j < o.tuner.history.length → (P.evalAt i).eval = (P.evalAt j).eval → i = j)
  (hd0 : ∀ i, (P.evalAt i).eval ≠ 0#64)
  {evals' : BitVec 64 → TreeEvalObj} (he' : ∀ e ∈ r.history, evals' e.handle = e)
  {spaces spaces' : BitVec 64 → ObjSpace} (hsp : spaces o.objectives.handle = o.objectives.space)
  (hsp' : spaces' P.objectives = r.objectives.1.space)

theorem treeFollowed (hs : SameTreeTuner H P mem' g pdata o r) {evals' : BitVec 64 → TreeEvalObj}
    (he' : ∀ e ∈ r.history, evals' e.handle = e) {x : BitVec 64} (hx : x ∈ o.tuner.history) :
    SameTreeEval P (P.evalAt (o.tuner.history.idxOf x)) (o.evals x) (evals' (followEval P o.tuner x)) := by
  have hl := List.idxOf_lt_length_of_mem hx
  obtain ⟨e, k1, k2⟩ := hs.evals (o.tuner.history.idxOf x) x (by rw [List.getElem?_eq_getElem hl, List.getElem_idxOf hl])
  have := he' e (List.mem_of_getElem? k1)
  rw [k2.handle] at this
  unfold followEval
  rw [this]
  exact k2

theorem treeFollow_inj
    (hd : ∀ i j, i < o.tuner.history.length → j < o.tuner.history.length → (P.evalAt i).eval = (P.evalAt j).eval → i = j)
    {x y : BitVec 64} (hx : x ∈ o.tuner.history) (hy : y ∈ o.tuner.history) : followEval P o.tuner x = followEval P o.tuner y ↔ x = y := by
  constructor
  · intro hxy
    have hlx := List.idxOf_lt_length_of_mem hx
    have hly := List.idxOf_lt_length_of_mem hy
    have := hd _ _ hlx hly hxy
    have h1 := List.getElem_idxOf hlx
    have h2 := List.getElem_idxOf hly
    rw [← h1, ← h2]
    simp only [this]
  · rintro rfl
    rfl

include h hb hs hnull hd hd0 he' hsp hsp'

/-- **C96** The tree tuner that came back sees the evaluations of its history as the one written did: same results, same
comparisons. -/
theorem C96_same_view (ops : FloatOps) (jen : Bytes → BitVec 32) (little : Bool) :
    SameView (· ∈ o.tuner.history) (followEval P o.tuner)
      (evalEnv ops jen little spaces fun x => (o.evals x).evaluation)
      (evalEnv ops jen little spaces' fun x => (evals' x).evaluation) where
  null x hx := ⟨fun h0 => absurd h0 (hd0 _), fun h0 => absurd hx (h0 ▸ hnull)⟩
  result x hx := (treeFollowed hs he' hx).result
  compare x y hx hy := by
    have kx := treeFollowed hs he' hx
    have ky := treeFollowed hs he' hy
    exact C90_same_comparison (evals := fun x => (o.evals x).evaluation) (evals' := fun x => (evals' x).evaluation) h.objectives.made
      hs.objectives.2.1 hs.objectives.1 h.objectives.honest hsp hsp' (treeFollow_inj hd hx hy)
      ⟨(hb x hx).objectives.1, kx.values, kx.result⟩ ⟨(hb y hy).objectives.1, ky.values, ky.result⟩

end

/-- **C96** The tree tuner that came back continues as the one written would: it lists the same optima and history, and when both are
told evaluations that the two processes see alike, they answer the same and stay the same. -/
theorem C96_same_continuation {r : ReadTreeTuner} (hs : SameTreeTuner H P mem' g pdata o r) :
    (∀ size count, r.tuner.getOptima size count = listing (o.tuner.optima.map (followEval P o.tuner)) size count) ∧
    (∀ size count, r.tuner.getHistory size count = listing (o.tuner.history.map (followEval P o.tuner)) size count) ∧
    ∀ {S : BitVec 64 → Prop} {f : BitVec 64 → BitVec 64} {env env' : TunerEnv}, SameView S f env env' → (∀ x ∈ o.tuner.optima, S x) →
      (∀ x ∈ o.tuner.history ++ o.tuner.optima, f x = followEval P o.tuner x) → ∀ es, (∀ e ∈ es, S e) →
      (r.tuner.tell env' (es.map f)).2 = (o.tuner.tell env es).2 ∧
      (r.tuner.tell env' (es.map f)).1.optima = (o.tuner.tell env es).1.optima.map f ∧
      (r.tuner.tell env' (es.map f)).1.history = (o.tuner.tell env es).1.history.map f := by
  refine ⟨fun size count => by rw [Tuner.getOptima, hs.optima], fun size count => by rw [Tuner.getHistory, hs.history], ?_⟩
  intro S f env env' hv ho hf es he
  have ht : r.tuner = movedTuner f o.tuner := by
    unfold movedTuner
    have h1 : o.tuner.history.map f = o.tuner.history.map (followEval P o.tuner) :=
      List.map_congr_left fun x hx => hf x (by simp [hx])
    have h2 : o.tuner.optima.map f = o.tuner.optima.map (followEval P o.tuner) :=
      List.map_congr_left fun x hx => hf x (by simp [hx])
    rw [h1, h2, ← hs.history, ← hs.optima]
  rw [ht, (tell_moved hv es o.tuner ho he).1]
  exact ⟨rfl, rfl, rfl⟩

/-- **C96** As long as it has optima, the tree tuner that came back suggests, on the same draw, the configuration of the
evaluation that took the place of the one the tuner written would have suggested. -/
theorem C96_same_suggestion {r : ReadTreeTuner} (hs : SameTreeTuner H P mem' g pdata o r) (s s' : TreeSource)
    (conf conf' : BitVec 64 → BitVec 64) (draw : BitVec 64) (rnd rnd' : Nat → F64) {e : BitVec 64}
    (he : o.tuner.optima[draw.toNat % o.tuner.optima.length]? = some e) :
    s.suggest conf o.tuner draw rnd = some (.ok (.known (conf e))) ∧
    s'.suggest conf' r.tuner draw rnd' = some (.ok (.known (conf' (followEval P o.tuner e)))) := by
  have hl : 0 < o.tuner.optima.length := by
    have := (List.getElem?_eq_some_iff.mp he).1
    omega
  constructor
  · unfold TreeSource.suggest
    rw [if_pos hl, he]
  · unfold TreeSource.suggest
    rw [hs.optima, List.length_map, if_pos hl, List.getElem?_map, he]
    rfl

end

/-! Instances: tree spaces over the example tree of `Props/Tree`, and tree tuners over them with the objectives of `Props/RunWire`. -/

/-- A new generator of the default type. -/
def exFresh : RngObj := ⟨[0x72#8], [0#8], []⟩

/-- A tree space over the example tree: static, or dynamic with a state. -/
def exTreeSpace (state : Option Bytes) (data : Bytes) : TreeSpaceObj := ⟨1000#64, [0x73#8], 90#64, exGen, 0, state, data⟩

theorem exTreeSpace_storable (state : Option Bytes) (data : Bytes) (hs : ∀ s, state = some s → s.length < 2 ^ 64)
    (hd : data.length < 2 ^ 64) : StorableTreeSpace ieee exGrove (exTreeSpace state data) where
  name := ⟨by simp [exTreeSpace], by simp [exTreeSpace]⟩
  rng := exGen_storable
  made := by rw [exGrove_trees]; exact exTree_grown
  root := by
    have : (exGrove.trees.node 0).isSome = true := by decide +kernel
    exact Option.isSome_iff_exists.mp this
  tree := exGrove_storable
  state := hs
  data := hd

/-- The hypotheses of the theorems of C93 are met: a static space whose generator is not a new one of the default type, and a dynamic
space with a state of two bytes. -/
example : StorableTreeSpace ieee exGrove (exTreeSpace none [5#8]) ∧ StorableTreeSpace ieee exGrove (exTreeSpace (some [7#8, 8#8]) [5#8]) ∧
    newGenerator exGens exGen.name = .ok [0#8, 0#8, 0#8, 0#8] ∧ GrownForest ieee (Grove.mk [] fun _ => []).trees ∧
    (exTreeSpace none [5#8]).rng ≠ exFresh ∧ Handles.get [] (exTreeSpace none [5#8]).handle = none :=
  ⟨exTreeSpace_storable _ _ (by simp) (by simp), exTreeSpace_storable _ _ (by simp) (by simp), by decide, .empty, by decide, rfl⟩

/-- A position of the example tree. -/
def exTreeConf (a s : BitVec 64) : TreeConfObj := ⟨a, ⟨s, [0#64, 1#64]⟩, [3#8]⟩

example : StorableTreeConf (exTreeConf 5000#64 1000#64) ∧
    FoundSpace [(1000#64, ⟨treeSpaceType, 7000#64, Ctx.empty⟩)] (exTreeConf 5000#64 1000#64).config.space (.ok 7000#64) :=
  ⟨⟨by simp [exTreeConf], by simp [exTreeConf]⟩, .found (x := ⟨treeSpaceType, 7000#64, Ctx.empty⟩) rfl rfl⟩

/-- The hypotheses of `C94_huge_position`: 2^61 indexes announced, and one given. -/
example : ∃ bs, WritesBytes (serObj treeConfigurationType 5#64 ⨟ serHandle 6#64 ⨟ serSize (2 ^ 61) ⨟
    Wr.all (fun i => serSize i.toNat) [1#64]) bs ∧ [1#64].length = 2 ^ 61 % 2 ^ 61 + 1 :=
  ⟨_, writes_seq (writes_obj _ _) (writes_seq (writes_handle _) (writes_seq (writes_size _)
    (writes_all (g := fun i => lebBytes (BitVec.ofNat 64 i.toNat)) _ fun _ _ => writes_size _))), by decide⟩

/-- The tree evaluation at address `x`.  From 4100 on its configuration is of another tree space. -/
def exTreeEval (x : BitVec 64) : TreeEvalObj :=
  ⟨x, ⟨2000#64, [exInt (x &&& 7#64) false]⟩, exTreeConf (x + 1000#64) (if x.toNat < 4100 then 1000#64 else 1001#64), 0#32, [1#8]⟩

theorem exTreeEval_storable (x : BitVec 64) : StorableTreeEval (exTreeEval x) where
  binding := ⟨by simp [exTreeEval], by simp [exTreeEval, exInt, StorableValue]⟩
  configuration := ⟨by simp [exTreeEval, exTreeConf], by simp [exTreeEval, exTreeConf]⟩
  data := by simp [exTreeEval]

/-- A process that reads tree tuners. -/
def exTreeHost (vector : Option TreeVector) : TreeHost := ⟨ieee, exJen, true, exGens, exFresh, vector, ⟨[], fun _ => []⟩⟩

/-- What the tree tuners see. -/
def exTreeEnv : TunerEnv := evalEnv ieee exJen true (fun _ => exTargets 301#64) fun x => (exTreeEval x).evaluation

/-- The tree tuner told the evaluations `es`. -/
def exTreeTuner (state : Option Bytes) (data : Bytes) (es : List (BitVec 64)) : TreeTunerObj :=
  ⟨6000#64, [0x74#8], exTreeSpace state data, exTargetObj 301#64, Tuner.empty.tells [(exTreeEnv, es)], exTreeEval, [7#8]⟩

theorem exTreeTuner_stored (vector : Option TreeVector) (state : Option Bytes) (data : Bytes) (es : List (BitVec 64))
    (hs : ∀ s, state = some s → s.length < 2 ^ 64) (hd : data.length < 2 ^ 64)
    (hsz : (Tuner.empty.tells [(exTreeEnv, es)]).history.length + (Tuner.empty.tells [(exTreeEnv, es)]).optima.length < 2 ^ 64) :
    StoredTreeTuner (exTreeHost vector) exPlacesOf exMem exMem' exGrove exPdata (exTreeTuner state data es) where
  name := ⟨by simp [exTreeTuner], by simp [exTreeTuner]⟩
  data := by simp [exTreeTuner]
  space := exTreeSpace_storable state data hs hd
  room := .empty
  objectives := exTargetObj_stored _
  objAddrs := by
    show (writtenIn (exTargetObj 301#64).space).Nodup
    rw [exTargets_written]
    decide
  objPlaces := exLays (by decide) (by decide) (exTargets_get _).1
  spaces := by simp [exTreeTuner, exTreeSpace, exTargetObj]
  evals x _ := ⟨rfl, exTreeEval_storable x⟩
  made := ⟨_, rfl⟩
  size := hsz

theorem exTreeEval_belongs (state : Option Bytes) (data : Bytes) (es : List (BitVec 64)) {x : BitVec 64} (hx : x.toNat < 4100) :
    BelongsTo (exTreeTuner state data es) (exTreeEval x) where
  configuration := by
    unfold exTreeEval exTreeConf
    dsimp only
    rw [if_pos hx]
    rfl
  objectives := by
    refine ⟨rfl, noStrings ?_ (by simp [exInt])⟩
    show 1 = (exTargets 301#64).ctx.params.length
    rw [(exTargets_get _).1]
    rfl

theorem exTreeTuner_told : Tuner.empty.tells [(exTreeEnv, [4001#64, 4002#64, 4003#64])] =
    ⟨[4001#64, 4002#64, 4003#64], [4001#64, 4002#64, 4003#64]⟩ := by decide +kernel

/-- The hypotheses of `C96_round_trip_partial` are met by a tree tuner with three evaluations. -/
example : StoredTreeTuner (exTreeHost none) exPlacesOf exMem exMem' exGrove exPdata (exTreeTuner none [5#8] [4001#64, 4002#64, 4003#64]) ∧
    (exTreeTuner none [5#8] [4001#64, 4002#64, 4003#64]).space.state = none ∧
    newGenerator (exTreeHost none).gens exGen.name = .ok [0#8, 0#8, 0#8, 0#8] ∧
    (∀ x ∈ (exTreeTuner none [5#8] [4001#64, 4002#64, 4003#64]).tuner.history,
      BelongsTo (exTreeTuner none [5#8] [4001#64, 4002#64, 4003#64]) ((exTreeTuner none [5#8] [4001#64, 4002#64, 4003#64]).evals x)) ∧
    ([1000#64, 2000#64] ++ (exTreeTuner none [5#8] [4001#64, 4002#64, 4003#64]).tuner.history).Nodup ∧
    0#64 ∉ (exTreeTuner none [5#8] [4001#64, 4002#64, 4003#64]).tuner.history := by
  have ht : (exTreeTuner none [5#8] [4001#64, 4002#64, 4003#64]).tuner = ⟨[4001#64, 4002#64, 4003#64], [4001#64, 4002#64, 4003#64]⟩ :=
    exTreeTuner_told
  refine ⟨exTreeTuner_stored _ _ _ _ (by simp) (by simp) (by rw [exTreeTuner_told]; decide), rfl, by decide, fun x hx => ?_, ?_, ?_⟩
  · rw [ht] at hx
    refine exTreeEval_belongs _ _ _ ?_
    simp only [List.mem_cons, List.not_mem_nil, or_false] at hx
    rcases hx with rfl | rfl | rfl <;> decide
  · rw [ht]
    decide
  · rw [ht]
    decide

/-- The hypotheses of `C96_told_twice_refused` and `C96_foreign_refused`. -/
example : ¬ ([1000#64, 2000#64] ++ (exTreeTuner none [] [4001#64, 4002#64, 4001#64]).tuner.history).Nodup ∧
    (exTreeTuner none [] [4001#64, 4102#64]).tuner.history = [4001#64] ++ 4102#64 :: [] ∧
    ([1000#64, 2000#64] ++ [4001#64]).Nodup ∧ (exTreeEval 4102#64).configuration.config.space ∉ [1000#64, 2000#64] ++ [4001#64] := by
  have h1 : Tuner.empty.tells [(exTreeEnv, [4001#64, 4002#64, 4001#64])] = ⟨[4001#64, 4002#64, 4001#64], [4001#64, 4002#64]⟩ := by
    decide +kernel
  have h2 : Tuner.empty.tells [(exTreeEnv, [4001#64, 4102#64])] = ⟨[4001#64, 4102#64], [4001#64, 4102#64]⟩ := by decide +kernel
  have ht : (exTreeTuner none [] [4001#64, 4002#64, 4001#64]).tuner = ⟨[4001#64, 4002#64, 4001#64], [4001#64, 4002#64]⟩ := h1
  refine ⟨?_, congrArg Tuner.history h2, by decide, by decide⟩
  rw [ht]
  decide

/-- The hypotheses of `C96_dynamic_unreadable`: a tree tuner over a dynamic tree space, read with the callbacks it needs. -/
example : StoredTreeTuner (exTreeHost (some ⟨true, none⟩)) exPlacesOf exMem exMem' exGrove exPdata
      (exTreeTuner (some [7#8, 8#8]) [] [4001#64, 4002#64, 4003#64]) ∧
    (exTreeTuner (some [7#8, 8#8]) [] [4001#64, 4002#64, 4003#64]).space.data.length ≠ 6 :=
  ⟨exTreeTuner_stored _ _ _ _ (by simp) (by simp) (by rw [exTreeTuner_told]; decide), by simp [exTreeTuner, exTreeSpace]⟩

/-- The hypotheses of `C95_round_trip_partial` and `C95_grown_refused`. -/
example : StorableTreeEval (exTreeEval 4001#64) ∧ FitsSpace (exTargets 301#64).ctx (exTreeEval 4001#64).binding ∧
    (exTargets 301#64).ctx.params.length < 2 ^ 32 ∧ (exTreeEval 4001#64).binding.values ≠ [] ∧
    (exTreeEval 4001#64).binding.values.length ≠ exCtx.params.length := by
  refine ⟨exTreeEval_storable _, (exTreeEval_belongs none [] [] (by decide)).objectives.2, ?_, by simp [exTreeEval], ?_⟩
  · rw [(exTargets_get _).1]
    decide
  · show 1 ≠ exCtx.params.length
    decide

end CCS.Props
