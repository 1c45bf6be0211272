import Verif.Lemmas.RunWire
import Verif.Lemmas.SpaceTwin
import Verif.Props.Evaluation

/-! Helper lemmas about the serialization of features spaces and objective spaces. -/

namespace CCS

open Spec

/-! ### Contexts -/

theorem obj_grown {mem : BitVec 64 → Param} {s : ObjSpace} (h : ObjReachable mem s) : Grown mem s.ctx := by
  have one : ∀ (s : ObjSpace) (o : Objective), (s.addObjective o).1.ctx = s.ctx := by
    intro s o
    unfold ObjSpace.addObjective
    split <;> rfl
  have many : ∀ (os : List Objective) (s : ObjSpace), (s.addObjectives os).1.ctx = s.ctx := by
    intro os
    induction os with
    | nil => intro s; rfl
    | cons o os ih =>
      intro s
      have h1 := one s o
      unfold ObjSpace.addObjectives
      split
      next s' hs => rw [ih, ← h1, hs]
      next s' e hs => rw [← h1, hs]
      next s' hs => rw [← h1, hs]
  induction h with
  | empty => exact .empty
  | parameter h _ ih => exact .add h ih
  | objective _ _ ih => rw [one]; exact ih
  | objectives _ _ ih => rw [many]; exact ih

theorem grown_obj {mem : BitVec 64 → Param} {c : Ctx} (h : Grown mem c) : ObjReachable mem ⟨c, []⟩ := by
  induction h with
  | empty => exact .empty
  | @add c h _ ih => exact .parameter h ih

/-- The parameters `ps` placed from position `i` on. -/
def placeFrom (paramAt : Nat → BitVec 64) (i : Nat) (ps : List Param) : List (BitVec 64 × Param) :=
  (ps.zipIdx i).map fun x => (paramAt x.2, x.1)

theorem addRead_ok {mem : BitVec 64 → Param} {paramAt : Nat → BitVec 64} : ∀ (ps : List Param) (i : Nat) (c : Ctx), Grown mem c →
    (∀ (j : Nat) p, ps[j]? = some p → mem (paramAt (i + j)) = p) → (c.params.map (·.2.name) ++ ps.map (·.name)).Nodup →
    ∃ c', addRead paramAt i c ps = .ok c' ∧ Grown mem c' ∧ c'.params = c.params ++ placeFrom paramAt i ps
  | [], i, c, hg, _, _ => ⟨c, rfl, hg, by simp [placeFrom]⟩
  | p :: ps, i, c, hg, hm, hn => by
    have hp : mem (paramAt i) = p := hm 0 p rfl
    have ht := (grown_table hg).1
    have hfree : ¬ (c.entries.any fun e => decide (e.name = p.name)) = true := by
      intro hex
      obtain ⟨e, he, hname⟩ := List.any_eq_true.mp hex
      obtain ⟨k, hk, rfl⟩ := List.mem_iff_getElem.mp he
      obtain ⟨h, q, hq, heq⟩ := ht.of_entry (List.getElem?_eq_getElem hk)
      rw [heq] at hname
      rw [List.nodup_append] at hn
      refine hn.2.2 q.name (List.mem_map.mpr ⟨(h, q), List.mem_of_getElem? hq, rfl⟩) p.name (by simp) ?_
      simpa using hname
    have hadd : c.add (fun _ => p) (paramAt i) = c.add mem (paramAt i) := by simp [Ctx.add, hp]
    have hval : c.add mem (paramAt i) = (⟨c.entries ++ [⟨paramAt i, p.name, c.params.length⟩], c.params ++ [(paramAt i, p)]⟩, .ok ()) := by
      rw [← hadd, Ctx.add, if_neg hfree]
    have hg' : Grown mem (c.add mem (paramAt i)).1 := .add _ hg
    rw [hval] at hg'
    obtain ⟨c', h1, h2, h3⟩ := addRead_ok ps (i + 1) _ hg' (fun j q hq => by
      have := hm (j + 1) q (by simpa using hq)
      rwa [show i + 1 + j = i + (j + 1) by omega]) (by simpa using hn)
    refine ⟨c', ?_, h2, ?_⟩
    · rw [addRead, hadd, hval]
      exact h1
    · rw [h3]
      simp [placeFrom, List.zipIdx_cons]

theorem placeFrom_get (paramAt : Nat → BitVec 64) (ps : List Param) (i : Nat) :
    (placeFrom paramAt 0 ps)[i]? = (ps[i]?).map fun p => (paramAt i, p) := by
  simp [placeFrom, List.getElem?_zipIdx, Option.map_map]
  cases ps[i]? <;> rfl

theorem addRead_same {mem mem' : BitVec 64 → Param} {paramAt : Nat → BitVec 64} {c : Ctx} (hg : Grown mem c) (hl : Lays paramAt mem' c) :
    ∃ c', addRead paramAt 0 Ctx.empty (c.params.map (·.2)) = .ok c' ∧ Grown mem' c' ∧ SameParams paramAt c c' := by
  obtain ⟨ht, -⟩ := grown_table hg
  obtain ⟨c', h1, h2, h3⟩ := addRead_ok (mem := mem') (paramAt := paramAt) (c.params.map (·.2)) 0 Ctx.empty .empty (fun j p hp => by
      rw [List.getElem?_map, Option.map_eq_some_iff] at hp
      obtain ⟨⟨h, q⟩, hq, rfl⟩ := hp
      rw [Nat.zero_add]
      exact hl.placed j h q hq) (by simpa [Ctx.empty, Function.comp_def] using ht.names)
  refine ⟨c', h1, h2, ?_, fun i h p hp => ?_⟩
  · rw [h3]; simp [placeFrom, Ctx.empty]
  · unfold Holds at hp ⊢
    rw [h3, show Ctx.empty.params = [] from rfl, List.nil_append, placeFrom_get, List.getElem?_map, hp]
    rfl

theorem SameParams_params {paramAt : Nat → BitVec 64} {c c' : Ctx} (h : SameParams paramAt c c') :
    c'.params.map (·.2) = c.params.map (·.2) := by
  refine List.ext_getElem? fun i => ?_
  rw [List.getElem?_map, List.getElem?_map]
  cases hi : c.params[i]? with
  | none =>
    have : c'.params[i]? = none := by
      rw [List.getElem?_eq_none_iff] at hi ⊢
      rw [h.length]; exact hi
    rw [this]
  | some x =>
    obtain ⟨a, p⟩ := x
    have := h.params i a p hi
    rw [this]
    rfl

/-! ### Features spaces -/

/-- Bytes of the parameters of a space. -/
def ctxBytes (pdata : BitVec 64 → Bytes) (c : Ctx) : Bytes := c.params.flatMap fun x => paramBytes x.2 x.1 (pdata x.1)

/-- Bytes of a features space. -/
def featSpaceBytes (pdata : BitVec 64 → Bytes) (o : FeatSpaceObj) : Bytes :=
  objBytes featuresSpaceType o.handle ++ ((strBytes o.name ++ (lebBytes (BitVec.ofNat 64 o.ctx.params.length) ++ ctxBytes pdata o.ctx)) ++
    blobBytes o.data)

section
variable {ops : FloatOps} {jen : Bytes → BitVec 32} {little : Bool} {mem mem' : BitVec 64 → Param} {pdata : BitVec 64 → Bytes}

theorem writes_featSpace {o : FeatSpaceObj} (h : StoredFeatSpace ops jen little mem pdata o) :
    WritesBytes (serFeatSpace little pdata o) (featSpaceBytes pdata o) :=
  writes_seq (writes_obj _ _) (writes_seq (writes_seq (writes_string _) (writes_seq (writes_size _)
    (writes_all _ fun x hx => (param_facts (h.params x hx).1 little x.1 (h.params x hx).2).1))) (writes_userData _))

theorem szParams_eq {c : Ctx} (h : StorableParams ops jen little pdata c) :
    szAll (fun p : BitVec 64 × Param => szParam p.2 p.1 (pdata p.1)) c.params = .ok (ctxBytes pdata c).length :=
  szAll_eq fun x hx => (param_facts (h x hx).1 little x.1 (h x hx).2).2.1

theorem length_featSpace {o : FeatSpaceObj} (h : StoredFeatSpace ops jen little mem pdata o) :
    szFeatSpace pdata o = .ok (featSpaceBytes pdata o).length := by
  rw [szFeatSpace, szParams_eq h.params, Out.bind_ok, featSpaceBytes]
  simp only [List.length_append, length_obj, length_string, length_size, length_userData]
  congr 1
  omega

/-- What is read of the parameters of a space. -/
def ctxItems (pdata : BitVec 64 → Bytes) (c : Ctx) : List (BitVec 64 × Param × Bytes) := c.params.map fun x => (x.1, x.2, pdata x.1)

theorem readsAs_featSpace (little' : Bool) {paramAt : Nat → BitVec 64} {o : FeatSpaceObj} (h : StoredFeatSpace ops jen little mem pdata o)
    (hl : Lays paramAt mem' o.ctx) (m : Handles) (addr : BitVec 64) :
    ∃ c', Grown mem' c' ∧ SameParams paramAt o.ctx c' ∧
      ReadsAs (deFeatSpace ops jen little' paramAt m addr) (featSpaceBytes pdata o)
        (m.add o.handle ⟨featuresSpaceType, addr, c'⟩ >>= fun m' =>
          .ok (m', ⟨addr, o.name, c', o.data⟩, o.ctx.params.map fun x => pdata x.1)) := by
  obtain ⟨c', h1, h2, h3⟩ := addRead_same h.made hl
  refine ⟨c', h2, h3, ?_⟩
  unfold deFeatSpace featSpaceBytes
  refine readsAs_step (decodes_obj _ _).1 (readsAs_pass (by simp) ?_)
  simp only [List.append_assoc]
  have hsz := h.size
  refine readsAs_step (decodes_string h.name.1 h.name.2).1 (readsAs_step (decodes_size (by omega)).1 ?_)
  have ht : ReadsBack ((deParam ops jen little').times o.ctx.params.length) (ctxBytes pdata o.ctx) (ctxItems pdata o.ctx) :=
    reads_times' _ fun x hx => (param_facts (h.params x hx).1 little' x.1 (h.params x hx).2).2.2
  refine readsAs_step ht ?_
  have hi : (ctxItems pdata o.ctx).map (·.2.1) = o.ctx.params.map (·.2) := by simp [ctxItems, Function.comp_def]
  have hi2 : (ctxItems pdata o.ctx).map (·.2.2) = o.ctx.params.map fun x => pdata x.1 := by simp [ctxItems, Function.comp_def]
  rw [hi, h1, hi2]
  refine readsAs_lift_ok ?_
  exact readsAs_lift_bind fun m' _ => readsAs_ok (reads_bind_pure (reads_userData h.data) rfl)

/-! ### Objective spaces -/

/-- The parameters of a space as those of a configuration space. -/
def asSpace (c : Ctx) : Space := ⟨c.params.map fun x => ⟨x.1, x.2, 0, 0, none, [], []⟩, [], [], 0, [], true, []⟩

/-- Objects with given user data. -/
def asHeap (pdata : BitVec 64 → Bytes) : Heap := ⟨pdata, fun _ => .multivariate [] [], fun _ _ => 0#64⟩

theorem asSpace_handles (c : Ctx) : (asSpace c).handles = c.params.map (·.1) := by
  simp [asSpace, Space.handles, Function.comp_def]

theorem asSpace_items (c : Ctx) : paramItems (asHeap pdata) (asSpace c).params = ctxItems pdata c := by
  simp [paramItems, asSpace, ctxItems, asHeap, Function.comp_def]

theorem asSpace_follow (paramAt : Nat → BitVec 64) (c : Ctx) : follow paramAt (asSpace c) = followIn paramAt c := by
  funext h
  unfold follow followIn
  rw [asSpace_handles]
  simp only [asSpace, List.getElem?_map, Option.map_map, Function.comp_def]

theorem readsAs_ctx (little' : Bool) {c : Ctx} (h : StorableParams ops jen little pdata c) (seen : List (BitVec 64)) :
    ReadsAs (deParams ops jen little' c.params.length seen) (ctxBytes pdata c)
      (claimAll seen (c.params.map (·.1)) >>= fun s => .ok (s, ctxItems pdata c)) := by
  have := readsAs_params (ops := ops) (jen := jen) (little := little) little' (asHeap pdata) (asSpace c).params seen (by
    intro w hw
    obtain ⟨x, hx, rfl⟩ := List.mem_map.mp hw
    exact h x hx)
  rw [asSpace_items, show (asSpace c).params.map (·.handle) = (asSpace c).handles from rfl, asSpace_handles] at this
  have hb : paramsBytes (asHeap pdata) (asSpace c).params = ctxBytes pdata c := by
    simp [paramsBytes, asSpace, ctxBytes, asHeap, List.flatMap_map]
  rw [hb] at this
  have hlen : (asSpace c).params.length = c.params.length := by simp [asSpace]
  rwa [hlen] at this

/-- Bytes of an objective. -/
def objectiveBytes (o : Objective) : Bytes := exprBytes o.expression ++ lebBytes o.type

/-- Bytes of an objective space. -/
def objSpaceBytes (pdata : BitVec 64 → Bytes) (o : ObjSpaceObj) : Bytes :=
  objBytes objectiveSpaceType o.handle ++ ((strBytes o.name ++ (lebBytes (BitVec.ofNat 64 o.space.ctx.params.length) ++
    (lebBytes (BitVec.ofNat 64 o.space.objectives.length) ++ (ctxBytes pdata o.space.ctx ++
      o.space.objectives.flatMap objectiveBytes)))) ++ blobBytes o.data)

theorem readable_objective {o : ObjSpaceObj} (h : StoredObjSpace ops jen little mem pdata o) {x : Objective}
    (hx : x ∈ o.space.objectives) : ReadableExpr (asSpace o.space.ctx) x.expression := by
  obtain ⟨hb, hk⟩ := Props.objectives_known h.made x hx
  refine ⟨hb, h.objectives x hx, fun y hy => ?_⟩
  rw [asSpace_handles]
  exact Props.objKnown_iff.mp hk y hy

theorem writes_objSpace {o : ObjSpaceObj} (h : StoredObjSpace ops jen little mem pdata o) :
    WritesBytes (serObjSpace little pdata o) (objSpaceBytes pdata o) := by
  refine writes_seq (writes_obj _ _) (writes_seq (writes_seq (writes_string _) (writes_seq (writes_size _) (writes_seq (writes_size _)
    (writes_seq (writes_all _ fun x hx => (param_facts (h.params x hx).1 little x.1 (h.params x hx).2).1) ?_)))) (writes_userData _))
  refine writes_all _ fun x hx => writes_seq ?_ (writes_enum _)
  obtain ⟨m, f, hs⟩ := (readable_objective h hx).some_storable
  exact writes_expr little _ hs

theorem length_objSpace {o : ObjSpaceObj} (h : StoredObjSpace ops jen little mem pdata o) :
    szObjSpace pdata o = .ok (objSpaceBytes pdata o).length := by
  rw [szObjSpace, szParams_eq h.params, Out.bind_ok, szAll_eq (g := objectiveBytes) ?_, Out.bind_ok, objSpaceBytes]
  · simp only [List.length_append, length_obj, length_string, length_size, length_userData]
    congr 1
    omega
  · intro x hx
    obtain ⟨m, f, hs⟩ := (readable_objective h hx).some_storable
    rw [szObjective, length_expr _ hs, Out.bind_ok, objectiveBytes, List.length_append, length_leb]
    rfl

theorem readsAs_objectives {paramAt : Nat → BitVec 64} (h0 : ∀ i, paramAt i ≠ 0#64) (little' : Bool) (c : Ctx) :
    ∀ (os : List Objective) (seen : List (BitVec 64)), (∀ o ∈ os, ReadableExpr (asSpace c) o.expression) →
    ReadsAs (deObjectives little' (spaceMap paramAt (ctxItems pdata c)) os.length seen) (os.flatMap objectiveBytes)
      (claimAll seen (os.map (·.expression.info.handle)) >>= fun _ =>
        .ok (os.map fun o => ⟨relabel (followIn paramAt c) o.expression, o.type⟩))
  | [], seen, _ => readsAs_ok (reads_pure _)
  | o :: os, seen, h => by
    have hc := h o (by simp)
    obtain ⟨m, hm⟩ : ∃ m, spaceMap paramAt (paramItems (asHeap pdata) (asSpace c).params) seen = some m := ⟨_, rfl⟩
    have hr := reads_expr little' o.expression hc.built (hc.storable h0 hm)
    rw [← hm, asSpace_items, asSpace_follow] at hr
    rw [List.length_cons, deObjectives, List.map_cons, claimAll, List.flatMap_cons, objectiveBytes, List.append_assoc]
    have ho := readsAs_objectives h0 little' c os (o.expression.info.handle :: seen) fun x hx => h x (by simp [hx])
    have : (if seen.contains o.expression.info.handle = true then Out.ub else
          claimAll (o.expression.info.handle :: seen) (os.map (·.expression.info.handle))) >>=
        (fun _ => Out.ok ((o :: os).map fun o => (⟨relabel (followIn paramAt c) o.expression, o.type⟩ : Objective))) =
        if seen.contains o.expression.info.handle = true then Out.ub else
        ((claimAll (o.expression.info.handle :: seen) (os.map (·.expression.info.handle)) >>= fun _ =>
          Out.ok (os.map fun o => (⟨relabel (followIn paramAt c) o.expression, o.type⟩ : Objective))) >>=
          fun r => Out.ok (⟨relabel (followIn paramAt c) o.expression, o.type⟩ :: r)) := by
      split
      · rfl
      · cases claimAll (o.expression.info.handle :: seen) (os.map (·.expression.info.handle)) <;> rfl
    rw [this]
    refine readsAs_claimed (readsAs_step hr (readsAs_step (decodes_enum _).1 ?_))
    rw [← List.append_nil (os.flatMap objectiveBytes)]
    exact readsAs_bind ho fun x _ => readsAs_ok (reads_pure _)

theorem followIn_get (paramAt : Nat → BitVec 64) {c : Ctx} (ht : Table c) {i : Nat} {h : BitVec 64} {p : Param} (hp : Holds c i h p) :
    followIn paramAt c h = (paramAt i, p) := by
  have hi : (c.params.map (·.1))[i]? = some h := by rw [List.getElem?_map, hp]; rfl
  have hidx : (c.params.map (·.1)).idxOf h = i := by
    obtain ⟨hlt, he⟩ := List.getElem?_eq_some_iff.mp hi
    have hm : h ∈ c.params.map (·.1) := List.mem_of_getElem? hi
    have hlt' := List.idxOf_lt_length_of_mem hm
    have hg := List.getElem_idxOf hlt'
    exact nodup_index ht.handles hlt' (by rw [List.getElem?_eq_getElem hlt', hg, hi])
  unfold followIn
  rw [hidx, hp]
  rfl

theorem addObjectives_read {mem : BitVec 64 → Param} {paramAt : Nat → BitVec 64} (h0 : ∀ i, paramAt i ≠ 0#64)
    {s : ObjSpace} (hr : ObjReachable mem s) {c' : Ctx} (hc : SameParams paramAt s.ctx c') :
    afterAdd (ObjSpace.addObjectives ⟨c', []⟩ (s.objectives.map fun o => ⟨relabel (followIn paramAt s.ctx) o.expression, o.type⟩)) =
      .ok ⟨c', s.objectives.map fun o => ⟨relabel (followIn paramAt s.ctx) o.expression, o.type⟩⟩ ∧
    ∀ o ∈ s.objectives, Built (relabel (followIn paramAt s.ctx) o.expression) := by
  have ht := (grown_table (obj_grown hr)).1
  have hk := Props.objectives_known hr
  have hb : ∀ o ∈ s.objectives, Built (relabel (followIn paramAt s.ctx) o.expression) :=
    fun o ho => built_relabel (fun x => h0 _) (hk o ho).1
  have key : ∀ (os done : List Objective), (∀ o ∈ os, o ∈ s.objectives) →
      (ObjSpace.addObjectives ⟨c', done⟩ (os.map fun o => ⟨relabel (followIn paramAt s.ctx) o.expression, o.type⟩)) =
      (⟨c', done ++ os.map fun o => ⟨relabel (followIn paramAt s.ctx) o.expression, o.type⟩⟩, .ok ()) := by
    intro os
    induction os with
    | nil => intro done _; simp [ObjSpace.addObjectives]
    | cons o os ih =>
      intro done hs
      have ho := hs o (by simp)
      rw [List.map_cons, ObjSpace.addObjectives]
      rw [(Props.C81_add_objective ⟨c', done⟩ ⟨relabel (followIn paramAt s.ctx) o.expression, o.type⟩ (hb o ho)).1 ?_]
      · dsimp only
        rw [ih _ fun x hx => hs x (by simp [hx])]
        simp
      · intro x hx
        obtain ⟨y, hy, rfl⟩ := occurs_relabel hx
        obtain ⟨i, p, hp⟩ := (hk o ho).2 y hy
        rw [followIn_get paramAt ht hp]
        exact ⟨i, p, hc.params i y p hp⟩
  refine ⟨?_, hb⟩
  rw [key s.objectives [] fun o ho => ho]
  rfl

theorem readsAs_objSpace (little' : Bool) {paramAt : Nat → BitVec 64} {o : ObjSpaceObj} (h : StoredObjSpace ops jen little mem pdata o)
    (hl : Lays paramAt mem' o.space.ctx) (m : Handles) (addr : BitVec 64) :
    ∃ s', ObjReachable mem' s' ∧ ObjTwin paramAt o.space s' ∧
      ReadsAs (deObjSpace ops jen little' paramAt m addr) (objSpaceBytes pdata o) (do
        let _ ← claimAll [] (writtenIn o.space)
        let m' ← m.add o.handle ⟨objectiveSpaceType, addr, s'.ctx⟩
        .ok (m', ⟨addr, o.name, s', o.data⟩, o.space.ctx.params.map fun x => pdata x.1)) := by
  obtain ⟨c', h1, h2, h3⟩ := addRead_same (obj_grown h.made) hl
  obtain ⟨h4, h5⟩ := addObjectives_read hl.nonnull h.made h3
  have hreach : ObjReachable mem' ⟨c', o.space.objectives.map fun x => ⟨relabel (followIn paramAt o.space.ctx) x.expression, x.type⟩⟩ := by
    have := ObjReachable.objectives (grown_obj h2)
      (os := o.space.objectives.map fun x => ⟨relabel (followIn paramAt o.space.ctx) x.expression, x.type⟩) (by
        intro x hx
        obtain ⟨y, hy, rfl⟩ := List.mem_map.mp hx
        exact h5 y hy)
    unfold afterAdd at h4
    split at h4
    · rw [Out.ok.inj h4] at this; exact this
    · cases h4
    · cases h4
  refine ⟨_, hreach, ⟨h3, rfl⟩, ?_⟩
  unfold deObjSpace objSpaceBytes
  refine readsAs_step (decodes_obj _ _).1 (readsAs_pass (by simp) ?_)
  simp only [List.append_assoc]
  have hsz := h.size
  refine readsAs_step (decodes_string h.name.1 h.name.2).1 (readsAs_step (decodes_size (by omega)).1
    (readsAs_step (decodes_size (by omega)).1 ?_))
  rw [if_neg (by omega)]
  have e1 : ∀ {β : Type} (g : Out β), (claimAll [] (writtenIn o.space) >>= fun _ => g) =
      (claimAll [] (o.space.ctx.params.map (·.1)) >>= fun s => Out.ok (s, ctxItems pdata o.space.ctx)) >>= fun ps =>
      (claimAll ps.1 (o.space.objectives.map (·.expression.info.handle)) >>= fun _ =>
        Out.ok (o.space.objectives.map fun x => (⟨relabel (followIn paramAt o.space.ctx) x.expression, x.type⟩ : Objective))) >>=
      fun _ => g := by
    intro β g
    rw [writtenIn, claimAll_append, bind_bind, bind_bind]
    congr 1
    funext s
    rw [Out.bind_ok, bind_bind]
    rfl
  rw [e1]
  refine readsAs_bind (readsAs_ctx little' h.params []) fun ps hps => ?_
  have hp2 : ps.2 = ctxItems pdata o.space.ctx := by
    obtain ⟨_, -, hps⟩ := bind_eq_ok hps
    rw [← Out.ok.inj hps]
  rw [hp2]
  refine readsAs_bind (readsAs_objectives hl.nonnull little' o.space.ctx o.space.objectives ps.1 fun x hx => readable_objective h hx)
    fun os hos => ?_
  obtain ⟨_, -, hos⟩ := bind_eq_ok hos
  obtain rfl := Out.ok.inj hos
  have hi : (ctxItems pdata o.space.ctx).map (·.2.1) = o.space.ctx.params.map (·.2) := by simp [ctxItems, Function.comp_def]
  have hi2 : (ctxItems pdata o.space.ctx).map (·.2.2) = o.space.ctx.params.map fun x => pdata x.1 := by simp [ctxItems, Function.comp_def]
  rw [hi, h1, hi2]
  refine readsAs_lift_ok ?_
  rw [h4]
  exact readsAs_lift_ok (readsAs_lift_bind fun m' _ => readsAs_ok (reads_bind_pure (reads_userData h.data) rfl))

end
end CCS
