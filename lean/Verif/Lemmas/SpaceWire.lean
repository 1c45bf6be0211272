import Verif.Spec.SpaceWire
import Verif.Lemmas.DistRestore
import Verif.Lemmas.ExprWire
import Verif.Lemmas.SpaceClause
import Verif.Props.Param

/-! Helper lemmas about the serialization of configuration spaces: what is read. -/

namespace CCS

open Spec

theorem writes_unique {w : Wr} {b c : Bytes} (hb : WritesBytes w b) (hc : WritesBytes w c) : b = c := by
  have h1 := hb ⟨[], b.length + c.length⟩
  have h2 := hc ⟨[], b.length + c.length⟩
  rw [if_pos (by simp)] at h1 h2
  rw [h1] at h2
  have := Out.ok.inj h2
  simpa using congrArg WBuf.data this

/-! ### Generators -/

/-- Bytes of a generator. -/
def rngBytes (little : Bool) (h : BitVec 64) (r : RngObj) : Bytes :=
  objBytes rngType h ++ ((strBytes r.name ++ (lebBytes (littleCode little) ++ blobBytes r.state)) ++ blobBytes r.data)

theorem writes_rng (little : Bool) (h : BitVec 64) (r : RngObj) : WritesBytes (serRng little h r) (rngBytes little h r) :=
  writes_seq (writes_obj _ _) (writes_seq (writes_seq (writes_string _) (writes_seq (writes_bool _) (writes_blob _)))
    (writes_userData _))

theorem length_rng (little : Bool) (h : BitVec 64) (r : RngObj) : (rngBytes little h r).length = szRng little h r := by
  simp only [rngBytes, szRng, List.length_append, length_obj, length_string, length_leb, length_blob, szBool]
  unfold szUserData szBlob
  omega

theorem littleCode_inj (a b : Bool) : littleCode a = littleCode b ↔ a = b := by cases a <;> cases b <;> decide

theorem readsAs_rng (little little' : Bool) (gens : List (Bytes × Bytes)) (h : BitVec 64) {r : RngObj} (hr : StorableRng r) :
    ReadsAs (deRng little' gens) (rngBytes little h r)
      (newGenerator gens r.name >>= fun fresh => .ok (h, ⟨r.name,
        if little = little' ∧ r.state.length = fresh.length then r.state else fresh, r.data⟩)) := by
  unfold deRng rngBytes
  refine readsAs_step (decodes_obj _ _).1 (readsAs_pass (by simp) ?_)
  rw [List.append_assoc, List.append_assoc]
  refine readsAs_step (decodes_string hr.name.1 hr.name.2).1 (readsAs_step (decodes_bool _).1
    (readsAs_step (decodes_blob hr.state).1 ?_))
  rw [← List.nil_append (blobBytes r.data)]
  refine readsAs_bind (readsAs_lift _) fun fresh _ => ?_
  refine readsAs_ok (reads_bind_pure (reads_userData hr.data) ?_)
  unfold restoreState
  simp only [littleCode_inj, and_comm]

/-! ### Claims -/

/-- Claim addresses one after the other. -/
def claimAll : List (BitVec 64) → List (BitVec 64) → Out (List (BitVec 64))
  | seen, [] => .ok seen
  | seen, h :: hs => if seen.contains h then .ub else claimAll (h :: seen) hs

theorem claimAll_ok : ∀ {hs seen : List (BitVec 64)}, (∀ h ∈ hs, h ∉ seen) → hs.Nodup →
    claimAll seen hs = .ok (hs.reverse ++ seen)
  | [], seen, _, _ => rfl
  | h :: hs, seen, hd, hn => by
    rw [claimAll, if_neg (by simpa using hd h (by simp)), claimAll_ok ?_ (List.nodup_cons.mp hn).2]
    · simp
    · intro x hx
      have h1 := hd x (by simp [hx])
      have h2 : x ≠ h := by rintro rfl; exact (List.nodup_cons.mp hn).1 hx
      simp [h1, h2]

theorem claimAll_cases : ∀ (hs seen : List (BitVec 64)),
    claimAll seen hs = .ub ∨ (claimAll seen hs = .ok (hs.reverse ++ seen) ∧ (∀ h ∈ hs, h ∉ seen) ∧ hs.Nodup)
  | [], seen => .inr ⟨rfl, by simp, by simp⟩
  | h :: hs, seen => by
    rw [claimAll]
    split
    · exact .inl rfl
    next hc =>
      rcases claimAll_cases hs (h :: seen) with hu | ⟨ho, hd, hn⟩
      · exact .inl hu
      · refine .inr ⟨by rw [ho]; simp, ?_, ?_⟩
        · intro x hx
          rcases List.mem_cons.mp hx with rfl | hx
          · simpa using hc
          · exact fun hm => hd x hx (by simp [hm])
        · exact List.nodup_cons.mpr ⟨fun hm => hd h hm (by simp), hn⟩

theorem claimAll_append (hs ks seen : List (BitVec 64)) :
    claimAll seen (hs ++ ks) = claimAll seen hs >>= fun s => claimAll s ks := by
  induction hs generalizing seen with
  | nil => rfl
  | cons h hs ih =>
    rw [List.cons_append, claimAll, claimAll]
    split
    · rfl
    · exact ih _

theorem readsAs_claim {seen : List (BitVec 64)} {t : BitVec 32} {h : BitVec 64} {b : Bytes} {f : List (BitVec 64) → Rd β}
    {o : Out β} (hf : ReadsAs (f (h :: seen)) (objBytes t h ++ b) o) :
    ReadsAs (claim seen >>= f) (objBytes t h ++ b) (if seen.contains h then .ub else o) := by
  unfold claim
  have hassoc : ((Rd.peek deObj >>= fun o => if seen.contains o.2 = true then Rd.undef else pure (o.2 :: seen)) >>= f : Rd β) =
      Rd.peek deObj >>= fun o => ((if seen.contains o.2 = true then Rd.undef else pure (o.2 :: seen)) >>= f) := by
    funext bs
    simp only [Rd.bind_eq]
    cases Rd.peek deObj bs <;> rfl
  rw [hassoc]
  refine readsAs_peek (decodes_obj _ _).1 ?_
  dsimp only
  split
  · intro tail
    rfl
  · exact hf

/-! ### Parameters -/

theorem storableParam_storable {ops : FloatOps} {jen : Bytes → BitVec 32} {little : Bool} {p : Param}
    (h : StorableParam ops jen little p) : Props.Storable p :=
  ⟨h.name, h.strings, h.bools, h.few⟩

theorem param_facts {ops : FloatOps} {jen : Bytes → BitVec 32} {little : Bool} {p : Param} (h : StorableParam ops jen little p)
    (little' : Bool) (a : BitVec 64) {ud : Bytes} (hud : ud.length < 2 ^ 64) :
    WritesBytes (serParam little p a ud) (paramBytes p a ud) ∧ szParam p a ud = .ok (paramBytes p a ud).length ∧
      ReadsBack (deParam ops jen little') (paramBytes p a ud) (a, p, ud) := by
  have hw := Props.created_writable ops jen little h.created (storableParam_storable h)
  obtain ⟨n, hn, bs, h1, h2, h3⟩ := Props.C13_parameter_round_trip_partial ops jen little little' p h.created (storableParam_storable h) a ud
    hud h.default
  have h4 := writes_param little p hw a ud
  have := writes_unique h1 h4
  subst this
  exact ⟨h4, by rw [hn, h2], h3⟩

/-- Bytes of the parameters. -/
def paramsBytes (hp : Heap) (ws : List PWrap) : Bytes := ws.flatMap fun w => paramBytes w.param w.handle (hp.data w.handle)

/-- What is read of the parameters. -/
def paramItems (hp : Heap) (ws : List PWrap) : List (BitVec 64 × Param × Bytes) :=
  ws.map fun w => (w.handle, w.param, hp.data w.handle)

theorem readsAs_params {ops : FloatOps} {jen : Bytes → BitVec 32} {little : Bool} (little' : Bool) (hp : Heap) :
    ∀ (ws : List PWrap) (seen : List (BitVec 64)),
    (∀ w ∈ ws, StorableParam ops jen little w.param ∧ (hp.data w.handle).length < 2 ^ 64) →
    ReadsAs (deParams ops jen little' ws.length seen) (paramsBytes hp ws)
      (claimAll seen (ws.map (·.handle)) >>= fun s => .ok (s, paramItems hp ws))
  | [], seen, _ => readsAs_ok (reads_pure _)
  | w :: ws, seen, h => by
    have hw := h w (by simp)
    have hf := param_facts hw.1 little' w.handle hw.2
    rw [List.length_cons, deParams, List.map_cons, claimAll]
    have e : paramsBytes hp (w :: ws) = objBytes parameterType w.handle ++
        ((paramCommonBytes w.param ++ (paramRestBytes w.param ++ blobBytes (hp.data w.handle))) ++ paramsBytes hp ws) := by
      simp [paramsBytes, paramBytes]
    rw [e]
    have ho := readsAs_params little' hp ws (w.handle :: seen) fun x hx => h x (by simp [hx])
    have : (if seen.contains w.handle = true then Out.ub else claimAll (w.handle :: seen) (ws.map (·.handle))) >>=
        (fun s => Out.ok (s, paramItems hp (w :: ws))) = if seen.contains w.handle = true then Out.ub else
        ((claimAll (w.handle :: seen) (ws.map (·.handle)) >>= fun s => Out.ok (s, paramItems hp ws)) >>=
          fun r => Out.ok (r.1, (w.handle, w.param, hp.data w.handle) :: r.2)) := by
      split
      · rfl
      · cases claimAll (w.handle :: seen) (ws.map (·.handle)) <;> rfl
    rw [this]
    refine readsAs_claim ?_
    rw [← List.append_assoc]
    refine readsAs_step hf.2.2 ?_
    rw [← List.append_nil (paramsBytes hp ws)]
    exact readsAs_bind ho fun x _ => readsAs_ok (reads_pure _)

theorem find_item {hp : Heap} (paramAt : Nat → BitVec 64) {h : BitVec 64} : ∀ {ws : List PWrap} (i : Nat), h ∈ ws.map (·.handle) →
    ∃ w, ws[(ws.map (·.handle)).idxOf h]? = some w ∧
      findParameter paramAt i (paramItems hp ws) h = some (.param (paramAt (i + (ws.map (·.handle)).idxOf h)) w.param)
  | [], i, hm => by simp at hm
  | w :: ws, i, hm => by
    by_cases hh : w.handle = h
    · refine ⟨w, ?_, ?_⟩
      · simp [hh]
      · simp [paramItems, findParameter, hh]
    · have hm' : h ∈ ws.map (·.handle) := by
        rcases List.mem_cons.mp (by simpa using hm : h ∈ w.handle :: ws.map (·.handle)) with rfl | hm
        · exact absurd rfl hh
        · exact hm
      obtain ⟨v, h1, h2⟩ := find_item (hp := hp) paramAt (i + 1) hm'
      have hi : ((w :: ws).map (·.handle)).idxOf h = (ws.map (·.handle)).idxOf h + 1 := by
        have hb : (w.handle == h) = false := by simpa using hh
        rw [List.map_cons, List.idxOf_cons, hb]
        rfl
      refine ⟨v, by rw [hi]; simpa using h1, ?_⟩
      show (if w.handle = h then _ else findParameter paramAt (i + 1) (paramItems hp ws) h) = _
      rw [if_neg hh, h2, hi]
      congr 2
      congr 1
      omega

theorem spaceMap_find {paramAt : Nat → BitVec 64} {hp : Heap} {s : Space} {h : BitVec 64} (hh : h ∈ s.handles)
    {m : BitVec 64 → Option Target} {seen : List (BitVec 64)} (hm : spaceMap paramAt (paramItems hp s.params) seen = some m) :
    m h = some (.param (follow paramAt s h).1 (follow paramAt s h).2) := by
  cases hm
  obtain ⟨w, h1, h2⟩ := find_item (hp := hp) paramAt 0 (ws := s.params) hh
  dsimp only
  rw [h2]
  unfold follow
  have h1' : s.params[s.handles.idxOf h]? = some w := h1
  rw [h1']
  simp [Space.handles]

/-! ### Expressions -/

theorem storable_of {m : BitVec 64 → Option Target} {f : BitVec 64 → BitVec 64 × Param} {e : Expr} (h : StorableExpr e)
    (hm : ∀ x, Occurs x e → m x = some (.param (f x).1 (f x).2) ∧ (f x).1 ≠ 0#64) : Spec.Storable m f e := by
  induction h with
  | literal h1 h2 => exact .literal h1 h2
  | var h1 => exact .var h1 (hm _ .here).1 (hm _ .here).2
  | node h1 h2 _ ih => exact .node h1 h2 fun a ha => ih a ha fun x hx => hm x (.inside ha hx)

/-- Expressions that can be read with the parameters of the space. -/
structure ReadableExpr (s : Space) (e : Expr) : Prop where
  built : Built e
  fits : StorableExpr e
  known : ∀ x, Occurs x e → x ∈ s.handles

theorem ReadableExpr.storable {paramAt : Nat → BitVec 64} (h0 : ∀ i, paramAt i ≠ 0#64) {hp : Heap} {s : Space} {e : Expr}
    (h : ReadableExpr s e) {seen : List (BitVec 64)} {m : BitVec 64 → Option Target}
    (hm : spaceMap paramAt (paramItems hp s.params) seen = some m) : Spec.Storable m (follow paramAt s) e :=
  storable_of h.fits fun x hx => ⟨spaceMap_find (h.known x hx) hm, h0 _⟩

theorem exprBytes_head (e : Expr) : ∃ b, exprBytes e = objBytes expressionType e.info.handle ++ b := by
  cases e with
  | literal o v => exact ⟨_, by rw [exprBytes]; rfl⟩
  | var o h p => exact ⟨_, by rw [exprBytes]; rfl⟩
  | node o op args => exact ⟨_, by rw [exprBytes]; rfl⟩

theorem readsAs_claimed {seen : List (BitVec 64)} {e : Expr} {b : Bytes} {f : List (BitVec 64) → Rd β} {o : Out β}
    (hf : ReadsAs (f (e.info.handle :: seen)) (exprBytes e ++ b) o) :
    ReadsAs (claim seen >>= f) (exprBytes e ++ b) (if seen.contains e.info.handle then .ub else o) := by
  obtain ⟨c, hc⟩ := exprBytes_head e
  rw [hc, List.append_assoc] at hf ⊢
  exact readsAs_claim hf

/-- Bytes of the conditions. -/
def conditionsBytes (cs : List (Nat × Expr)) : Bytes := cs.flatMap fun c => lebBytes (BitVec.ofNat 64 c.1) ++ exprBytes c.2

theorem readsAs_conditions {paramAt : Nat → BitVec 64} (h0 : ∀ i, paramAt i ≠ 0#64) (little' : Bool) (hp : Heap) (s : Space) :
    ∀ (cs : List (Nat × Expr)) (seen : List (BitVec 64)), (∀ c ∈ cs, c.1 < 2 ^ 64 ∧ ReadableExpr s c.2) →
    ReadsAs (deConditions little' (spaceMap paramAt (paramItems hp s.params)) cs.length seen) (conditionsBytes cs)
      (claimAll seen (cs.map (·.2.info.handle)) >>= fun t =>
        .ok (t, cs.map fun c => (c.1, relabel (follow paramAt s) c.2)))
  | [], seen, _ => readsAs_ok (reads_pure _)
  | c :: cs, seen, h => by
    have hc := h c (by simp)
    obtain ⟨m, hm⟩ : ∃ m, spaceMap paramAt (paramItems hp s.params) seen = some m := ⟨_, rfl⟩
    have hr := reads_expr little' c.2 hc.2.built (hc.2.storable h0 hm)
    rw [← hm] at hr
    rw [List.length_cons, deConditions, List.map_cons, claimAll]
    have e : conditionsBytes (c :: cs) = lebBytes (BitVec.ofNat 64 c.1) ++ (exprBytes c.2 ++ conditionsBytes cs) := by
      simp [conditionsBytes]
    rw [e]
    have ho := readsAs_conditions h0 little' hp s cs (c.2.info.handle :: seen) fun x hx => h x (by simp [hx])
    have : (if seen.contains c.2.info.handle = true then Out.ub else claimAll (c.2.info.handle :: seen) (cs.map (·.2.info.handle))) >>=
        (fun t => Out.ok (t, (c :: cs).map fun c => (c.1, relabel (follow paramAt s) c.2))) =
        if seen.contains c.2.info.handle = true then Out.ub else
        ((claimAll (c.2.info.handle :: seen) (cs.map (·.2.info.handle)) >>= fun t =>
          Out.ok (t, cs.map fun c => (c.1, relabel (follow paramAt s) c.2))) >>=
          fun r => Out.ok (r.1, (c.1, relabel (follow paramAt s) c.2) :: r.2)) := by
      split
      · rfl
      · cases claimAll (c.2.info.handle :: seen) (cs.map (·.2.info.handle)) <;> rfl
    rw [this]
    refine readsAs_step (decodes_size hc.1).1 (readsAs_claimed ?_)
    refine readsAs_step hr ?_
    rw [← List.append_nil (conditionsBytes cs)]
    exact readsAs_bind ho fun x _ => readsAs_ok (reads_pure _)

theorem readsAs_clauses {paramAt : Nat → BitVec 64} (h0 : ∀ i, paramAt i ≠ 0#64) (little' : Bool) (hp : Heap) (s : Space) :
    ∀ (cs : List Expr) (seen : List (BitVec 64)), (∀ c ∈ cs, ReadableExpr s c) →
    ReadsAs (deClauses little' (spaceMap paramAt (paramItems hp s.params)) cs.length seen) (cs.flatMap exprBytes)
      (claimAll seen (cs.map (·.info.handle)) >>= fun _ => .ok (cs.map (relabel (follow paramAt s))))
  | [], seen, _ => readsAs_ok (reads_pure _)
  | c :: cs, seen, h => by
    have hc := h c (by simp)
    obtain ⟨m, hm⟩ : ∃ m, spaceMap paramAt (paramItems hp s.params) seen = some m := ⟨_, rfl⟩
    have hr := reads_expr little' c hc.built (hc.storable h0 hm)
    rw [← hm] at hr
    rw [List.length_cons, deClauses, List.map_cons, claimAll, List.flatMap_cons]
    have ho := readsAs_clauses h0 little' hp s cs (c.info.handle :: seen) fun x hx => h x (by simp [hx])
    have : (if seen.contains c.info.handle = true then Out.ub else claimAll (c.info.handle :: seen) (cs.map (·.info.handle))) >>=
        (fun _ => Out.ok ((c :: cs).map (relabel (follow paramAt s)))) =
        if seen.contains c.info.handle = true then Out.ub else
        ((claimAll (c.info.handle :: seen) (cs.map (·.info.handle)) >>= fun _ =>
          Out.ok (cs.map (relabel (follow paramAt s)))) >>=
          fun r => Out.ok (relabel (follow paramAt s) c :: r)) := by
      split
      · rfl
      · cases claimAll (c.info.handle :: seen) (cs.map (·.info.handle)) <;> rfl
    rw [this]
    refine readsAs_claimed (readsAs_step hr ?_)
    rw [← List.append_nil (cs.flatMap exprBytes)]
    exact readsAs_bind ho fun x _ => readsAs_ok (reads_pure _)

/-! ### Distributions -/

/-- Bytes of a distribution with its indexes. -/
def dwrapBytes (ops : FloatOps) (hp : Heap) (d : DWrap) : Bytes :=
  DistObj.bytes ops (hp.addr d.dist.handle) (hp.dist d.dist.handle) ++ (lebBytes (BitVec.ofNat 64 d.indexes.length) ++
    d.indexes.flatMap fun i => lebBytes (BitVec.ofNat 64 i))

theorem reads_indexes : ∀ (is : List Nat) (room : Nat), is.length ≤ room → (∀ i ∈ is, i < 2 ^ 64) →
    ReadsBack (deIndexes is.length room) (is.flatMap fun i => lebBytes (BitVec.ofNat 64 i)) is
  | [], room, _, _ => reads_pure _
  | i :: is, room, hl, hi => by
    rw [List.length_cons, deIndexes, List.flatMap_cons]
    refine reads_bind (decodes_size (hi i (by simp))).1 ?_
    rw [List.length_cons] at hl
    rw [if_neg (by omega)]
    exact reads_bind_pure (reads_indexes is (room - 1) (by omega) fun x hx => hi x (by simp [hx])) rfl

/-- Outcome of reading the distributions: each address is claimed, then the distribution created again. -/
def distsOutcome (M : Machine σ) (hp : Heap) : List (BitVec 64) → List DWrap → Out (List (BitVec 64) × List DistObj)
  | seen, [] => .ok (seen, [])
  | seen, w :: ws =>
    if seen.contains w.dist.handle then .ub
    else do
      let d ← recreate M (hp.dist w.dist.handle)
      let r ← distsOutcome M hp (w.dist.handle :: seen) ws
      .ok (r.1, d :: r.2)

theorem distBytes_head (ops : FloatOps) (addr : List Nat → BitVec 64) (d : DistObj) :
    ∃ b, DistObj.bytes ops addr d = objBytes distributionType (addr []) ++ b := by
  cases d <;> exact ⟨_, by rw [DistObj.bytes]⟩

theorem readsAs_read (M : Machine σ) (little' : Bool) (addr : List Nat → BitVec 64) {d : DistObj} (hs : StorableDist d) :
    ReadsAs (DistObj.read M little') (DistObj.bytes M.ops addr d) (recreate M d) := by
  intro tail
  exact DistObj.readsAs_dist M little' d addr _ hs (by rw [List.length_append]; omega) tail

theorem readsAs_dwraps (M : Machine σ) (little' : Bool) (hp : Heap) : ∀ (ws : List DWrap) (room : Nat) (seen : List (BitVec 64)),
    (∀ w ∈ ws, StorableDist (hp.dist w.dist.handle)) → (ws.flatMap (·.indexes)).length ≤ room →
    (∀ i ∈ ws.flatMap (·.indexes), i < 2 ^ 64) → room < 2 ^ 64 →
    ReadsAs (deDists M little' ws.length room seen) (ws.flatMap (dwrapBytes M.ops hp))
      (distsOutcome M hp seen ws >>= fun r => .ok (r.1, r.2.zip (ws.map (·.indexes))))
  | [], room, seen, _, _, _, _ => readsAs_ok (reads_pure _)
  | w :: ws, room, seen, h, hl, hi, hroom => by
    rw [List.flatMap_cons, List.length_append] at hl
    have hd := readsAs_read M little' (hp.addr w.dist.handle) (h w (by simp))
    have ho := readsAs_dwraps M little' hp ws (room - w.indexes.length) (w.dist.handle :: seen) (fun x hx => h x (by simp [hx]))
      (by omega) (fun i hm => hi i (by rw [List.flatMap_cons]; exact List.mem_append_right _ hm)) (by omega)
    rw [List.length_cons, deDists, List.flatMap_cons, distsOutcome]
    have : (if seen.contains w.dist.handle = true then Out.ub else do
          let d ← recreate M (hp.dist w.dist.handle)
          let r ← distsOutcome M hp (w.dist.handle :: seen) ws
          Out.ok (r.1, d :: r.2)) >>= (fun r => Out.ok (r.1, r.2.zip ((w :: ws).map (·.indexes)))) =
        if seen.contains w.dist.handle = true then Out.ub else
          recreate M (hp.dist w.dist.handle) >>= fun d =>
            (distsOutcome M hp (w.dist.handle :: seen) ws >>= fun r => .ok (r.1, r.2.zip (ws.map (·.indexes)))) >>=
              fun r => Out.ok (r.1, (d, w.indexes) :: r.2) := by
      split
      · rfl
      · cases recreate M (hp.dist w.dist.handle) with
        | ok d => cases distsOutcome M hp (w.dist.handle :: seen) ws <;> rfl
        | err e => rfl
        | ub => rfl
    rw [this]
    obtain ⟨c, hc⟩ := distBytes_head M.ops (hp.addr w.dist.handle) (hp.dist w.dist.handle)
    have e : dwrapBytes M.ops hp w ++ ws.flatMap (dwrapBytes M.ops hp) = objBytes distributionType w.dist.handle ++
        (c ++ ((lebBytes (BitVec.ofNat 64 w.indexes.length) ++ w.indexes.flatMap fun i => lebBytes (BitVec.ofNat 64 i)) ++
          ws.flatMap (dwrapBytes M.ops hp))) := by
      rw [dwrapBytes, hc]
      simp [Heap.addr]
    rw [e]
    refine readsAs_claim ?_
    have e2 : objBytes distributionType w.dist.handle ++ (c ++ ((lebBytes (BitVec.ofNat 64 w.indexes.length) ++
        w.indexes.flatMap fun i => lebBytes (BitVec.ofNat 64 i)) ++ ws.flatMap (dwrapBytes M.ops hp))) =
        DistObj.bytes M.ops (hp.addr w.dist.handle) (hp.dist w.dist.handle) ++ (lebBytes (BitVec.ofNat 64 w.indexes.length) ++
        (w.indexes.flatMap (fun i => lebBytes (BitVec.ofNat 64 i)) ++ (ws.flatMap (dwrapBytes M.ops hp) ++ []))) := by
      rw [hc]
      simp [Heap.addr]
    rw [e2]
    refine readsAs_bind hd fun d _ => readsAs_step (decodes_size (by omega)).1 (readsAs_step (reads_indexes _ _ (by omega)
      fun i hm => hi i (by rw [List.flatMap_cons]; exact List.mem_append_left _ hm)) ?_)
    exact readsAs_bind ho fun x _ => readsAs_ok (reads_pure _)

theorem distsOutcome_fresh (M : Machine σ) (hp : Heap) : ∀ {ws : List DWrap} {seen : List (BitVec 64)},
    (∀ w ∈ ws, w.dist.handle ∉ seen) → (ws.map (·.dist.handle)).Nodup →
    distsOutcome M hp seen ws = recreateAll M (ws.map fun w => hp.dist w.dist.handle) >>= fun ds =>
      .ok ((ws.map (·.dist.handle)).reverse ++ seen, ds)
  | [], seen, _, _ => rfl
  | w :: ws, seen, hd, hn => by
    rw [distsOutcome, if_neg (by simpa using hd w (by simp)), List.map_cons, recreateAll]
    rw [List.map_cons] at hn
    have hn' := List.nodup_cons.mp hn
    rw [distsOutcome_fresh M hp ?_ hn'.2]
    · cases recreate M (hp.dist w.dist.handle) with
      | ok d =>
        cases recreateAll M (ws.map fun w => hp.dist w.dist.handle) with
        | ok ds => simp [Out.bind_ok]
        | err e => rfl
        | ub => rfl
      | err e => rfl
      | ub => rfl
    · intro x hx
      have h1 := hd x (by simp [hx])
      have h2 : x.dist.handle ≠ w.dist.handle := fun he => hn'.1 (he ▸ List.mem_map.mpr ⟨x, hx, rfl⟩)
      simp [h1, h2]

theorem distsOutcome_clash (M : Machine σ) (hp : Heap) : ∀ {ws : List DWrap} {seen : List (BitVec 64)},
    (∀ w ∈ ws, ∃ d, recreate M (hp.dist w.dist.handle) = .ok d) →
    ∃ ds, distsOutcome M hp seen ws = claimAll seen (ws.map (·.dist.handle)) >>= fun s => .ok (s, ds)
  | [], seen, _ => ⟨[], rfl⟩
  | w :: ws, seen, h => by
    obtain ⟨d, hd⟩ := h w (by simp)
    obtain ⟨ds, hds⟩ := distsOutcome_clash M hp (ws := ws) (seen := w.dist.handle :: seen) fun x hx => h x (by simp [hx])
    refine ⟨d :: ds, ?_⟩
    rw [distsOutcome, List.map_cons, claimAll, hd, hds]
    split
    · rfl
    · rw [Out.bind_ok]
      cases claimAll (w.dist.handle :: seen) (ws.map (·.dist.handle)) <;> rfl

theorem distsOutcome_length (M : Machine σ) (hp : Heap) : ∀ {ws : List DWrap} {seen : List (BitVec 64)} {r},
    distsOutcome M hp seen ws = .ok r → r.2.length = ws.length
  | [], seen, r, h => by cases h; rfl
  | w :: ws, seen, r, h => by
    rw [distsOutcome] at h
    split at h
    · cases h
    · cases h1 : recreate M (hp.dist w.dist.handle) with
      | ok d =>
        rw [h1, Out.bind_ok] at h
        cases h2 : distsOutcome M hp (w.dist.handle :: seen) ws with
        | ok r' =>
          rw [h2, Out.bind_ok] at h
          cases h
          simp [distsOutcome_length M hp h2]
        | err e => rw [h2] at h; cases h
        | ub => rw [h2] at h; cases h
      | err e => rw [h1] at h; cases h
      | ub => rw [h1] at h; cases h

/-! ### The whole space -/

/-- Bytes of a space. -/
def spaceBytes (ops : FloatOps) (little : Bool) (hp : Heap) (o : SpaceObj) : Bytes :=
  objBytes configurationSpaceType o.handle ++ ((strBytes o.name ++ (lebBytes (BitVec.ofNat 64 o.space.params.length) ++
    (lebBytes (BitVec.ofNat 64 (conditionList 0 o.space.params).length) ++ (lebBytes (BitVec.ofNat 64 o.space.dists.length) ++
    (lebBytes (BitVec.ofNat 64 o.space.clauses.length) ++ (rngBytes little o.rngHandle o.rng ++ (paramsBytes hp o.space.params ++
    (conditionsBytes (conditionList 0 o.space.params) ++ (o.space.dists.flatMap (dwrapBytes ops hp) ++
      o.space.clauses.flatMap exprBytes))))))))) ++ blobBytes o.data)

/-- What makes a space readable. -/
structure ReadableSpace (ops : FloatOps) (jen : Bytes → BitVec 32) (little : Bool) (hp : Heap) (o : SpaceObj) : Prop where
  name : CStr o.name
  rng : StorableRng o.rng
  data : o.data.length < 2 ^ 64
  params : ∀ w ∈ o.space.params, StorableParam ops jen little w.param ∧ (hp.data w.handle).length < 2 ^ 64
  conditions : ∀ w ∈ o.space.params, ∀ e, w.condition = some e → ReadableExpr o.space e
  dists : ∀ w ∈ o.space.dists, StorableDist (hp.dist w.dist.handle)
  cover : (o.space.dists.flatMap (·.indexes)).Perm (List.range o.space.params.length)
  clauses : ∀ e ∈ o.space.clauses, ReadableExpr o.space e
  size : 16 * o.space.params.length + 16 * (conditionList 0 o.space.params).length + 16 * o.space.dists.length +
    8 * o.space.clauses.length < 2 ^ 64

theorem mem_conditionList : ∀ {ws : List PWrap} {i : Nat} {c : Nat × Expr}, c ∈ conditionList i ws →
    i ≤ c.1 ∧ c.1 < i + ws.length ∧ ∃ w ∈ ws, w.condition = some c.2
  | [], i, c, h => by simp [conditionList] at h
  | w :: ws, i, c, h => by
    rw [conditionList] at h
    have key : c ∈ conditionList (i + 1) ws → i ≤ c.1 ∧ c.1 < i + (w :: ws).length ∧ ∃ v ∈ w :: ws, v.condition = some c.2 := by
      intro h
      obtain ⟨h1, h2, v, h3, h4⟩ := mem_conditionList h
      exact ⟨by omega, by simp; omega, v, by simp [h3], h4⟩
    split at h
    next e he =>
      rcases List.mem_cons.mp h with rfl | h
      · exact ⟨Nat.le_refl _, by simp, w, by simp, he⟩
      · exact key h
    next => exact key h

theorem conditionList_of : ∀ (ws : List PWrap) (i : Nat), (conditionList i ws).map (·.2) = ws.filterMap (·.condition)
  | [], i => rfl
  | w :: ws, i => by
    rw [conditionList, List.filterMap_cons]
    split
    next e he => rw [he, List.map_cons, conditionList_of ws (i + 1)]
    next he => rw [he, conditionList_of ws (i + 1)]

section
variable {ops : FloatOps} {jen : Bytes → BitVec 32} {little : Bool} {hp : Heap} {o : SpaceObj}

theorem ReadableExpr.some_storable {s : Space} {e : Expr} (h : ReadableExpr s e) :
    ∃ (m : BitVec 64 → Option Target) (f : BitVec 64 → BitVec 64 × Param), Spec.Storable m f e := by
  exact ⟨fun h => some (.param (1#64) ⟨[], .none, .string⟩), fun _ => (1#64, ⟨[], .none, .string⟩),
    storable_of h.fits fun x _ => ⟨rfl, by decide⟩⟩

theorem ReadableSpace.condition (h : ReadableSpace ops jen little hp o) {c : Nat × Expr}
    (hc : c ∈ conditionList 0 o.space.params) : c.1 < 2 ^ 64 ∧ ReadableExpr o.space c.2 := by
  obtain ⟨h1, h2, w, h3, h4⟩ := mem_conditionList hc
  have := h.size
  exact ⟨by omega, h.conditions w h3 _ h4⟩

theorem ReadableSpace.index (h : ReadableSpace ops jen little hp o) {i : Nat}
    (hi : i ∈ o.space.dists.flatMap (·.indexes)) : i < 2 ^ 64 := by
  have := List.mem_range.mp (h.cover.mem_iff.mp hi)
  have := h.size
  omega

theorem writes_dwrap (ops : FloatOps) (little : Bool) (hp : Heap) (d : DWrap) :
    WritesBytes (serDWrap ops little hp d) (dwrapBytes ops hp d) :=
  writes_seq (DistObj.writes_dist ops little _ _) (writes_seq (writes_size _) (writes_all _ fun i _ => writes_size i))

theorem writes_space (h : ReadableSpace ops jen little hp o) :
    WritesBytes (serSpace ops little hp o) (spaceBytes ops little hp o) := by
  unfold serSpace spaceBytes
  refine writes_seq (writes_obj _ _) (writes_seq (writes_seq (writes_string _) (writes_seq (writes_size _) (writes_seq
    (writes_size _) (writes_seq (writes_size _) (writes_seq (writes_size _) (writes_seq (writes_rng _ _ _)
    (writes_seq ?_ (writes_seq ?_ (writes_seq ?_ ?_))))))))) (writes_userData _))
  · exact writes_all _ fun w hw => (param_facts (h.params w hw).1 little w.handle (h.params w hw).2).1
  · refine writes_all _ fun c hc => writes_seq (writes_size _) ?_
    obtain ⟨m, f, hs⟩ := (h.condition hc).2.some_storable
    exact writes_expr little _ hs
  · exact writes_all _ fun d _ => writes_dwrap ops little hp d
  · refine writes_all _ fun e he => ?_
    obtain ⟨m, f, hs⟩ := (h.clauses e he).some_storable
    exact writes_expr little _ hs

theorem szAll_eq {f : α → Out Nat} {g : α → Bytes} : ∀ {xs : List α}, (∀ x ∈ xs, f x = .ok (g x).length) →
    szAll f xs = .ok (xs.flatMap g).length
  | [], _ => rfl
  | x :: xs, h => by
    rw [szAll, h x (by simp), szAll_eq fun y hy => h y (by simp [hy])]
    simp [Out.bind_ok]

theorem length_dwraps (ops : FloatOps) (hp : Heap) (ds : List DWrap) :
    (ds.flatMap (dwrapBytes ops hp)).length = (ds.map (szDWrap ops hp)).sum := by
  rw [List.length_flatMap]
  congr 1
  refine List.map_congr_left fun d _ => ?_
  have : ∀ is : List Nat, (is.flatMap fun i => lebBytes (BitVec.ofNat 64 i)).length = (is.map szSize).sum := by
    intro is
    rw [List.length_flatMap]
    congr 1
    exact List.map_congr_left fun i _ => length_size i
  simp only [dwrapBytes, szDWrap, List.length_append, DistObj.length_dist, length_size, this]
  omega

theorem length_space (h : ReadableSpace ops jen little hp o) :
    szSpace ops little hp o = .ok (spaceBytes ops little hp o).length := by
  unfold szSpace
  rw [szAll_eq (g := fun w : PWrap => paramBytes w.param w.handle (hp.data w.handle)) fun w hw =>
    (param_facts (h.params w hw).1 little w.handle (h.params w hw).2).2.1]
  rw [szAll_eq (g := fun c : Nat × Expr => lebBytes (BitVec.ofNat 64 c.1) ++ exprBytes c.2) ?_]
  · rw [szAll_eq (g := exprBytes) ?_]
    · simp only [Out.bind_ok, spaceBytes, List.length_append, length_obj, length_string, length_size, length_rng, length_userData,
        length_dwraps, paramsBytes, conditionsBytes]
      congr 1
      omega
    · intro e he
      obtain ⟨m, f, hs⟩ := (h.clauses e he).some_storable
      exact length_expr e hs
  · intro c hc
    obtain ⟨m, f, hs⟩ := (h.condition hc).2.some_storable
    rw [szCondition, length_expr _ hs, Out.bind_ok, List.length_append, length_size]

/-- Outcome of the definition of the space in the reading process. -/
def buildOutcome {σ : Type} (H : Host σ) (s : Space) (ds : List DistObj) : Out Space := do
  let s₁ ← addAll H 0 Space.empty (s.params.map (·.param))
  let s₂ ← setConditions s₁ ((conditionList 0 s.params).map fun c => (c.1, relabel (follow H.paramAt s) c.2))
  let s₃ ← setDistributions H 0 s₂ (s.dists.flatMap (·.indexes)) ((ds.zip (s.dists.map (·.indexes))).map fun d => (d.1, d.2.length))
  addClauses H.M.ops H.jen H.little s₃ (s.clauses.map (relabel (follow H.paramAt s)))

/-- Outcome of reading. -/
def readOutcome {σ : Type} (H : Host σ) (little : Bool) (hp : Heap) (o : SpaceObj) : Out ReadSpace := do
  let fresh ← newGenerator H.gens o.rng.name
  let seen₁ ← claimAll [o.rngHandle] o.space.handles
  let seen₂ ← claimAll seen₁ ((conditionsOf o.space).map (·.info.handle))
  let ds ← distsOutcome H.M hp seen₂ o.space.dists
  let _ ← claimAll ds.1 (o.space.clauses.map (·.info.handle))
  let s ← buildOutcome H o.space ds.2
  .ok ⟨o.handle, o.name,
    ⟨o.rng.name, if little = H.little ∧ o.rng.state.length = fresh.length then o.rng.state else fresh, o.rng.data⟩,
    s, o.space.params.map fun w => hp.data w.handle, ds.2, o.data⟩

theorem zip_fst {α β : Type} : ∀ {xs : List α} {ys : List β}, xs.length = ys.length → (xs.zip ys).map (·.1) = xs
  | [], [], _ => rfl
  | x :: xs, y :: ys, h => by simp at h; simp [zip_fst h]
  | [], y :: ys, h => by simp at h
  | x :: xs, [], h => by simp at h

theorem zip_flat {α β : Type} : ∀ {xs : List α} {ys : List (List β)}, xs.length = ys.length → (xs.zip ys).flatMap (·.2) = ys.flatten
  | [], [], _ => rfl
  | x :: xs, y :: ys, h => by simp at h; simp [zip_flat h]
  | [], y :: ys, h => by simp at h
  | x :: xs, [], h => by simp at h

theorem readsAs_space {σ : Type} (H : Host σ) (h0 : ∀ i, H.paramAt i ≠ 0#64)
    (h : ReadableSpace H.M.ops H.jen little hp o) :
    ReadsAs (deSpace H) (spaceBytes H.M.ops little hp o) (readOutcome H little hp o) := by
  unfold deSpace spaceBytes readOutcome
  have hsz := h.size
  have hroom : (o.space.dists.flatMap (·.indexes)).length = o.space.params.length := by
    rw [h.cover.length_eq, List.length_range]
  refine readsAs_step (decodes_obj _ _).1 (readsAs_pass (by simp) ?_)
  simp only [List.append_assoc]
  refine readsAs_step (decodes_string h.name.1 h.name.2).1 (readsAs_step (decodes_size (by omega)).1 (readsAs_step
    (decodes_size (by omega)).1 (readsAs_step (decodes_size (by omega)).1 (readsAs_step (decodes_size (by omega)).1 ?_))))
  have hbind : ∀ {α β γ : Type} (x : Out α) (f : α → Out β) (g : β → Out γ), (x >>= f) >>= g = x >>= fun a => f a >>= g := by
    intro α β γ x f g
    cases x <;> rfl
  have hr := readsAs_rng little H.little H.gens o.rngHandle h.rng
  have e1 : ∀ g : Bytes → Out ReadSpace, (newGenerator H.gens o.rng.name >>= fun fresh => g
      (if little = H.little ∧ o.rng.state.length = fresh.length then o.rng.state else fresh)) =
      (newGenerator H.gens o.rng.name >>= fun fresh => Out.ok (o.rngHandle, (⟨o.rng.name,
        if little = H.little ∧ o.rng.state.length = fresh.length then o.rng.state else fresh, o.rng.data⟩ : RngObj))) >>=
        fun x => g x.2.state := by
    intro g
    rw [hbind]
    rfl
  rw [e1 fun st => do
    let seen₁ ← claimAll [o.rngHandle] o.space.handles
    let seen₂ ← claimAll seen₁ ((conditionsOf o.space).map (·.info.handle))
    let ds ← distsOutcome H.M hp seen₂ o.space.dists
    let _ ← claimAll ds.1 (o.space.clauses.map (·.info.handle))
    let s ← buildOutcome H o.space ds.2
    .ok ⟨o.handle, o.name, ⟨o.rng.name, st, o.rng.data⟩,
      s, o.space.params.map fun w => hp.data w.handle, ds.2, o.data⟩]
  refine readsAs_bind hr fun x hx => ?_
  have hx1 : x.1 = o.rngHandle ∧ x.2.name = o.rng.name ∧ x.2.data = o.rng.data := by
    cases hg : newGenerator H.gens o.rng.name with
    | ok f => rw [hg, Out.bind_ok] at hx; cases hx; exact ⟨rfl, rfl, rfl⟩
    | err e => rw [hg] at hx; cases hx
    | ub => rw [hg] at hx; cases hx
  have hx2 : x.2 = ⟨o.rng.name, x.2.state, o.rng.data⟩ := by rw [← hx1.2.1, ← hx1.2.2]
  rw [if_neg (by omega), hx1.1]
  -- parameters
  have hps := readsAs_params H.little hp o.space.params [o.rngHandle] h.params
  rw [show (o.space.params.map (·.handle)) = o.space.handles from rfl] at hps
  have e2 : ∀ g : List (BitVec 64) → Out ReadSpace, (claimAll [o.rngHandle] o.space.handles >>= g) =
      (claimAll [o.rngHandle] o.space.handles >>= fun s => Out.ok (s, paramItems hp o.space.params)) >>= fun r => g r.1 := by
    intro g; rw [hbind]; rfl
  rw [e2]
  refine readsAs_bind hps fun ps hps' => ?_
  have hp2 : ps.2 = paramItems hp o.space.params := by
    cases hc : claimAll [o.rngHandle] o.space.handles with
    | ok f => rw [hc, Out.bind_ok] at hps'; cases hps'; rfl
    | err e => rw [hc] at hps'; cases hps'
    | ub => rw [hc] at hps'; cases hps'
  rw [hp2]
  -- conditions
  have hcs := readsAs_conditions h0 H.little hp o.space (conditionList 0 o.space.params) ps.1 fun c hc => h.condition hc
  have hch : (conditionList 0 o.space.params).map (·.2.info.handle) = (conditionsOf o.space).map (·.info.handle) := by
    rw [conditionsOf, ← conditionList_of o.space.params 0, List.map_map]; rfl
  rw [hch] at hcs
  have e3 : ∀ g : List (BitVec 64) → Out ReadSpace, (claimAll ps.1 ((conditionsOf o.space).map (·.info.handle)) >>= g) =
      (claimAll ps.1 ((conditionsOf o.space).map (·.info.handle)) >>= fun t => Out.ok (t,
        (conditionList 0 o.space.params).map fun c => (c.1, relabel (follow H.paramAt o.space) c.2))) >>= fun r => g r.1 := by
    intro g; rw [hbind]; rfl
  rw [e3]
  refine readsAs_bind hcs fun cs hcs' => ?_
  have hc2 : cs.2 = (conditionList 0 o.space.params).map fun c => (c.1, relabel (follow H.paramAt o.space) c.2) := by
    cases hc : claimAll ps.1 ((conditionsOf o.space).map (·.info.handle)) with
    | ok f => rw [hc, Out.bind_ok] at hcs'; cases hcs'; rfl
    | err e => rw [hc] at hcs'; cases hcs'
    | ub => rw [hc] at hcs'; cases hcs'
  rw [hc2]
  -- distributions
  have hds := readsAs_dwraps H.M H.little hp o.space.dists o.space.params.length cs.1 h.dists (by omega)
    (fun i hi => h.index hi) (by omega)
  cases hdo : distsOutcome H.M hp cs.1 o.space.dists with
  | err e =>
    rw [hdo] at hds
    intro tail
    rw [Rd.bind_eq, List.append_assoc, hds]
    rfl
  | ub =>
    rw [hdo] at hds
    intro tail
    rw [Rd.bind_eq, List.append_assoc, hds]
    rfl
  | ok ds =>
    rw [hdo, Out.bind_ok] at hds
    rw [Out.bind_ok]
    refine readsAs_step hds ?_
    dsimp only
    have hlen := distsOutcome_length H.M hp hdo
    have hz1 : ((ds.2.zip (o.space.dists.map (·.indexes))).map (·.1)) = ds.2 := zip_fst (by simp [hlen])
    have hz2 : ((ds.2.zip (o.space.dists.map (·.indexes))).flatMap (·.2)) = o.space.dists.flatMap (·.indexes) := by
      rw [zip_flat (by simp [hlen]), List.flatMap_def]
    -- clauses
    have hfs := readsAs_clauses h0 H.little hp o.space o.space.clauses ds.1 h.clauses
    have e4 : ∀ g : Out ReadSpace, (claimAll ds.1 (o.space.clauses.map (·.info.handle)) >>= fun _ => g) =
        (claimAll ds.1 (o.space.clauses.map (·.info.handle)) >>= fun _ => Out.ok
          (o.space.clauses.map (relabel (follow H.paramAt o.space)))) >>= fun _ => g := by
      intro g; rw [hbind]; rfl
    rw [e4]
    refine readsAs_bind hfs fun fs hfs' => ?_
    have hf2 : fs = o.space.clauses.map (relabel (follow H.paramAt o.space)) := by
      cases hc : claimAll ds.1 (o.space.clauses.map (·.info.handle)) with
      | ok f => rw [hc, Out.bind_ok] at hfs'; cases hfs'; rfl
      | err e => rw [hc] at hfs'; cases hfs'
      | ub => rw [hc] at hfs'; cases hfs'
    rw [hf2, hz1, hz2, hroom, Nat.sub_self, List.replicate_zero, List.append_nil]
    unfold buildOutcome
    have hpp : (paramItems hp o.space.params).map (·.2.1) = o.space.params.map (·.param) := by simp [paramItems]
    have hpd : (paramItems hp o.space.params).map (·.2.2) = o.space.params.map fun w => hp.data w.handle := by simp [paramItems]
    rw [hpp, hpd, hbind]
    rw [← List.nil_append (blobBytes o.data)]
    refine readsAs_bind (readsAs_lift _) fun s₁ _ => ?_
    rw [hbind, ← List.nil_append (blobBytes o.data)]
    refine readsAs_bind (readsAs_lift _) fun s₂ _ => ?_
    rw [hbind, ← List.nil_append (blobBytes o.data)]
    refine readsAs_bind (readsAs_lift _) fun s₃ _ => ?_
    rw [← List.nil_append (blobBytes o.data)]
    refine readsAs_bind (readsAs_lift _) fun s₄ _ => ?_
    refine readsAs_ok (reads_bind_pure (reads_userData h.data) ?_)
    rw [← hx2]

end

end CCS
