import Verif.Lemmas.Readable
import Verif.Lemmas.SpaceTwin
import Verif.Model.Map

/-!
# Spaces read from any bytes
-/

namespace CCS

open CCS.Spec

/-- The parameter at an address, among those read, from position `i` on. -/
def memoryOf (paramAt : Nat → BitVec 64) : Nat → List Param → BitVec 64 → Param
  | _, [], _ => createString []
  | i, p :: ps, h => if paramAt i = h then p else memoryOf paramAt (i + 1) ps h

theorem memoryOf_get {paramAt : Nat → BitVec 64} : ∀ {ps : List Param} {i : Nat},
    (∀ j k, j < i + ps.length → k < i + ps.length → paramAt j = paramAt k → j = k) →
    ∀ (k : Nat) p, ps[k]? = some p → memoryOf paramAt i ps (paramAt (i + k)) = p
  | [], i, _, k, p, h => by cases k <;> cases h
  | q :: ps, i, hd, 0, p, h => by
    cases h
    exact if_pos rfl
  | q :: ps, i, hd, k + 1, p, h => by
    have hk : k < ps.length := (List.getElem?_eq_some_iff.mp (show ps[k]? = some p from h)).1
    have hne : ¬ paramAt i = paramAt (i + (k + 1)) := fun he => by
      have := hd i (i + (k + 1)) (by rw [List.length_cons]; omega) (by rw [List.length_cons]; omega) he
      omega
    rw [memoryOf, if_neg hne, show i + (k + 1) = i + 1 + k by omega]
    exact memoryOf_get (fun a b ha hb he => hd a b (by rw [List.length_cons]; omega) (by rw [List.length_cons]; omega) he) k p h

theorem afterCall_ok {r : Space × Out Unit} {s : Space} (h : afterCall r = .ok s) : r.1 = s := by
  unfold afterCall at h
  split at h
  · cases h; rfl
  · cases h
  · cases h

section
variable {σ : Type} (H : Host σ) (mem : BitVec 64 → Param)

/-- Reached from `s` by calls. -/
def Onward (s s' : Space) : Prop :=
  ∃ history, (∀ op ∈ history, WellCalled op) ∧ s' = s.run H.M.ops H.jen H.little mem H.defaultDist history

variable {H mem}

theorem Onward.refl (s : Space) : Onward H mem s s := ⟨[], nofun, rfl⟩

theorem Onward.trans {a b c : Space} : Onward H mem a b → Onward H mem b c → Onward H mem a c := by
  rintro ⟨l, h1, rfl⟩ ⟨l', h2, rfl⟩
  refine ⟨l ++ l', fun op h => ?_, by rw [spaceRun_append]⟩
  rcases List.mem_append.mp h with h | h
  · exact h1 op h
  · exact h2 op h

theorem Onward.step {s s' : Space} (op : SpaceOp) (hw : WellCalled op)
    (h : afterCall (Space.step H.M.ops H.jen H.little mem H.defaultDist s op) = .ok s') : Onward H mem s s' :=
  ⟨[op], fun o ho => by rcases List.mem_singleton.mp ho with rfl; exact hw, (afterCall_ok h).symm⟩

theorem addAll_onward : ∀ {ps : List Param} {i : Nat} {s s' : Space}, (∀ (k : Nat) p, ps[k]? = some p → mem (H.paramAt (i + k)) = p) →
    addAll H i s ps = .ok s' → Onward H mem s s'
  | [], i, s, s', _, h => by
    cases h
    exact .refl s
  | p :: ps, i, s, s', hm, h => by
    unfold addAll at h
    obtain ⟨s1, h1, h⟩ := bind_eq_ok h
    have hp : mem (H.paramAt i) = p := hm 0 p rfl
    have h2 : afterCall (Space.step H.M.ops H.jen H.little mem H.defaultDist s (.addParameter (H.paramAt i) none)) = .ok s1 := by
      rw [← h1]
      show afterCall (addParameter mem H.defaultDist s (H.paramAt i) none) = _
      unfold addParameter
      rw [hp]
    exact (Onward.step (.addParameter (H.paramAt i) none) trivial h2).trans (addAll_onward (fun k q hq => by
      rw [show i + 1 + k = i + (k + 1) by omega]; exact hm (k + 1) q hq) h)

theorem setConditions_onward : ∀ {cs : List (Nat × Expr)} {s s' : Space}, (∀ c ∈ cs, Built c.2) → setConditions s cs = .ok s' →
    Onward H mem s s'
  | [], s, s', _, h => by
    cases h
    exact .refl s
  | c :: cs, s, s', hb, h => by
    unfold setConditions at h
    obtain ⟨s1, h1, h⟩ := bind_eq_ok h
    exact (Onward.step (.setCondition c.1 c.2) (hb c (.head _)) h1).trans (setConditions_onward (fun x hx => hb x (.tail _ hx)) h)

theorem addClauses_onward : ∀ {es : List Expr} {s s' : Space}, (∀ e ∈ es, Built e) →
    addClauses H.M.ops H.jen H.little s es = .ok s' → Onward H mem s s'
  | [], s, s', _, h => by
    cases h
    exact .refl s
  | c :: cs, s, s', hb, h => by
    unfold addClauses at h
    obtain ⟨s1, h1, h⟩ := bind_eq_ok h
    exact (Onward.step (.addClause c) (hb c (.head _)) h1).trans (addClauses_onward (fun x hx => hb x (.tail _ hx)) h)

theorem setDistributions_onward (hd : ∀ a d, (H.view a d).dim = (DistObj.sampler H.M d).dim) :
    ∀ {ds : List (DistObj × Nat)} {k : Nat} {s s' : Space} {indices : List Nat}, (∀ d ∈ ds, BuiltDist H.M d.1) →
    setDistributions H k s indices ds = .ok s' → Onward H mem s s'
  | [], k, s, s', _, _, h => by
    cases h
    exact .refl s
  | d :: ds, k, s, s', indices, hb, h => by
    unfold setDistributions at h
    obtain ⟨s1, h1, h⟩ := bind_eq_ok h
    refine (Onward.step (.setDistribution (H.view (H.distAt k) d.1) indices) ⟨?_, ?_⟩ h1).trans
      (setDistributions_onward hd (fun x hx => hb x (.tail _ hx)) h)
    · rw [hd]
      exact (recreate_dim (hb d (.head _))).1
    · apply Decidable.byContradiction
      intro hl
      have : setDistribution H.defaultDist s (H.view (H.distAt k) d.1) indices = (s, .ub) := by
        rw [setDistribution, if_pos (by omega)]
      rw [this] at h1
      cases h1

end

theorem deConditions_built {little : Bool} {map : List (BitVec 64) → HandleMap} : ∀ {n : Nat} {seen : List (BitVec 64)} {bs rest : Bytes}
    {r : List (BitVec 64) × List (Nat × Expr)}, deConditions little map n seen bs = .ok (r, rest) → ∀ c ∈ r.2, Built c.2
  | 0, seen, bs, rest, r, h => by
    cases h
    exact nofun
  | n + 1, seen, bs, rest, r, h => by
    unfold deConditions at h
    obtain ⟨i, b0, -, h⟩ := DistObj.rd_bind_ok h
    obtain ⟨s1, b1, -, h⟩ := DistObj.rd_bind_ok h
    obtain ⟨e, b2, h1, h⟩ := DistObj.rd_bind_ok h
    obtain ⟨q, b3, h2, h⟩ := DistObj.rd_bind_ok h
    cases h
    intro c hc
    rcases List.mem_cons.mp hc with rfl | hc
    · exact deExpr_built h1
    · exact deConditions_built h2 c hc

theorem deClauses_built {little : Bool} {map : List (BitVec 64) → HandleMap} : ∀ {n : Nat} {seen : List (BitVec 64)} {bs rest : Bytes}
    {r : List Expr}, deClauses little map n seen bs = .ok (r, rest) → ∀ e ∈ r, Built e
  | 0, seen, bs, rest, r, h => by
    cases h
    exact nofun
  | n + 1, seen, bs, rest, r, h => by
    unfold deClauses at h
    obtain ⟨s1, b1, -, h⟩ := DistObj.rd_bind_ok h
    obtain ⟨e, b2, h1, h⟩ := DistObj.rd_bind_ok h
    obtain ⟨q, b3, h2, h⟩ := DistObj.rd_bind_ok h
    cases h
    intro c hc
    rcases List.mem_cons.mp hc with rfl | hc
    · exact deExpr_built h1
    · exact deClauses_built h2 c hc

theorem deDists_built {σ : Type} {M : Machine σ} {little : Bool} : ∀ {n room : Nat} {seen : List (BitVec 64)} {bs rest : Bytes}
    {r : List (BitVec 64) × List (DistObj × List Nat)}, deDists M little n room seen bs = .ok (r, rest) → ∀ d ∈ r.2, BuiltDist M d.1
  | 0, room, seen, bs, rest, r, h => by
    cases h
    exact nofun
  | n + 1, room, seen, bs, rest, r, h => by
    unfold deDists at h
    obtain ⟨s1, b1, -, h⟩ := DistObj.rd_bind_ok h
    obtain ⟨d, b2, h1, h⟩ := DistObj.rd_bind_ok h
    obtain ⟨dim, b3, -, h⟩ := DistObj.rd_bind_ok h
    obtain ⟨is, b4, -, h⟩ := DistObj.rd_bind_ok h
    obtain ⟨q, b5, h2, h⟩ := DistObj.rd_bind_ok h
    cases h
    intro c hc
    rcases List.mem_cons.mp hc with rfl | hc
    · exact DistObj.read_built M little _ _ _ _ h1
    · exact deDists_built h2 c hc

theorem memoryOf_created {ops : FloatOps} {jen : Bytes → BitVec 32} {little : Bool} {paramAt : Nat → BitVec 64} : ∀ {ps : List Param} {i : Nat},
    (∀ p ∈ ps, Created ops jen little p) → ∀ h, Created ops jen little (memoryOf paramAt i ps h)
  | [], _, _, _ => .string []
  | p :: ps, i, hc, h => by
    unfold memoryOf
    split
    · exact hc p (.head _)
    · exact memoryOf_created (fun q hq => hc q (.tail _ hq)) h

theorem memoryOf_first {paramAt : Nat → BitVec 64} {ps : List Param}
    (hd : ∀ i j, i < ps.length → j < ps.length → paramAt i = paramAt j → i = j) (k : Nat) (p : Param) (h : ps[k]? = some p) :
    memoryOf paramAt 0 ps (paramAt (0 + k)) = p :=
  memoryOf_get (fun a b ha hb he => hd a b (by omega) (by omega) he) k p h

/-- What reading a configuration space makes. -/
theorem deSpace_reachable {σ : Type} {H : Host σ} {bs rest : Bytes} {r : ReadSpace} (h : deSpace H bs = .ok (r, rest))
    (hd : ∀ a d, (H.view a d).dim = (DistObj.sampler H.M d).dim)
    (ha : ∀ i j, i < r.paramData.length → j < r.paramData.length → H.paramAt i = H.paramAt j → i = j) :
    (∃ mem, (∀ a, Created H.M.ops H.jen H.little (mem a)) ∧
      Reachable H.M.ops H.jen H.little mem H.defaultDist r.space) ∧ ∀ d ∈ r.dists, BuiltDist H.M d := by
  unfold deSpace at h
  obtain ⟨o, b1, -, h⟩ := DistObj.rd_bind_ok h
  obtain ⟨-, b2, -, h⟩ := DistObj.rd_bind_ok h
  obtain ⟨name, b3, -, h⟩ := DistObj.rd_bind_ok h
  obtain ⟨np, b4, -, h⟩ := DistObj.rd_bind_ok h
  obtain ⟨nc, b5, -, h⟩ := DistObj.rd_bind_ok h
  obtain ⟨nd, b6, -, h⟩ := DistObj.rd_bind_ok h
  obtain ⟨nf, b7, -, h⟩ := DistObj.rd_bind_ok h
  obtain ⟨rng, b8, -, h⟩ := DistObj.rd_bind_ok h
  split at h
  · cases h
  obtain ⟨ps, b9, hps, h⟩ := DistObj.rd_bind_ok h
  obtain ⟨cs, b10, hcs, h⟩ := DistObj.rd_bind_ok h
  obtain ⟨ds, b11, hds, h⟩ := DistObj.rd_bind_ok h
  obtain ⟨fs, b12, hfs, h⟩ := DistObj.rd_bind_ok h
  obtain ⟨s1, b13, h1, h⟩ := DistObj.rd_bind_ok h
  obtain ⟨s2, b14, h2, h⟩ := DistObj.rd_bind_ok h
  obtain ⟨s3, b15, h3, h⟩ := DistObj.rd_bind_ok h
  obtain ⟨s4, b16, h4, h⟩ := DistObj.rd_bind_ok h
  obtain ⟨data, b17, -, h⟩ := DistObj.rd_bind_ok h
  cases h
  have h1 := DistObj.rd_lift_ok h1
  have h2 := DistObj.rd_lift_ok h2
  have h3 := DistObj.rd_lift_ok h3
  have h4 := DistObj.rd_lift_ok h4
  have hb := deDists_built hds
  refine ⟨⟨memoryOf H.paramAt 0 (ps.2.map (·.2.1)), memoryOf_created fun p hp => ?_, ?_⟩, fun d hd => ?_⟩
  · obtain ⟨x, hx, rfl⟩ := List.mem_map.mp hp
    exact (deParams_created hps).2 x hx
  · have hl : (ps.2.map (·.2.2)).length = (ps.2.map (·.2.1)).length := by rw [List.length_map, List.length_map]
    refine (addAll_onward (memoryOf_first fun i j hi hj he => ha i j ?_ ?_ he) h1).trans ((setConditions_onward (deConditions_built hcs) h2).trans
      ((setDistributions_onward hd (fun d hd => ?_) h3).trans (addClauses_onward (deClauses_built hfs) h4)))
    · exact lt_of_lt_of_eq hi hl.symm
    · exact lt_of_lt_of_eq hj hl.symm
    · obtain ⟨x, hx, rfl⟩ := List.mem_map.mp hd
      exact hb x hx
  · obtain ⟨x, hx, rfl⟩ := List.mem_map.mp hd
    exact hb x hx

/-! ### Features spaces and objective spaces -/

theorem afterAdd_ok {α : Type} {r : α × Out Unit} {s : α} (h : afterAdd r = .ok s) : r.1 = s := by
  unfold afterAdd at h
  split at h
  · cases h; rfl
  · cases h
  · cases h

/-- Adding the parameters read keeps what adding a parameter keeps. -/
theorem addRead_keeps {P : Ctx → Prop} {mem : BitVec 64 → Param} (hP : ∀ c h, P c → P (c.add mem h).1) {paramAt : Nat → BitVec 64} :
    ∀ {ps : List Param} {i : Nat} {c c' : Ctx}, (∀ (k : Nat) p, ps[k]? = some p → mem (paramAt (i + k)) = p) → P c →
    addRead paramAt i c ps = .ok c' → P c'
  | [], i, c, c', _, hc, h => by
    cases h
    exact hc
  | p :: ps, i, c, c', hm, hc, h => by
    unfold addRead at h
    obtain ⟨c1, h1, h⟩ := bind_eq_ok h
    have hp : mem (paramAt i) = p := hm 0 p rfl
    refine addRead_keeps hP (i := i + 1) (fun k q hq => by rw [show i + 1 + k = i + (k + 1) by omega]; exact hm (k + 1) q hq) ?_ h
    have : (c.add mem (paramAt i)).1 = c1 := by
      rw [← afterAdd_ok h1]
      unfold Ctx.add
      rw [hp]
    exact this ▸ hP c _ hc

theorem deFeatSpace_grown {ops : FloatOps} {jen : Bytes → BitVec 32} {little : Bool} {paramAt : Nat → BitVec 64} {m m' : Handles}
    {addr : BitVec 64} {bs rest : Bytes} {o : FeatSpaceObj} {datas : List Bytes}
    (h : deFeatSpace ops jen little paramAt m addr bs = .ok ((m', o, datas), rest))
    (ha : ∀ i j, i < datas.length → j < datas.length → paramAt i = paramAt j → i = j) :
    ∃ mem, (∀ a, Created ops jen little (mem a)) ∧ Grown mem o.ctx := by
  unfold deFeatSpace at h
  obtain ⟨o, b1, -, h⟩ := DistObj.rd_bind_ok h
  obtain ⟨-, b2, -, h⟩ := DistObj.rd_bind_ok h
  obtain ⟨name, b3, -, h⟩ := DistObj.rd_bind_ok h
  obtain ⟨np, b4, -, h⟩ := DistObj.rd_bind_ok h
  obtain ⟨ps, b5, hps, h⟩ := DistObj.rd_bind_ok h
  obtain ⟨c, b6, hc, h⟩ := DistObj.rd_bind_ok h
  obtain ⟨m1, b7, -, h⟩ := DistObj.rd_bind_ok h
  obtain ⟨data, b8, -, h⟩ := DistObj.rd_bind_ok h
  cases h
  have hc := DistObj.rd_lift_ok hc
  have hl : (ps.map (·.2.2)).length = (ps.map (·.2.1)).length := by rw [List.length_map, List.length_map]
  refine ⟨memoryOf paramAt 0 (ps.map (·.2.1)), memoryOf_created fun p hp => ?_,
    addRead_keeps (P := Grown _) (fun c h hc => .add h hc)
      (memoryOf_first fun i j hi hj he => ha i j (lt_of_lt_of_eq hi hl.symm) (lt_of_lt_of_eq hj hl.symm) he) .empty hc⟩
  obtain ⟨x, hx, rfl⟩ := List.mem_map.mp hp
  exact times_each (P := fun x => Created ops jen little x.2.1) (fun _ _ _ hr => deParam_created hr) hps x hx

theorem deObjectives_built {little : Bool} {map : List (BitVec 64) → HandleMap} : ∀ {n : Nat} {seen : List (BitVec 64)} {bs rest : Bytes}
    {r : List Objective}, deObjectives little map n seen bs = .ok (r, rest) → ∀ o ∈ r, Built o.expression
  | 0, seen, bs, rest, r, h => by
    cases h
    exact nofun
  | n + 1, seen, bs, rest, r, h => by
    unfold deObjectives at h
    obtain ⟨s1, b1, -, h⟩ := DistObj.rd_bind_ok h
    obtain ⟨e, b2, h1, h⟩ := DistObj.rd_bind_ok h
    obtain ⟨t, b3, -, h⟩ := DistObj.rd_bind_ok h
    obtain ⟨q, b4, h2, h⟩ := DistObj.rd_bind_ok h
    cases h
    intro c hc
    rcases List.mem_cons.mp hc with rfl | hc
    · exact deExpr_built h1
    · exact deObjectives_built h2 c hc

theorem deObjSpace_reachable {ops : FloatOps} {jen : Bytes → BitVec 32} {little : Bool} {paramAt : Nat → BitVec 64} {m m' : Handles}
    {addr : BitVec 64} {bs rest : Bytes} {o : ObjSpaceObj} {datas : List Bytes}
    (h : deObjSpace ops jen little paramAt m addr bs = .ok ((m', o, datas), rest))
    (ha : ∀ i j, i < datas.length → j < datas.length → paramAt i = paramAt j → i = j) :
    ∃ mem, (∀ a, Created ops jen little (mem a)) ∧ ObjReachable mem o.space := by
  unfold deObjSpace at h
  obtain ⟨o, b1, -, h⟩ := DistObj.rd_bind_ok h
  obtain ⟨-, b2, -, h⟩ := DistObj.rd_bind_ok h
  obtain ⟨name, b3, -, h⟩ := DistObj.rd_bind_ok h
  obtain ⟨np, b4, -, h⟩ := DistObj.rd_bind_ok h
  obtain ⟨no, b5, -, h⟩ := DistObj.rd_bind_ok h
  split at h
  · cases h
  obtain ⟨ps, b6, hps, h⟩ := DistObj.rd_bind_ok h
  obtain ⟨os, b7, hos, h⟩ := DistObj.rd_bind_ok h
  obtain ⟨c, b8, hc, h⟩ := DistObj.rd_bind_ok h
  obtain ⟨s, b9, hs, h⟩ := DistObj.rd_bind_ok h
  obtain ⟨m1, b10, -, h⟩ := DistObj.rd_bind_ok h
  obtain ⟨data, b11, -, h⟩ := DistObj.rd_bind_ok h
  cases h
  have hc := DistObj.rd_lift_ok hc
  have hs := afterAdd_ok (DistObj.rd_lift_ok hs)
  have hl : (ps.2.map (·.2.2)).length = (ps.2.map (·.2.1)).length := by rw [List.length_map, List.length_map]
  refine ⟨memoryOf paramAt 0 (ps.2.map (·.2.1)), memoryOf_created fun p hp => ?_, ?_⟩
  · obtain ⟨x, hx, rfl⟩ := List.mem_map.mp hp
    exact (deParams_created hps).2 x hx
  · generalize hmem : memoryOf paramAt 0 (ps.2.map (·.2.1)) = mem
    have hg := addRead_keeps (P := fun c => ObjReachable mem ⟨c, []⟩) (mem := mem) (fun c h hc => .parameter h hc)
      (hmem ▸ memoryOf_first fun i j hi hj he => ha i j (lt_of_lt_of_eq hi hl.symm) (lt_of_lt_of_eq hj hl.symm) he) .empty hc
    have hr := ObjReachable.objectives hg (deObjectives_built hos)
    rw [hs] at hr
    exact hr

/-! ### Maps -/

theorem mapFill_run {jen : Bytes → BitVec 32} {little : Bool} : ∀ {ps : List (Datum × Datum)} {m m' : MapState}, mapFill jen little m ps = .ok m' →
    Call.run (mapStep jen little) m (ps.map fun p => MapOp.set p.1 p.2) = some (List.replicate ps.length none, m')
  | [], m, m', h => by
    cases h
    rfl
  | (k, v) :: ps, m, m', h => by
    unfold mapFill at h
    cases hm : mapSet jen little m k v with
    | ub => rw [hm] at h; cases h
    | ret c m1 =>
      rw [hm] at h
      cases c with
      | some e => cases h
      | none =>
        have ih := mapFill_run (show mapFill jen little m1 ps = .ok m' from h)
        rw [List.map_cons, Call.run, show mapStep jen little m (.set k v) = .ret none m1 from hm]
        simp only [ih]
        rfl

theorem deMap_run {jen : Bytes → BitVec 32} {little : Bool} {r : Refs} {bs rest : Bytes} {m : MapState} {h : BitVec 64} {ud : Bytes}
    (he : deMap jen little r bs = .ok ((m, h, ud), rest)) : ∃ ps : List (Datum × Datum),
    Call.run (mapStep jen little) ⟨[], r⟩ (ps.map fun p => MapOp.set p.1 p.2) = some (List.replicate ps.length none, m) := by
  unfold deMap at he
  obtain ⟨o, b1, -, he⟩ := DistObj.rd_bind_ok he
  obtain ⟨-, b2, -, he⟩ := DistObj.rd_bind_ok he
  obtain ⟨n, b3, -, he⟩ := DistObj.rd_bind_ok he
  obtain ⟨ps, b4, -, he⟩ := DistObj.rd_bind_ok he
  obtain ⟨m1, b5, h1, he⟩ := DistObj.rd_bind_ok he
  obtain ⟨ud1, b6, -, he⟩ := DistObj.rd_bind_ok he
  cases he
  exact ⟨ps, mapFill_run (DistObj.rd_lift_ok h1)⟩

/-! ### Configurations and features -/

theorem deBound_created {jen : Bytes → BitVec 32} {little : Bool} {type spaceType : BitVec 32} {mapped : Bool} {m m' : Handles}
    {addr : BitVec 64} {bs rest : Bytes} {b : BindObj}
    (h : deBound jen little type spaceType mapped (some m) addr bs = .ok ((m', b), rest)) :
    ∃ id c values, m.space spaceType id = .ok c ∧ createBinding jen little c.1 c.2 values = .ok b.binding := by
  unfold deBound at h
  obtain ⟨o, b1, -, h⟩ := DistObj.rd_bind_ok h
  obtain ⟨-, b2, -, h⟩ := DistObj.rd_bind_ok h
  obtain ⟨d, b3, -, h⟩ := DistObj.rd_bind_ok h
  obtain ⟨c, b4, hc, h⟩ := DistObj.rd_bind_ok h
  obtain ⟨x, b5, hx, h⟩ := DistObj.rd_bind_ok h
  obtain ⟨m1, b6, -, h⟩ := DistObj.rd_bind_ok h
  obtain ⟨data, b7, -, h⟩ := DistObj.rd_bind_ok h
  cases h
  exact ⟨_, c, _, DistObj.rd_lift_ok hc, DistObj.rd_lift_ok hx⟩

end CCS
