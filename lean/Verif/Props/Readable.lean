import Verif.Lemmas.ReadableSpace
import Verif.Props.RunWire
import Verif.Props.TreeWire
import Verif.Props.ExprWire
import Verif.Props.Map
import Verif.Props.UserTuner

/-!
# C86: what is read could have been created

In every theorem the bytes are arbitrary.  Each says that what a successful call reads is what creation functions and calls of the API, with
arguments they accept, also make: `Spec.Created` for parameters, `Spec.Built` for expressions, `Spec.GrownForest` for trees, a history of calls for
maps, `Spec.Reachable`, `Spec.Grown` and `Spec.ObjReachable` for spaces.  See `C86_read_distribution` for distributions.  `FreshAddresses f n`: the
first `n` objects that the reading process allocates get different addresses.
-/

namespace CCS.Props

open CCS Spec

/-- The first `n` addresses given are different. -/
def FreshAddresses (f : Nat → BitVec 64) (n : Nat) : Prop := ∀ i j, i < n → j < n → f i = f j → i = j

/-- **C86** A parameter read from any bytes is one that the creation functions make. -/
theorem C86_parameter {ops : FloatOps} {jen : Bytes → BitVec 32} {little : Bool} {bs rest : Bytes} {handle : BitVec 64} {p : Param} {data : Bytes}
    (h : deParam ops jen little bs = .ok ((handle, p, data), rest)) : Created ops jen little p :=
  deParam_created h

/-- **C86** An expression read from any bytes, with any handles, is one that the creation functions make, to any depth. -/
theorem C86_expression {little : Bool} {map : HandleMap} {bs rest : Bytes} {e : Expr} (h : deExpr little map bs = .ok (e, rest)) : Built e :=
  deExpr_built h

/-- **C86** A tree read from any bytes is one that creating trees and attaching them gives, and it is the root. -/
theorem C86_tree {ops : FloatOps} {little : Bool} {data : Nat → Bytes} {bs rest : Bytes} {g : Grove} {h : Nat}
    (he : Forest.deTree ops little ⟨[], data⟩ bs = .ok ((g, h), rest)) :
    GrownForest ops g.trees ∧ ∃ n, Forest.node g.trees h = some n ∧ n.parent = none := by
  obtain ⟨h1, -, -, h2⟩ := Forest.deTreeFuel_grown .empty he
  exact ⟨h1, h2⟩

/-- **C86** A map read from any bytes is an empty map in which associations were set, all successfully. -/
theorem C86_map {jen : Bytes → BitVec 32} {little : Bool} {r : Refs} {bs rest : Bytes} {m : MapState} {handle : BitVec 64} {data : Bytes}
    (h : deMap jen little r bs = .ok ((m, handle, data), rest)) :
    ∃ calls, (∀ op ∈ calls, ∃ k v, op = MapOp.set k v) ∧
      Call.run (mapStep jen little) (newMap r) calls = some (List.replicate calls.length none, m) := by
  obtain ⟨ps, hp⟩ := deMap_run h
  refine ⟨ps.map fun p => MapOp.set p.1 p.2, fun op ho => ?_, by rw [List.length_map]; exact hp⟩
  obtain ⟨p, -, rfl⟩ := List.mem_map.mp ho
  exact ⟨_, _, rfl⟩

/-- **C86** A configuration space read from any bytes is one that calls make, with parameters, expressions and distributions that the creation functions
make; its conditions have no cycle, its clauses and indices are in range, as for any space made by calls. -/
theorem C86_space {σ : Type} {H : Host σ} {bs rest : Bytes} {r : ReadSpace} (h : deSpace H bs = .ok (r, rest))
    (hdim : ∀ a d, (H.view a d).dim = (DistObj.sampler H.M d).dim) (hfresh : FreshAddresses H.paramAt r.paramData.length) :
    (∃ mem, (∀ a, Created H.M.ops H.jen H.little (mem a)) ∧ Reachable H.M.ops H.jen H.little mem H.defaultDist r.space) ∧
    ∀ d ∈ r.dists, BuiltDist H.M d :=
  deSpace_reachable h hdim hfresh

/-- **C86** A features space read from any bytes is one that adding parameters made by the creation functions gives. -/
theorem C86_features_space {ops : FloatOps} {jen : Bytes → BitVec 32} {little : Bool} {paramAt : Nat → BitVec 64} {m m' : Handles}
    {addr : BitVec 64} {bs rest : Bytes} {o : FeatSpaceObj} {datas : List Bytes}
    (h : deFeatSpace ops jen little paramAt m addr bs = .ok ((m', o, datas), rest)) (hfresh : FreshAddresses paramAt datas.length) :
    ∃ mem, (∀ a, Created ops jen little (mem a)) ∧ Grown mem o.ctx :=
  deFeatSpace_grown h hfresh

/-- **C86** An objective space read from any bytes is one that adding created parameters and objectives gives. -/
theorem C86_objective_space {ops : FloatOps} {jen : Bytes → BitVec 32} {little : Bool} {paramAt : Nat → BitVec 64} {m m' : Handles}
    {addr : BitVec 64} {bs rest : Bytes} {o : ObjSpaceObj} {datas : List Bytes}
    (h : deObjSpace ops jen little paramAt m addr bs = .ok ((m', o, datas), rest)) (hfresh : FreshAddresses paramAt datas.length) :
    ∃ mem, (∀ a, Created ops jen little (mem a)) ∧ ObjReachable mem o.space :=
  deObjSpace_reachable h hfresh

/-- **C86** A configuration or features read from any bytes is what the creation function gives for some values on a space of the handle map. -/
theorem C86_binding {jen : Bytes → BitVec 32} {little : Bool} {type spaceType : BitVec 32} {mapped : Bool} {m m' : Handles}
    {addr : BitVec 64} {bs rest : Bytes} {b : BindObj} (h : deBound jen little type spaceType mapped (some m) addr bs = .ok ((m', b), rest)) :
    ∃ id space values, m.space spaceType id = .ok space ∧ createBinding jen little space.1 space.2 values = .ok b.binding :=
  deBound_created h

/-- **C86** And so are the values and the configuration of an evaluation. -/
theorem C86_evaluation {jen : Bytes → BitVec 32} {little withFeatures mapped : Bool} {m m' : Handles} {place : EvalPlace} {bs rest : Bytes} {e : EvalObj}
    (h : deEval jen little withFeatures mapped (some m) place bs = .ok ((m', e), rest)) :
    (∃ id space values, m.space objectiveSpaceType id = .ok space ∧ createBinding jen little space.1 space.2 values = .ok e.binding) ∧
    ∃ id space values, m.space configurationSpaceType id = .ok space ∧
      createBinding jen little space.1 space.2 values = .ok e.configuration.binding := by
  unfold deEval at h
  obtain ⟨o, b1, -, h⟩ := DistObj.rd_bind_ok h
  obtain ⟨-, b2, -, h⟩ := DistObj.rd_bind_ok h
  obtain ⟨d, b3, -, h⟩ := DistObj.rd_bind_ok h
  obtain ⟨conf, b4, hconf, h⟩ := DistObj.rd_bind_ok h
  obtain ⟨feat, b5, -, h⟩ := DistObj.rd_bind_ok h
  obtain ⟨res, b6, -, h⟩ := DistObj.rd_bind_ok h
  obtain ⟨c, b7, hc, h⟩ := DistObj.rd_bind_ok h
  obtain ⟨b, b8, hb, h⟩ := DistObj.rd_bind_ok h
  obtain ⟨m1, b9, -, h⟩ := DistObj.rd_bind_ok h
  obtain ⟨data, b10, -, h⟩ := DistObj.rd_bind_ok h
  cases h
  exact ⟨⟨_, c, _, DistObj.rd_lift_ok hc, DistObj.rd_lift_ok hb⟩, C86_binding (m' := conf.1) (b := conf.2) hconf⟩

/-- **C86** A tree space read from any bytes has as root a tree, without parent, that creating trees and attaching them gives; what was there before is
still made that way.  A space that is read without callbacks is static. -/
theorem C86_tree_space {ops : FloatOps} {little : Bool} {gens : List (Bytes × Bytes)} {fresh : RngObj} {vector : Option TreeVector} {g g' : Grove}
    {m m' : Handles} {addr : BitVec 64} {bs rest : Bytes} {r : ReadTreeSpace} (hg : GrownForest ops g.trees)
    (h : deTreeSpace ops little gens fresh vector g m addr bs = .ok ((m', g', r), rest)) :
    GrownForest ops g'.trees ∧ (∃ n, Forest.node g'.trees r.root = some n ∧ n.parent = none) ∧
    (vector = none → r.rng = fresh ∧ r.restored = none) := by
  unfold deTreeSpace at h
  obtain ⟨o, b1, -, h⟩ := DistObj.rd_bind_ok h
  obtain ⟨-, b2, -, h⟩ := DistObj.rd_bind_ok h
  obtain ⟨t, b3, -, h⟩ := DistObj.rd_bind_ok h
  obtain ⟨-, b4, -, h⟩ := DistObj.rd_bind_ok h
  obtain ⟨name, b5, -, h⟩ := DistObj.rd_bind_ok h
  obtain ⟨rng, b6, -, h⟩ := DistObj.rd_bind_ok h
  obtain ⟨tree, b7, ht, h⟩ := DistObj.rd_bind_ok h
  obtain ⟨s, b8, hs, h⟩ := DistObj.rd_bind_ok h
  obtain ⟨m1, b9, -, h⟩ := DistObj.rd_bind_ok h
  obtain ⟨data, b10, -, h⟩ := DistObj.rd_bind_ok h
  cases h
  obtain ⟨h1, -, -, h2⟩ := Forest.deTreeFuel_grown (g' := tree.1) (h := tree.2) hg ht
  refine ⟨h1, h2, fun hv => ?_⟩
  have hs := DistObj.rd_lift_ok hs
  rw [hv] at hs
  unfold makeTreeSpace at hs
  split at hs
  · have := Out.ok.inj hs
    exact ⟨(congrArg Prod.fst this).symm, (congrArg Prod.snd this).symm⟩
  · cases hs

/-- **C86** A tree configuration read from any bytes is on a tree space of the handle map, with any position, as `ccs_create_tree_configuration` takes it; the
values of a tree evaluation are what the creation function accepts. -/
theorem C86_tree_evaluation {jen : Bytes → BitVec 32} {little mapped : Bool} {m m' : Handles} {place : EvalPlace} {bs rest : Bytes} {e : TreeEvalObj}
    (h : deTreeEval jen little mapped (some m) place bs = .ok ((m', e), rest)) :
    (∃ id space values, m.space objectiveSpaceType id = .ok space ∧ createBinding jen little space.1 space.2 values = .ok e.binding) ∧
    ∃ id ctx, m.space treeSpaceType id = .ok (e.configuration.config.space, ctx) := by
  unfold deTreeEval at h
  obtain ⟨o, b1, -, h⟩ := DistObj.rd_bind_ok h
  obtain ⟨-, b2, -, h⟩ := DistObj.rd_bind_ok h
  obtain ⟨d, b3, -, h⟩ := DistObj.rd_bind_ok h
  obtain ⟨conf, b4, hconf, h⟩ := DistObj.rd_bind_ok h
  obtain ⟨res, b6, -, h⟩ := DistObj.rd_bind_ok h
  obtain ⟨c, b7, hc, h⟩ := DistObj.rd_bind_ok h
  obtain ⟨b, b8, hb, h⟩ := DistObj.rd_bind_ok h
  obtain ⟨m1, b9, -, h⟩ := DistObj.rd_bind_ok h
  obtain ⟨data, b10, -, h⟩ := DistObj.rd_bind_ok h
  cases h
  refine ⟨⟨_, c, _, DistObj.rd_lift_ok hc, DistObj.rd_lift_ok hb⟩, ?_⟩
  unfold deTreeConf at hconf
  obtain ⟨o, c1, -, hconf⟩ := DistObj.rd_bind_ok hconf
  obtain ⟨-, c2, -, hconf⟩ := DistObj.rd_bind_ok hconf
  obtain ⟨id, c3, -, hconf⟩ := DistObj.rd_bind_ok hconf
  obtain ⟨p, c4, -, hconf⟩ := DistObj.rd_bind_ok hconf
  obtain ⟨s, c5, hs, hconf⟩ := DistObj.rd_bind_ok hconf
  obtain ⟨m2, c6, -, hconf⟩ := DistObj.rd_bind_ok hconf
  obtain ⟨data, c7, -, hconf⟩ := DistObj.rd_bind_ok hconf
  cases hconf
  exact ⟨id, s.2, DistObj.rd_lift_ok hs⟩

/-- A property of the state that learning keeps holds after any results told. -/
theorem tells_keep {P : Tuner → Prop} (hP : ∀ env t e t', P t → t.learn env e = .ok t' → P t') :
    ∀ (calls : List (TunerEnv × List (BitVec 64))) (t : Tuner), P t → P (t.tells calls)
  | [], _, h => h
  | (env, es) :: calls, t, h => by
    have key : ∀ (es : List (BitVec 64)) (t : Tuner), P t → P (t.tell env es).1 := by
      intro es
      induction es with
      | nil => exact fun t h => h
      | cons e es ih =>
        intro t h
        unfold Tuner.tell
        split
        · exact h
        split
        · exact ih t h
        split
        · exact ih _ (hP env t e _ h ‹_›)
        · exact h
        · exact h
    exact tells_keep hP calls _ (key es t h)

/-- **C86** fails for tuners: bytes are accepted, that give a random tuner that no results told to a new tuner lead to, whatever their values. -/
theorem C86_tuner_not_created : ∃ bs r, ReadsBack (deTuner exHost false exPlacesOf) bs r ∧
    ∀ calls : List (TunerEnv × List (BitVec 64)), Tuner.empty.tells calls ≠ r.tuner := by
  obtain ⟨rs, hrs⟩ := exTuner_space
  obtain ⟨bs, r, h1, h2⟩ := C102_space_as_optimum (o := exTuner false []) (exRun_stored false (by decide)) hrs
  refine ⟨bs, r, h1, fun calls hc => ?_⟩
  have := tells_keep (P := fun t => t.history = [] → t.optima = []) (fun env t e t' _ hl h0 => ?_) calls Tuner.empty fun _ => rfl
  · rw [hc, h2] at this
    cases this rfl
  · unfold Tuner.learn at hl
    obtain ⟨x, -, hl⟩ := bind_eq_ok hl
    cases hl
    exact absurd h0 (List.append_ne_nil_of_right_ne_nil _ (List.cons_ne_nil _ _))

/-! Instances: what is written by the examples of the other files is read, with a parameter, an expression, a tree of four nodes, a map, a space with a
condition and a clause, a features space, an objective space, a configuration and an evaluation. -/

example : isOk (deParam ieee exJen true (paramBytes (exParam 1#64) 5#64 [1#8])) = true := by decide +kernel

example : isOk (deExpr true (some fun h => if h = 7#64 then some (.param 70#64 pNum) else none)
    (exprBytes (.node anObj .less [.var anObj 7#64 pNum, .literal anObj (.int 3#64)]))) = true := by decide +kernel

example : isOk (Forest.deTree ieee true ⟨[], fun _ => []⟩ (Forest.treeBytes exGrove (fun k => BitVec.ofNat 64 k) 10 0)) = true := by decide +kernel

example : isOk (deTreeSpace ieee true exGens exFresh none ⟨[], fun _ => []⟩ [] 40#64
    (treeSpaceBytes true exGrove (fun k => BitVec.ofNat 64 k) (exTreeSpace none [5#8]))) = true := by decide +kernel

example : isOk (deTreeEval exJen true false (some [((exTreeEval 4001#64).binding.context, ⟨objectiveSpaceType, 71#64, (exTargetObj 301#64).space.ctx⟩),
    ((exTreeEval 4001#64).configuration.config.space, ⟨treeSpaceType, 72#64, Ctx.empty⟩)]) ⟨80#64, 81#64, 82#64⟩
    (treeEvalBytes (exTreeEval 4001#64))) = true := by decide +kernel

example : isOk (deMap exJen true (fun _ => 0) (objBytes mapType 5#64 ++ (lebBytes 2#64 ++ (datumBytes (.int 1#64) ++ (datumBytes (.int 2#64) ++
    (datumBytes (.str (some [65#8])) ++ (datumBytes (.int 3#64) ++ blobBytes [1#8]))))))) = true := by decide +kernel

example : isOk (deFeatSpace ieee exJen true (exPlaces 600) [] 40#64 (featSpaceBytes exPdata exFeatObj)) = true := by decide +kernel

example : isOk (deObjSpace ieee exJen true (exPlaces 500) [] 40#64 (objSpaceBytes exPdata (exTargetObj 301#64))) = true := by decide +kernel

example : isOk (deBound exJen true configurationType configurationSpaceType false (some (exKnown configurationSpaceType exCtx)) 77#64
    (boundBytes configurationType (exBound [exInt 3#64 false, exInt 2#64 false]))) = true := by decide +kernel

example : isOk (deEval exJen true false false (some exKnownBoth) ⟨80#64, 81#64, 82#64⟩
    (evalBytes (exEvalObj 30#64 [exInt 3#64 false, exInt 2#64 false]))) = true := by decide +kernel

example : (∃ r, deSpace exHost (spaceBytes exHost.M.ops true exStore (exSpaceObj exPlain)) = .ok (r, []) ∧
      FreshAddresses exHost.paramAt r.paramData.length) ∧
    ∀ a d, (exHost.view a d).dim = (DistObj.sampler exHost.M d).dim := by
  refine ⟨?_, fun _ _ => rfl⟩
  have h := (by decide +kernel : (deSpace exHost (spaceBytes exHost.M.ops true exStore (exSpaceObj exPlain)) >>= fun x =>
    Out.ok (x.1.paramData.length, x.2)) = .ok (2, []))
  cases hr : deSpace exHost (spaceBytes exHost.M.ops true exStore (exSpaceObj exPlain)) with
  | ok x =>
    obtain ⟨r, rest⟩ := x
    rw [hr] at h
    have h2 := Out.ok.inj h
    have h3 : r.paramData.length = 2 := congrArg Prod.fst h2
    have h4 : rest = [] := congrArg Prod.snd h2
    refine ⟨r, by rw [h4], fun i j hi hj he => ?_⟩
    have h5 := congrArg BitVec.toNat he
    simp only [exHost, BitVec.toNat_ofNat] at h5
    omega
  | err e => rw [hr] at h; cases h
  | ub => rw [hr] at h; cases h

end CCS.Props
