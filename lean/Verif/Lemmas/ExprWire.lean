import Verif.Lemmas.Expr
import Verif.Lemmas.ParamWire

/-! Helper lemmas about the serialization of expressions. -/

namespace CCS

open Spec

mutual
/-- Bytes of an expression. -/
def exprBytes : Expr → Bytes
  | .node o op args => objBytes expressionType o.handle ++ ((lebBytes (BitVec.ofNat 32 op.code) ++
      (lebBytes (BitVec.ofNat 64 args.length) ++ exprsBytes args)) ++ blobBytes o.ud)
  | .literal o v => objBytes expressionType o.handle ++ ((lebBytes 18#32 ++
      (lebBytes (BitVec.ofNat 64 0) ++ datumBytes v)) ++ blobBytes o.ud)
  | .var o h _ => objBytes expressionType o.handle ++ ((lebBytes 19#32 ++
      (lebBytes (BitVec.ofNat 64 0) ++ lebBytes h)) ++ blobBytes o.ud)

def exprsBytes : List Expr → Bytes
  | [] => []
  | e :: es => exprBytes e ++ exprsBytes es
end

theorem exprsBytes_eq (es : List Expr) : exprsBytes es = es.flatMap exprBytes := by
  induction es with
  | nil => rfl
  | cons e es ih => simp [exprsBytes, ih]

theorem relabelAll_eq (f : BitVec 64 → BitVec 64 × Param) (es : List Expr) :
    relabelAll f es = es.map (relabel f) := by
  induction es with
  | nil => rfl
  | cons e es ih => simp [relabelAll, ih]

theorem storable_writable {v : Value} (h : StorableValue v) : v.Writable := by
  cases v with
  | str s =>
    obtain ⟨t, rfl, h1, h2⟩ := h
    exact ⟨h1, h2⟩
  | _ => trivial

theorem storable_readBack {v : Value} (h : StorableValue v) : (readBack v).v = v := by
  cases v with
  | bool b =>
    simp only [readBack]
    congr 1
    apply BitVec.eq_of_toInt_eq
    rw [BitVec.toInt_signExtend_of_le (by decide), BitVec.toInt_setWidth]
    have h1 := h.1
    have h2 := h.2
    have h3 := BitVec.toInt_eq_toNat_bmod b
    rw [h3] at h1 h2 ⊢
    have := b.isLt
    rw [Int.bmod_def] at *
    rw [Int.bmod_def]
    omega
  | _ => rfl

theorem storable_node {m : BitVec 64 → Option Target} {f : BitVec 64 → BitVec 64 × Param} {o : ObjMeta}
    {op : Op} {args : List Expr} (h : Storable m f (.node o op args)) :
    o.ud.length < 2 ^ 64 ∧ args.length < 2 ^ 64 ∧ ∀ a ∈ args, Storable m f a := by
  cases h with
  | node h1 h2 h3 => exact ⟨h1, h2, h3⟩

/-- Writing. -/
theorem writes_expr (little : Bool) {m : BitVec 64 → Option Target} {f : BitVec 64 → BitVec 64 × Param}
    (e : Expr) (h : Storable m f e) : WritesBytes (serExpr little e) (exprBytes e) := by
  induction e using Expr.induct with
  | hl o v =>
    cases h with
    | literal h1 h2 =>
      simp only [serExpr, exprBytes]
      have := writes_seq (writes_obj expressionType o.handle) (writes_seq (writes_enum 18#32)
        (writes_seq (writes_size 0) (writes_seq (writes_datum little v (storable_writable h2))
          (writes_userData o.ud))))
      simpa using this
  | hv o hh p =>
    simp only [serExpr, exprBytes]
    have := writes_seq (writes_obj expressionType o.handle) (writes_seq (writes_enum 19#32)
      (writes_seq (writes_size 0) (writes_seq (writes_handle hh) (writes_userData o.ud))))
    simpa using this
  | hn o op args ih =>
    obtain ⟨h1, h2, h3⟩ := storable_node h
    have hargs : WritesBytes (serExprs little args) (exprsBytes args) := by
      clear h h2
      induction args with
      | nil => exact writes_nop
      | cons a args ih' =>
        simp only [serExprs, exprsBytes]
        exact writes_seq (ih a (by simp) (h3 a (by simp)))
          (ih' (fun b hb => ih b (by simp [hb])) (fun b hb => h3 b (by simp [hb])))
    simp only [serExpr, exprBytes]
    have := writes_seq (writes_obj expressionType o.handle) (writes_seq
      (writes_enum (BitVec.ofNat 32 op.code)) (writes_seq (writes_size args.length)
        (writes_seq hargs (writes_userData o.ud))))
    simpa using this

/-- Announced size. -/
theorem length_expr {m : BitVec 64 → Option Target} {f : BitVec 64 → BitVec 64 × Param}
    (e : Expr) (h : Storable m f e) : szExpr e = .ok (exprBytes e).length := by
  induction e using Expr.induct with
  | hl o v =>
    cases h with
    | literal h1 h2 =>
      simp only [szExpr, exprBytes, length_datum v (storable_writable h2), Out.bind_ok, List.length_append,
        length_obj, length_leb, length_userData, szEnum, szSize]
      congr 1; omega
  | hv o hh p =>
    simp only [szExpr, exprBytes, List.length_append, length_obj, length_leb, length_userData,
      szEnum, szHandle, szSize]
    congr 1; omega
  | hn o op args ih =>
    obtain ⟨h1, h2, h3⟩ := storable_node h
    have hargs : szExprs args = .ok (exprsBytes args).length := by
      clear h h2
      induction args with
      | nil => rfl
      | cons a args ih' =>
        simp only [szExprs, exprsBytes, ih a (by simp) (h3 a (by simp)),
          ih' (fun b hb => ih b (by simp [hb])) (fun b hb => h3 b (by simp [hb])), Out.bind_ok,
          List.length_append]
    simp only [szExpr, exprBytes, hargs, Out.bind_ok, List.length_append,
      length_obj, length_leb, length_userData, szEnum, szSize]
    congr 1; omega

/-- The common part of every expression around its own data. -/
theorem reads_around {little : Bool} {m : BitVec 64 → Option Target} {fuel : Nat} {t : BitVec 32}
    {body : Bytes} {o : ObjMeta} {e e' : Expr} (hud : o.ud.length < 2 ^ 64)
    (hb : ReadsBack (deExprBody little (some m) (deExprFuel little (some m) fuel) t o.handle)
      (lebBytes t ++ body) e') (he : e'.withUserData o.ud = e) :
    ReadsBack (deExprFuel little (some m) (fuel + 1))
      (objBytes expressionType o.handle ++ ((lebBytes t ++ body) ++ blobBytes o.ud)) e := by
  unfold deExprFuel
  refine reads_bind (decodes_obj _ _).1 ?_
  have hr : refute (expressionType ≠ expressionType) Err.invalidType = .ok () := by simp [refute]
  have e1 : (lebBytes t ++ body) ++ blobBytes o.ud = [] ++ (lebBytes t ++ (body ++ blobBytes o.ud)) := by
    simp
  rw [e1]
  refine reads_bind (x := ()) ?_ (reads_peek (decodes_enum t).1 ?_)
  · rw [hr]; exact (decodes_lift ()).1
  · rw [← List.append_assoc]
    exact reads_bind hb (reads_bind_pure (reads_userData hud) (by rw [he]))

/-- Outcome of reading an expression, from the outcome of reading its own data. -/
theorem around_result {little : Bool} {map : HandleMap} {fuel : Nat} (t : BitVec 32) (h : BitVec 64)
    (rest : Bytes) :
    deExprFuel little map (fuel + 1) (objBytes expressionType h ++ (lebBytes t ++ rest)) =
      (deExprBody little map (deExprFuel little map fuel) t h (lebBytes t ++ rest) >>= fun p =>
        (deUserData p.2 >>= fun q => .ok (p.1.withUserData q.1, q.2))) := by
  have h1 := (decodes_obj expressionType h).1 (lebBytes t ++ rest)
  have h2 := (decodes_enum t).1 rest
  have hr : refute (expressionType ≠ expressionType) Err.invalidType = .ok () := by simp [refute]
  conv => lhs; unfold deExprFuel
  rw [Rd.bind_eq, h1, Out.bind_ok, Rd.bind_eq, hr, Rd.lift_ok, Out.bind_ok, Rd.bind_eq]
  unfold Rd.peek
  simp only
  rw [h2]
  rfl

theorem reads_noNodes (t : BitVec 32) :
    ReadsBack deNoNodes (lebBytes t ++ lebBytes (BitVec.ofNat 64 0)) () :=
  reads_bind (decodes_enum t).1 (reads_bind_pure (decodes_size (n := 0) (by decide)).1 rfl)

theorem ofCode_code (op : Op) : Op.ofCode op.code = some op := by cases op <;> rfl

theorem code_toNat (op : Op) : (BitVec.ofNat 32 op.code).toNat = op.code := by cases op <;> rfl

theorem findSome_expr (es : List Expr) : (es.map Node.expr).findSome? Node.refusal = none := by
  induction es with
  | nil => rfl
  | cons e es ih => simp [Node.refusal, ih]

theorem makeNodes_expr (es : List Expr) : makeNodes [] (es.map Node.expr) = .ok es := by
  induction es with
  | nil => rfl
  | cons e es ih => simp [makeNodes, ih]

theorem objBytes_pos (t : BitVec 32) (h : BitVec 64) : 0 < (objBytes t h).length := by
  unfold objBytes
  rw [List.length_append]
  have : 0 < (lebBytes t).length := by
    rw [lebBytes]
    split <;> simp
  omega

theorem exprBytes_pos (e : Expr) : 0 < (exprBytes e).length := by
  have h := objBytes_pos expressionType
  cases e with
  | literal o v => have := h o.handle; simp only [exprBytes, List.length_append]; omega
  | var o hh p => have := h o.handle; simp only [exprBytes, List.length_append]; omega
  | node o op args => have := h o.handle; simp only [exprBytes, List.length_append]; omega

theorem mem_exprsBytes {e : Expr} {es : List Expr} (h : e ∈ es) :
    (exprBytes e).length ≤ (exprsBytes es).length := by
  induction es with
  | nil => cases h
  | cons x xs ih =>
    simp only [exprsBytes, List.length_append]
    rcases List.mem_cons.1 h with rfl | h
    · omega
    · have := ih h; omega

theorem reads_times' {r : Rd β} {g : α → Bytes} {f : α → β} (xs : List α)
    (h : ∀ x ∈ xs, ReadsBack r (g x) (f x)) :
    ReadsBack (Rd.times r xs.length) (xs.flatMap g) (xs.map f) := by
  induction xs with
  | nil => exact reads_pure _
  | cons x xs ih =>
    rw [List.length_cons, Rd.times, List.flatMap_cons]
    exact reads_bind (h x (by simp)) (reads_bind_pure (ih fun y hy => h y (by simp [hy])) rfl)

theorem reads_expr_fuel (little : Bool) {m : BitVec 64 → Option Target} {f : BitVec 64 → BitVec 64 × Param}
    (e : Expr) (hb : Built e) (hs : Storable m f e) (fuel : Nat) (hf : (exprBytes e).length ≤ fuel) :
    ReadsBack (deExprFuel little (some m) fuel) (exprBytes e) (relabel f e) := by
  induction e using Expr.induct generalizing fuel with
  | hl o v =>
    cases hs with
    | literal h1 h2 =>
      have hpos := exprBytes_pos (.literal o v)
      obtain ⟨fuel, rfl⟩ : ∃ k, fuel = k + 1 := ⟨fuel - 1, by omega⟩
      simp only [exprBytes, relabel]
      refine reads_around h1 (e' := .literal ⟨o.handle, []⟩ v) ?_ rfl
      rw [← List.append_assoc]
      unfold deExprBody
      rw [if_pos rfl]
      unfold deLiteral
      refine reads_bind (reads_noNodes _) (reads_bind_pure (decodes_datum little v (storable_writable h2)).1 ?_)
      rw [storable_readBack h2]
      have ht : v.tag ≤ 4 := by
        rcases built_cases hb with ⟨o', v', h, ht⟩ | ⟨_, _, _, h, -⟩ | ⟨_, _, _, h, -⟩ <;> cases h
        exact ht
      unfold createLiteral
      rw [if_neg (by omega)]
      rfl
  | hv o hh p =>
    cases hs with
    | var h1 h2 h3 =>
      have hpos := exprBytes_pos (.var o hh p)
      obtain ⟨fuel, rfl⟩ : ∃ k, fuel = k + 1 := ⟨fuel - 1, by omega⟩
      simp only [exprBytes, relabel]
      refine reads_around h1 (e' := .var ⟨o.handle, []⟩ (f hh).1 (f hh).2) ?_ rfl
      rw [← List.append_assoc]
      unfold deExprBody
      rw [if_neg (by decide), if_pos rfl]
      unfold deVariable
      have hr : refute ((some m : HandleMap).isNone = true) Err.invalidObject = .ok () := by simp [refute]
      rw [hr]
      refine reads_bind (b₁ := []) (decodes_lift ()).1 (reads_bind (reads_noNodes _)
        (reads_bind_pure (decodes_handle hh).1 ?_))
      simp only [targetVariable, h2, createVariable, if_neg h3]
      rfl
  | hn o op args ih =>
    obtain ⟨h1, h2, h3⟩ := storable_node hs
    have hpos := objBytes_pos expressionType o.handle
    have hargs : (∀ a, op.arity = some a → args.length = a) ∧ ∀ a ∈ args, Built a := by
      rcases built_cases hb with ⟨_, _, h, -⟩ | ⟨_, _, _, h, -⟩ | ⟨_, _, _, h, ha, hb'⟩ <;> cases h
      exact ⟨ha, hb'⟩
    have hle : (exprsBytes args).length + 1 ≤ fuel := by
      simp only [exprBytes, List.length_append] at hf
      omega
    obtain ⟨fuel, rfl⟩ : ∃ k, fuel = k + 1 := ⟨fuel - 1, by omega⟩
    simp only [exprBytes, relabel, relabelAll_eq]
    refine reads_around h1 (e' := .node ⟨o.handle, []⟩ op (args.map (relabel f))) ?_ rfl
    unfold deExprBody
    rw [if_neg (by cases op <;> decide), if_neg (by cases op <;> decide),
      if_neg (by cases op <;> decide)]
    unfold deGeneral
    rw [exprsBytes_eq]
    refine reads_bind (decodes_enum _).1 (reads_bind (decodes_size h2).1
      (reads_bind_pure (reads_times' args fun a ha =>
        ih a ha (hargs.2 a ha) (h3 a ha) fuel ?_) ?_))
    · have := mem_exprsBytes ha
      omega
    · have hc : createExpression ⟨o.handle, []⟩ [] (BitVec.ofNat 32 op.code).toNat
          ((args.map (relabel f)).map Node.expr) = .ok (.node ⟨o.handle, []⟩ op (args.map (relabel f))) := by
        unfold createExpression
        rw [code_toNat, ofCode_code]
        simp only
        rw [findSome_expr, makeNodes_expr]
        have : arityMismatch op ((args.map (relabel f)).map Node.expr).length = false := by
          unfold arityMismatch
          cases har : op.arity with
          | none => rfl
          | some a =>
            have := hargs.1 a har
            simp [this]
        rw [this]
        rfl
      rw [hc]
      rfl

theorem reads_expr (little : Bool) {m : BitVec 64 → Option Target} {f : BitVec 64 → BitVec 64 × Param}
    (e : Expr) (hb : Built e) (hs : Storable m f e) :
    ReadsBack (deExpr little (some m)) (exprBytes e) (relabel f e) := by
  intro tail
  unfold deExpr
  exact reads_expr_fuel little e hb hs _ (by rw [List.length_append]; omega) tail

theorem param_relabel (f : BitVec 64 → BitVec 64 × Param) (e : Expr)
    (hp : ∀ h p, OccursAs h p e → (f h).2 = p) : (relabel f e).param? = e.param? := by
  cases e with
  | literal o v => rfl
  | var o h p => simp only [relabel, Expr.param?, hp h p .here]
  | node o op args => rfl

/-- Evaluation of a relabelled expression. -/
theorem eval_relabel (ops : FloatOps) (jen : Bytes → BitVec 32) (little : Bool) (env env' : Env)
    (f : BitVec 64 → BitVec 64 × Param) (e : Expr)
    (hp : ∀ h p, OccursAs h p e → (f h).2 = p ∧ env'.lookup (f h).1 = env.lookup h) :
    eval ops jen little env' (relabel f e) = eval ops jen little env e ∧
    evalItems ops jen little env' (relabel f e) = evalItems ops jen little env e := by
  induction e using Expr.induct with
  | hl o v => simp [relabel, eval, evalItems]
  | hv o h p => simp [relabel, eval, evalItems, (hp h p .here).2]
  | hn o op args ih =>
    have hargs : ∀ a ∈ args, ∀ h p, OccursAs h p a → (f h).2 = p ∧ env'.lookup (f h).1 = env.lookup h :=
      fun a ha h p ho => hp h p (.inside ha ho)
    have hall : evalAll ops jen little env' (args.map (relabel f)) = evalAll ops jen little env args := by
      rw [evalAll_eq, evalAll_eq, List.map_map]
      exact List.map_congr_left fun a ha => (ih a ha (hargs a ha)).1
    have hpar : (args.map (relabel f)).map Expr.param? = args.map Expr.param? := by
      rw [List.map_map]
      exact List.map_congr_left fun a ha => param_relabel f a fun h p ho => (hargs a ha h p ho).1
    have hsec : evalSecond ops jen little env' (args.map (relabel f)) = evalSecond ops jen little env args := by
      cases args with
      | nil => rfl
      | cons a as =>
        cases as with
        | nil => rfl
        | cons b bs =>
          simp only [List.map_cons, evalSecond, evalHeadItems]
          exact (ih b (by simp) (hargs b (by simp))).2
    simp only [relabel, relabelAll_eq]
    constructor
    · simp only [eval, hall, hsec, hpar]
    · simp only [evalItems, hall]

end CCS
