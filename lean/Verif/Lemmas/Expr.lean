import Verif.Lemmas.Param
import Verif.Spec.Expr

/-! Helper lemmas about expressions. -/

namespace CCS

open Spec

/-! ### Induction -/

mutual
theorem Expr.induct_aux {P : Expr → Prop} (hl : ∀ o v, P (.literal o v))
    (hv : ∀ o h p, P (.var o h p)) (hn : ∀ o op args, (∀ a ∈ args, P a) → P (.node o op args)) :
    ∀ e, P e
  | .literal o v => hl o v
  | .var o h p => hv o h p
  | .node o op args => hn o op args (Expr.induct_list hl hv hn args)

theorem Expr.induct_list {P : Expr → Prop} (hl : ∀ o v, P (.literal o v))
    (hv : ∀ o h p, P (.var o h p)) (hn : ∀ o op args, (∀ a ∈ args, P a) → P (.node o op args)) :
    ∀ es : List Expr, ∀ a ∈ es, P a
  | [], a, h => by cases h
  | e :: es, a, h => by
    rcases List.mem_cons.1 h with h | h
    · rw [h]; exact Expr.induct_aux hl hv hn e
    · exact Expr.induct_list hl hv hn es a h
end

/-- Induction on expressions. -/
theorem Expr.induct {P : Expr → Prop} (e : Expr) (hl : ∀ o v, P (.literal o v))
    (hv : ∀ o h p, P (.var o h p)) (hn : ∀ o op args, (∀ a ∈ args, P a) → P (.node o op args)) :
    P e := Expr.induct_aux hl hv hn e

/-! ### Evaluation -/

section
variable (ops : FloatOps) (jen : Bytes → BitVec 32) (little : Bool) (env : Env)

theorem evalAll_eq (es : List Expr) : evalAll ops jen little env es = es.map (eval ops jen little env) := by
  induction es with
  | nil => rfl
  | cons e es ih => simp [evalAll, ih]

theorem eval_node (o : ObjMeta) (op : Op) (args : List Expr) :
    eval ops jen little env (.node o op args) =
      evalOp ops jen little op (args.map Expr.param?) (evalAll ops jen little env args)
        (evalSecond ops jen little env args) := by
  simp [eval]

theorem eval_binary (o : ObjMeta) (op : Op) (x y : Expr) :
    eval ops jen little env (.node o op [x, y]) =
      evalOp ops jen little op [x.param?, y.param?] [eval ops jen little env x, eval ops jen little env y]
        (evalItems ops jen little env y) := by
  simp [eval, evalAll, evalSecond, evalHeadItems]

theorem eval_unary (o : ObjMeta) (op : Op) (x : Expr) :
    eval ops jen little env (.node o op [x]) =
      evalOp ops jen little op [x.param?] [eval ops jen little env x] none := by
  simp [eval, evalAll, evalSecond, evalHeadItems]

theorem evalItems_list (o : ObjMeta) (items : List Expr) :
    evalItems ops jen little env (.node o .list items) = some (items.map (eval ops jen little env)) := by
  simp [evalItems, evalAll_eq]

end

theorem collectAll_eq (es : List Expr) : collectAll es = es.flatMap Expr.collect := by
  induction es with
  | nil => rfl
  | cons e es ih => simp [collectAll, ih]

theorem collect_node (o : ObjMeta) (op : Op) (args : List Expr) :
    (Expr.node o op args).collect = args.flatMap Expr.collect := by
  simp [Expr.collect, collectAll_eq]

theorem mem_collect (h : BitVec 64) (e : Expr) : h ∈ e.collect ↔ Occurs h e := by
  refine Expr.induct (P := fun e => h ∈ e.collect ↔ Occurs h e) e ?_ ?_ ?_
  · intro o v
    simp only [Expr.collect, List.not_mem_nil, false_iff]
    intro hc; cases hc
  · intro o h' p
    simp only [Expr.collect, List.mem_singleton]
    constructor
    · rintro rfl; exact .here
    · intro hc; cases hc; rfl
  · intro o op args ih
    rw [collect_node, List.mem_flatMap]
    constructor
    · rintro ⟨a, ha, hh⟩
      exact .inside ha ((ih a ha).1 hh)
    · intro hc
      cases hc with
      | inside ha hh => exact ⟨_, ha, (ih _ ha).2 hh⟩

/-- Evaluation only looks at the variables that occur. -/
theorem eval_congr (ops : FloatOps) (jen : Bytes → BitVec 32) (little : Bool) (e₁ e₂ : Env) (e : Expr)
    (h : ∀ x ∈ e.collect, e₁.lookup x = e₂.lookup x) :
    eval ops jen little e₁ e = eval ops jen little e₂ e ∧
    evalItems ops jen little e₁ e = evalItems ops jen little e₂ e := by
  revert h
  refine Expr.induct (P := fun e => (∀ x ∈ e.collect, e₁.lookup x = e₂.lookup x) →
    eval ops jen little e₁ e = eval ops jen little e₂ e ∧
    evalItems ops jen little e₁ e = evalItems ops jen little e₂ e) e ?_ ?_ ?_
  · intro o v _; simp [eval, evalItems]
  · intro o h p hh
    simp only [eval, evalItems, and_true]
    exact hh h (by simp [Expr.collect])
  · intro o op args ih hh
    have hargs : ∀ a ∈ args, eval ops jen little e₁ a = eval ops jen little e₂ a ∧
        evalItems ops jen little e₁ a = evalItems ops jen little e₂ a := by
      intro a ha
      refine ih a ha fun x hx => hh x ?_
      rw [collect_node, List.mem_flatMap]
      exact ⟨a, ha, hx⟩
    have hall : evalAll ops jen little e₁ args = evalAll ops jen little e₂ args := by
      rw [evalAll_eq, evalAll_eq]
      exact List.map_congr_left fun a ha => (hargs a ha).1
    have hsec : evalSecond ops jen little e₁ args = evalSecond ops jen little e₂ args := by
      cases args with
      | nil => rfl
      | cons a as =>
        cases as with
        | nil => rfl
        | cons b bs => simp only [evalSecond, evalHeadItems]; exact (hargs b (by simp)).2
    constructor
    · simp only [eval, hall, hsec]
    · simp only [evalItems, hall]

/-! ### Reported parameters -/

theorem mem_insertAddr (x y : BitVec 64) (xs : List (BitVec 64)) :
    y ∈ insertAddr x xs ↔ y = x ∨ y ∈ xs := by
  induction xs with
  | nil => simp [insertAddr]
  | cons z zs ih =>
    unfold insertAddr
    split
    · simp
    · simp only [List.mem_cons, ih]
      constructor
      · rintro (h | h | h) <;> simp [h]
      · rintro (h | h | h) <;> simp [h]

theorem mem_sortAddr (y : BitVec 64) (xs : List (BitVec 64)) : y ∈ sortAddr xs ↔ y ∈ xs := by
  induction xs with
  | nil => simp [sortAddr]
  | cons z zs ih => simp [sortAddr, mem_insertAddr, ih]

theorem sorted_insertAddr {x : BitVec 64} {xs : List (BitVec 64)}
    (h : xs.Pairwise (fun a b => a.toNat ≤ b.toNat)) :
    (insertAddr x xs).Pairwise (fun a b => a.toNat ≤ b.toNat) := by
  induction xs with
  | nil => simp [insertAddr]
  | cons z zs ih =>
    rw [List.pairwise_cons] at h
    unfold insertAddr
    split
    · next hx =>
      rw [List.pairwise_cons, List.pairwise_cons]
      refine ⟨?_, h⟩
      intro a ha
      rcases List.mem_cons.1 ha with rfl | ha
      · exact hx
      · exact Nat.le_trans hx (h.1 a ha)
    · next hx =>
      rw [List.pairwise_cons]
      refine ⟨?_, ih h.2⟩
      intro a ha
      rcases (mem_insertAddr _ _ _).1 ha with rfl | ha
      · omega
      · exact h.1 a ha

theorem sorted_sortAddr (xs : List (BitVec 64)) :
    (sortAddr xs).Pairwise (fun a b => a.toNat ≤ b.toNat) := by
  induction xs with
  | nil => exact .nil
  | cons z zs ih => exact sorted_insertAddr ih

theorem skipRepeats_spec {prev : BitVec 64} {xs : List (BitVec 64)}
    (hs : xs.Pairwise (fun a b => a.toNat ≤ b.toNat)) (hp : ∀ x ∈ xs, prev.toNat ≤ x.toNat) :
    (∀ y, y ∈ skipRepeats prev xs ↔ y ∈ xs ∧ y ≠ prev) ∧
    (skipRepeats prev xs).Pairwise (fun a b => a.toNat < b.toNat) := by
  induction xs generalizing prev with
  | nil => simp [skipRepeats]
  | cons x xs ih =>
    rw [List.pairwise_cons] at hs
    unfold skipRepeats
    by_cases hx : x ≠ prev
    · rw [if_pos hx]
      obtain ⟨i1, i2⟩ := ih (prev := x) hs.2 hs.1
      have hlt : prev.toNat < x.toNat := by
        have := hp x (by simp)
        have hne : prev.toNat ≠ x.toNat := fun h => hx (BitVec.eq_of_toNat_eq h.symm)
        omega
      constructor
      · intro y
        rw [List.mem_cons, i1, List.mem_cons]
        constructor
        · rintro (rfl | ⟨h1, h2⟩)
          · exact ⟨.inl rfl, hx⟩
          · refine ⟨.inr h1, ?_⟩
            rintro rfl
            have := hs.1 _ h1
            omega
        · rintro ⟨rfl | h1, h2⟩
          · exact .inl rfl
          · by_cases h3 : y = x
            · exact .inl h3
            · exact .inr ⟨h1, h3⟩
      · rw [List.pairwise_cons]
        refine ⟨?_, i2⟩
        intro a ha
        obtain ⟨h1, h2⟩ := (i1 a).1 ha
        have := hs.1 a h1
        have hne : x.toNat ≠ a.toNat := fun h => h2 (BitVec.eq_of_toNat_eq h.symm)
        omega
    · rw [if_neg hx]
      have hxp : x = prev := Classical.not_not.1 hx
      obtain ⟨i1, i2⟩ := ih (prev := prev) hs.2 (fun y hy => hp y (by simp [hy]))
      refine ⟨?_, i2⟩
      intro y
      rw [i1, List.mem_cons]
      constructor
      · rintro ⟨h1, h2⟩; exact ⟨.inr h1, h2⟩
      · rintro ⟨rfl | h1, h2⟩
        · exact absurd hxp h2
        · exact ⟨h1, h2⟩

theorem parameters_spec (e : Expr) :
    (∀ h, h ∈ e.parameters ↔ Occurs h e ∧ h ≠ 0#64) ∧
    e.parameters.Pairwise (fun a b => a.toNat < b.toNat) := by
  obtain ⟨h1, h2⟩ := skipRepeats_spec (prev := 0#64) (sorted_sortAddr e.collect) (by simp)
  refine ⟨?_, h2⟩
  intro h
  unfold Expr.parameters
  rw [h1, mem_sortAddr, mem_collect]

/-- A strictly increasing list is determined by its elements. -/
theorem sorted_ext {xs ys : List (BitVec 64)} (hx : xs.Pairwise (fun a b => a.toNat < b.toNat))
    (hy : ys.Pairwise (fun a b => a.toNat < b.toNat)) (h : ∀ a, a ∈ xs ↔ a ∈ ys) : xs = ys := by
  induction xs generalizing ys with
  | nil =>
    cases ys with
    | nil => rfl
    | cons y ys => exact absurd ((h y).2 (by simp)) (by simp)
  | cons x xs ih =>
    cases ys with
    | nil => exact absurd ((h x).1 (by simp)) (by simp)
    | cons y ys =>
      rw [List.pairwise_cons] at hx hy
      have hxy : x = y := by
        rcases List.mem_cons.1 ((h x).1 (by simp)) with h1 | h1
        · exact h1
        rcases List.mem_cons.1 ((h y).2 (by simp)) with h2 | h2
        · exact h2.symm
        have := hx.1 y h2
        have := hy.1 x h1
        omega
      subst hxy
      congr 1
      refine ih hx.2 hy.2 fun a => ?_
      constructor
      · intro ha
        rcases List.mem_cons.1 ((h a).1 (by simp [ha])) with rfl | h1
        · have := hx.1 a ha; omega
        · exact h1
      · intro ha
        rcases List.mem_cons.1 ((h a).2 (by simp [ha])) with rfl | h1
        · have := hy.1 a ha; omega
        · exact h1

/-! ### Creation -/

theorem makeNodes_ok {os : List ObjMeta} {ns : List Node} {es : List Expr} (h : makeNodes os ns = .ok es) :
    es.length = ns.length ∧ ∀ e ∈ es, Node.expr e ∈ ns ∨ (∃ o v, createLiteral o v = .ok e) ∨
      (∃ o h p, createVariable o h p = .ok e) := by
  induction ns generalizing os es with
  | nil => simp only [makeNodes, Out.ok.injEq] at h; subst h; simp
  | cons n ns ih =>
    cases n with
    | expr x =>
      simp only [makeNodes] at h
      obtain ⟨es', h1, h2⟩ := bind_eq_ok h
      cases h2
      obtain ⟨i1, i2⟩ := ih h1
      refine ⟨by simp [i1], ?_⟩
      intro e he
      rcases List.mem_cons.1 he with rfl | he
      · exact .inl (by simp)
      · rcases i2 e he with h3 | h3
        · exact .inl (by simp [h3])
        · exact .inr h3
    | param hh p =>
      simp only [makeNodes] at h
      obtain ⟨e', h0, h⟩ := bind_eq_ok h
      obtain ⟨es', h1, h2⟩ := bind_eq_ok h
      cases h2
      obtain ⟨i1, i2⟩ := ih h1
      refine ⟨by simp [i1], ?_⟩
      intro e he
      rcases List.mem_cons.1 he with rfl | he
      · exact .inr (.inr ⟨_, _, _, h0⟩)
      · rcases i2 e he with h3 | h3
        · exact .inl (by simp [h3])
        · exact .inr h3
    | value v =>
      simp only [makeNodes] at h
      obtain ⟨e', h0, h⟩ := bind_eq_ok h
      obtain ⟨es', h1, h2⟩ := bind_eq_ok h
      cases h2
      obtain ⟨i1, i2⟩ := ih h1
      refine ⟨by simp [i1], ?_⟩
      intro e he
      rcases List.mem_cons.1 he with rfl | he
      · exact .inr (.inl ⟨_, _, h0⟩)
      · rcases i2 e he with h3 | h3
        · exact .inl (by simp [h3])
        · exact .inr h3
    | object => simp [makeNodes] at h

theorem createLiteral_ok {o : ObjMeta} {v : Value} {e : Expr} (h : createLiteral o v = .ok e) :
    e = .literal o v ∧ v.tag ≤ 4 := by
  unfold createLiteral at h
  split at h
  · cases h
  · cases h; exact ⟨rfl, by omega⟩

theorem createVariable_ok {o : ObjMeta} {hh : BitVec 64} {p : Param} {e : Expr}
    (h : createVariable o hh p = .ok e) : e = .var o hh p ∧ hh ≠ 0#64 := by
  unfold createVariable at h
  split at h
  · cases h
  · cases h; exact ⟨rfl, by assumption⟩

theorem createExpression_ok {o : ObjMeta} {os : List ObjMeta} {t : Nat} {ns : List Node} {e : Expr}
    (h : createExpression o os t ns = .ok e) :
    ∃ op es, Op.ofCode t = some op ∧ (∀ a, op.arity = some a → ns.length = a) ∧
      makeNodes os ns = .ok es ∧ e = .node o op es := by
  unfold createExpression at h
  cases hop : Op.ofCode t with
  | none => rw [hop] at h; cases h
  | some op =>
    rw [hop] at h
    simp only at h
    have hc : arityMismatch op ns.length = false := by
      cases hc : arityMismatch op ns.length with
      | false => rfl
      | true => rw [hc] at h; simp at h
    rw [hc] at h
    simp only [Bool.false_eq_true, if_false] at h
    cases hf : ns.findSome? Node.refusal with
    | some e => rw [hf] at h; cases h
    | none =>
      rw [hf] at h
      obtain ⟨es, h1, h2⟩ := bind_eq_ok h
      cases h2
      refine ⟨op, es, rfl, ?_, h1, rfl⟩
      intro a ha
      unfold arityMismatch at hc
      rw [ha] at hc
      simpa using hc

/-- Structure of the expressions of the API. -/
theorem built_cases {e : Expr} (h : Built e) :
    (∃ o v, e = .literal o v ∧ v.tag ≤ 4) ∨ (∃ o hh p, e = .var o hh p ∧ hh ≠ 0#64) ∨
    (∃ o op args, e = .node o op args ∧ (∀ a, op.arity = some a → args.length = a) ∧
      ∀ a ∈ args, Built a) := by
  cases h with
  | literal h => exact .inl ⟨_, _, createLiteral_ok h⟩
  | var h => exact .inr (.inl ⟨_, _, _, createVariable_ok h⟩)
  | expression h hs =>
    obtain ⟨op, es, h1, h2, h3, rfl⟩ := createExpression_ok h
    obtain ⟨i1, i2⟩ := makeNodes_ok h3
    refine .inr (.inr ⟨_, op, es, rfl, ?_, ?_⟩)
    · intro a ha; rw [i1]; exact h2 a ha
    · intro a ha
      rcases i2 a ha with h4 | ⟨o, v, h4⟩ | ⟨o, hh, p, h4⟩
      · exact hs a h4
      · exact .literal h4
      · exact .var h4

theorem occurs_ne_zero {e : Expr} (hb : Built e) {h : BitVec 64} (ho : Occurs h e) : h ≠ 0#64 := by
  induction ho with
  | here =>
    rcases built_cases hb with ⟨_, _, he, _⟩ | ⟨_, _, _, he, hne⟩ | ⟨_, _, _, he, _⟩
    · cases he
    · cases he; exact hne
    · cases he
  | inside ha _ ih =>
    rcases built_cases hb with ⟨_, _, he, _⟩ | ⟨_, _, _, he, hne⟩ | ⟨_, _, _, he, _, hs⟩
    · cases he
    · cases he
    · cases he; exact ih (hs _ ha)

/-! ### Conversion of integers -/

theorem ofNat_small {m : Nat} (hm : 0 < m) (h : m ≤ 2 ^ 53) :
    ∃ e q, e ≤ 53 ∧ 2 ^ 52 ≤ q ∧ q < 2 ^ 53 ∧ F64.ofNat m = (e + 1022) * 2 ^ 52 + q ∧
      ∀ k, q * 2 ^ (e + k) = m * 2 ^ (52 + k) := by
  have hm0 : m ≠ 0 := by omega
  have h1 : 2 ^ m.log2 ≤ m := Nat.log2_self_le hm0
  have h2 : m < 2 ^ (m.log2 + 1) := Nat.lt_log2_self
  have hlog : m.log2 ≤ 53 := by
    rcases Nat.lt_or_ge 53 m.log2 with hc | hc
    · have : 2 ^ 54 ≤ 2 ^ m.log2 := Nat.pow_le_pow_right (by decide) hc
      have : (2:Nat) ^ 53 < 2 ^ 54 := by decide
      omega
    · exact hc
  unfold F64.ofNat
  rw [if_neg hm0]
  simp only
  by_cases he : m.log2 ≤ 52
  · rw [if_pos he]
    refine ⟨m.log2, m * 2 ^ (52 - m.log2), by omega, ?_, ?_, rfl, ?_⟩
    · calc 2 ^ 52 = 2 ^ m.log2 * 2 ^ (52 - m.log2) := by rw [← Nat.pow_add]; congr 1; omega
        _ ≤ _ := Nat.mul_le_mul_right _ h1
    · calc m * 2 ^ (52 - m.log2) < 2 ^ (m.log2 + 1) * 2 ^ (52 - m.log2) :=
            Nat.mul_lt_mul_of_pos_right h2 (Nat.two_pow_pos _)
        _ = 2 ^ 53 := by rw [← Nat.pow_add]; congr 1; omega
    · intro k; rw [Nat.mul_assoc, ← Nat.pow_add]; congr 2; omega
  · have h53 : m.log2 = 53 := by omega
    have hmm : m = 2 ^ 53 := by rw [h53] at h1; omega
    rw [if_neg he, h53, hmm]
    refine ⟨53, 2 ^ 52, by omega, by omega, by decide, ?_, ?_⟩
    · simp
    · intro k
      rw [← Nat.pow_add, ← Nat.pow_add]; congr 1; omega

/-- A positive integer of at most 53 bits is converted exactly. -/
theorem magnitude_ofNat {m : Nat} (hm : 0 < m) (h : m ≤ 2 ^ 53) :
    F64.ofNat m < 2047 * 2 ^ 52 ∧
    magnitude (F64.ofNat m / 2 ^ 52) (F64.ofNat m % 2 ^ 52) = m * 2 ^ 1074 := by
  obtain ⟨e, q, he, hq1, hq2, hb, hv⟩ := ofNat_small hm h
  rw [hb]
  have e1 : ((e + 1022) * 2 ^ 52 + q) / 2 ^ 52 = e + 1023 := by omega
  have e2 : ((e + 1022) * 2 ^ 52 + q) % 2 ^ 52 = q - 2 ^ 52 := by omega
  refine ⟨by omega, ?_⟩
  rw [e1, e2]
  unfold magnitude
  rw [if_neg (by omega)]
  have e3 : 2 ^ 52 + (q - 2 ^ 52) = q := by omega
  have e4 : e + 1023 - 1 = e + 1022 := by omega
  rw [e3, e4, hv 1022]

/-- Integers of magnitude at most `2^53` are converted exactly. -/
theorem realValue_ofInt {i : BitVec 64} (h1 : -2 ^ 53 ≤ i.toInt) (h2 : i.toInt ≤ 2 ^ 53) :
    realValue (F64.ofInt i) = some (i.toInt * ((2 ^ 1074 : Nat) : Int)) := by
  unfold F64.ofInt
  by_cases h0 : i.toInt = 0
  · rw [h0, if_neg (by omega)]
    simp [F64.ofNat, realValue, magnitude]
  obtain ⟨hb, hm⟩ := magnitude_ofNat (m := i.toInt.natAbs) (by omega) (by omega)
  generalize hn : F64.ofNat i.toInt.natAbs = n at *
  generalize hP : (2 ^ 1074 : Nat) = P at *
  clear hP
  by_cases hs : i.toInt < 0
  · rw [if_pos hs, realValue_eq]
    have ht : (BitVec.ofNat 64 (2 ^ 63 + n)).toNat = 2 ^ 63 + n := by
      rw [BitVec.toNat_ofNat]; apply Nat.mod_eq_of_lt; omega
    have hm' : (2 ^ 63 + n) % 2 ^ 63 = n := by omega
    have hnan : F64.isNaN (BitVec.ofNat 64 (2 ^ 63 + n)) = false := by
      unfold F64.isNaN
      rw [ht, hm']
      simp; omega
    rw [hnan, ht, hm', hm, if_pos (c := 2 ^ 63 ≤ 2 ^ 63 + n) (by omega)]
    simp only [Bool.false_eq_true, if_false, Option.some.injEq]
    have : i.toInt = -(i.toInt.natAbs : Int) := by omega
    rw [this]
    simp [Int.neg_mul]
  · rw [if_neg hs, realValue_eq]
    have ht : (BitVec.ofNat 64 n).toNat = n := by
      rw [BitVec.toNat_ofNat]; apply Nat.mod_eq_of_lt; omega
    have hm' : n % 2 ^ 63 = n := by omega
    have hnan : F64.isNaN (BitVec.ofNat 64 n) = false := by
      unfold F64.isNaN
      rw [ht, hm']
      simp; omega
    rw [hnan, ht, hm', hm, if_neg (c := 2 ^ 63 ≤ n) (by omega)]
    simp only [Bool.false_eq_true, if_false, Option.some.injEq]
    have : i.toInt = (i.toInt.natAbs : Int) := by omega
    rw [this]
    simp

/-- A double other than `-0.0` is determined by the number it denotes. -/
theorem float_ext {f g : F64} {n : Int} (hf : realValue f = some n) (hg : realValue g = some n)
    (h1 : f ≠ 0x8000000000000000#64) (h2 : g ≠ 0x8000000000000000#64) : f = g := by
  have hk := (key_eq_iff (x := f) (y := g) hf hg).2 rfl
  unfold F64.key at hk
  have n1 : f.toNat ≠ 2 ^ 63 := fun h => h1 (BitVec.eq_of_toNat_eq h)
  have n2 : g.toNat ≠ 2 ^ 63 := fun h => h2 (BitVec.eq_of_toNat_eq h)
  have := f.isLt
  have := g.isLt
  apply BitVec.eq_of_toNat_eq
  split at hk <;> split at hk <;> omega

/-! ### Equality -/

theorem memcmp8_eq_iff (little : Bool) (x y : BitVec 64) : memcmp8 little x y = .eq ↔ x = y := by
  unfold memcmp8
  rw [lexCmp_eq_iff]
  exact ⟨hostBytes_inj, fun h => by rw [h]⟩

theorem strOptCmp_eq_iff (s t : Option Bytes) : strOptCmp s t = .eq ↔ s = t := by
  cases s <;> cases t <;> simp [strOptCmp, lexCmp_eq_iff]

theorem feq_real (x y : F64) : F64.feq x y = true ↔ ∃ n, realValue x = some n ∧ realValue y = some n := by
  rw [feq_iff]; rfl

theorem testEqual_iff (little : Bool) (a b : Value) : (testEqual little a b).2 = true ↔ SameValue a b := by
  unfold SameValue
  cases a <;> cases b <;>
    try simp [testEqual, memcmp8_eq_iff, strOptCmp_eq_iff, feq_real]
  · constructor
    · rintro ⟨n, h1, h2⟩; exact ⟨_, _, ⟨rfl, rfl⟩, n, h1, h2⟩
    · rintro ⟨_, _, ⟨rfl, rfl⟩, n, h1, h2⟩; exact ⟨n, h1, h2⟩
  · constructor
    · rintro ⟨n, h1, h2⟩; exact ⟨_, _, ⟨rfl, rfl⟩, n, h2, h1⟩
    · rintro ⟨_, _, ⟨rfl, rfl⟩, n, h1, h2⟩; exact ⟨n, h2, h1⟩

/-! ### Truth tables -/

theorem evalOr_table (a b : Value) :
    (∀ p q, Spec.tri a = some p → Spec.tri b = some q → evalOr (.ok a) (.ok b) = .ok (p.or q).value) ∧
    (Spec.tri a = none ∨ Spec.tri b = none → evalOr (.ok a) (.ok b) = .err .invalidValue) := by
  unfold evalOr
  constructor
  · intro p q hp hq
    cases a with
    | bool x =>
      cases b with
      | bool y =>
        cases hp; cases hq
        by_cases h1 : x = 0#64 <;> by_cases h2 : y = 0#64 <;>
          simp [h1, h2, Spec.Tri.or, Spec.Tri.value, Value.ofBool, Value.tag]
      | inactive =>
        cases hp; cases hq
        by_cases h1 : x = 0#64 <;> simp [h1, Spec.Tri.or, Spec.Tri.value, Value.ofBool, Value.tag]
      | _ => cases hq
    | inactive =>
      cases b with
      | bool y =>
        cases hp; cases hq
        by_cases h2 : y = 0#64 <;>
          simp [h2, Spec.Tri.or, Spec.Tri.value, Value.ofBool, Value.tag]
      | inactive => cases hp; cases hq; rfl
      | _ => cases hq
    | _ => cases hp
  · intro h
    rcases h with h | h
    · cases a <;> first | (cases h; done) | rfl
    · cases b <;> first | (cases h; done) | (cases a <;> rfl)

theorem evalAnd_table (a b : Value) :
    (∀ p q, Spec.tri a = some p → Spec.tri b = some q → evalAnd (.ok a) (.ok b) = .ok (p.and q).value) ∧
    ((Spec.tri a = none ∧ Spec.tri b ≠ some .inactive) ∨ (Spec.tri b = none ∧ Spec.tri a ≠ some .inactive) →
      evalAnd (.ok a) (.ok b) = .err .invalidValue) := by
  unfold evalAnd
  constructor
  · intro p q hp hq
    cases a with
    | bool x =>
      cases b with
      | bool y =>
        cases hp; cases hq
        by_cases h1 : x = 0#64 <;> by_cases h2 : y = 0#64 <;>
          simp [h1, h2, Spec.Tri.and, Spec.Tri.value, Value.ofBool]
      | inactive =>
        cases hp; cases hq
        by_cases h1 : x = 0#64 <;> simp [h1, Spec.Tri.and, Spec.Tri.value]
      | _ => cases hq
    | inactive =>
      cases b with
      | bool y =>
        cases hp; cases hq
        by_cases h2 : y = 0#64 <;> simp [h2, Spec.Tri.and, Spec.Tri.value]
      | inactive => cases hp; cases hq; rfl
      | _ => cases hq
    | _ => cases hp
  · intro h
    rcases h with ⟨h, h'⟩ | ⟨h, h'⟩
    · cases a <;> first | (cases h; done) | (cases b <;> first | rfl | exact absurd rfl h')
    · cases b <;> first | (cases h; done) | (cases a <;> first | rfl | exact absurd rfl h')

theorem evalNot_table (a : Value) :
    (∀ p, Spec.tri a = some p → evalNot (.ok a) = .ok p.not.value) ∧
    (Spec.tri a = none → evalNot (.ok a) = .err .invalidValue) := by
  unfold evalNot
  constructor
  · intro p hp
    cases a with
    | bool x =>
      cases hp
      by_cases h1 : x = 0#64 <;> simp [h1, Spec.Tri.not, Spec.Tri.value, Value.ofBool]
    | inactive => cases hp; rfl
    | _ => cases hp
  · intro h
    cases a <;> first | (cases h; done) | rfl

/-! ### Comparisons -/

/-- The outcome of a comparison with the operands exchanged. -/
def Out.swapped : Out Ordering → Out Ordering
  | .ok c => .ok c.swap
  | r => r

theorem intCmp_swap (a b : BitVec 64) : intCmp b a = (intCmp a b).swap := by
  unfold intCmp
  by_cases h1 : a.toInt < b.toInt
  · have h2 : ¬ b.toInt < a.toInt := by omega
    simp [h1, h2]
  · by_cases h2 : b.toInt < a.toInt <;> simp [h1, h2]

theorem F64.lt_asymm {a b : F64} (h : F64.lt a b = true) : F64.lt b a = false := by
  unfold F64.lt at *
  simp only [Bool.and_eq_true, decide_eq_true_eq, Bool.not_eq_true'] at h
  simp
  intro _ _
  omega

theorem floatCmp_swap (a b : F64) : floatCmp b a = (floatCmp a b).swap := by
  unfold floatCmp
  by_cases h1 : F64.lt a b = true
  · simp [h1, F64.lt_asymm h1]
  · by_cases h2 : F64.lt b a = true <;> simp [h1, h2]

theorem strOptCmp_swap (s t : Option Bytes) : strOptCmp t s = (strOptCmp s t).swap := by
  cases s <;> cases t <;> simp [strOptCmp]
  exact lexCmp_swap _ _

theorem cmpGeneric_swap (a b : Value) : cmpGeneric b a = (cmpGeneric a b).swapped := by
  cases a <;> cases b <;> simp only [cmpGeneric, Out.swapped]
  · rw [intCmp_swap]
  · rw [floatCmp_swap]
  · rw [floatCmp_swap]
  · rw [floatCmp_swap]
  · rw [strOptCmp_swap]

theorem ordinalCompare_swap (jen : Bytes → BitVec 32) (little : Bool) (p : Param) (a b : Value) :
    ordinalCompare jen little p b a = (ordinalCompare jen little p a b).swapped := by
  unfold ordinalCompare
  cases p.kind with
  | numerical iv q => rfl
  | string => rfl
  | categorical k vals =>
    cases k with
    | categorical => rfl
    | discrete => rfl
    | ordinal =>
      simp only
      cases valueIndex jen little vals a with
      | none => cases valueIndex jen little vals b <;> rfl
      | some i =>
        cases valueIndex jen little vals b with
        | none => rfl
        | some j =>
          simp only [Out.swapped]
          by_cases h1 : i < j
          · have : ¬ j < i := by omega
            simp [h1, this]
          · by_cases h2 : j < i <;> simp [h1, h2]

theorem checkParameters_cases (jen : Bytes → BitVec 32) (little : Bool) (p : Option Param) (v : Value) :
    checkParameters jen little p v = .ok () ∨ checkParameters jen little p v = .err .invalidValue := by
  unfold checkParameters
  cases p with
  | none => exact .inl rfl
  | some p =>
    simp only
    split
    case h_5 => exact .inl rfl
    all_goals
      unfold refute
      split
      · exact .inr rfl
      · exact .inl rfl

/-- Two operands, not variables on two different ordinal parameters. -/
def OneOrder (pl pr : Option Param) : Prop := ∀ p q, ordinal? pl = some p → ordinal? pr = some q → p = q

theorem compareOperands_swap (jen : Bytes → BitVec 32) (little : Bool) {pl pr : Option Param}
    (h : OneOrder pl pr) (a b : Value) :
    compareOperands jen little pr pl b a = (compareOperands jen little pl pr a b).swapped := by
  unfold compareOperands
  rcases checkParameters_cases jen little pl b with h1 | h1 <;>
    rcases checkParameters_cases jen little pr a with h2 | h2 <;> rw [h1, h2] <;>
    simp only [Out.bind_ok, Out.bind_err, Out.swapped]
  cases hl : ordinal? pl with
  | none =>
    cases hr : ordinal? pr with
    | none => exact cmpGeneric_swap a b
    | some q => exact ordinalCompare_swap jen little q a b
  | some p =>
    cases hr : ordinal? pr with
    | none => exact ordinalCompare_swap jen little p a b
    | some q =>
      rw [h p q hl hr]
      exact ordinalCompare_swap jen little q a b

/-! ### Membership -/

theorem evalInLoop_found (jen : Bytes → BitVec 32) (little : Bool) (pl : Option Param) (a : Value)
    {pre : List Value} {post : List (Out Value)} (f : Bool)
    (hc : ∀ v ∈ pre, checkParameters jen little pl v = .ok ()) (hn : ∀ v ∈ pre, ¬ SameValue a v) :
    evalInLoop jen little pl a f (pre.map .ok ++ post) =
      evalInLoop jen little pl a (f || decide (Value.inactive ∈ pre)) post := by
  induction pre generalizing f with
  | nil => simp
  | cons v pre ih =>
    simp only [List.map_cons, List.cons_append, evalInLoop, Out.bind_ok]
    rw [hc v (by simp)]
    simp only [Out.bind_ok]
    rw [if_neg]
    · rw [ih _ (fun w hw => hc w (by simp [hw])) (fun w hw => hn w (by simp [hw]))]
      congr 1
      by_cases h1 : v = .inactive
      · simp [h1]
      · have h1' : ¬ Value.inactive = v := fun h => h1 h.symm
        simp [h1, h1', Bool.or_assoc]
    · rw [testEqual_iff]
      exact hn v (by simp)

/-! ### Values of a table -/

theorem valueIndex_eq (jen : Bytes → BitVec 32) (little : Bool) (vals : List Value) (v : Value) :
    valueIndex jen little vals v = vals.findIdx? (fun e => decide (e = v)) := by
  unfold valueIndex
  rw [valueMatch_eq]

theorem valueIndex_some {jen : Bytes → BitVec 32} {little : Bool} {vals : List Value} (hn : vals.Nodup)
    {v : Value} {i : Nat} (h : vals[i]? = some v) : valueIndex jen little vals v = some i := by
  rw [valueIndex_eq, List.findIdx?_eq_some_iff_getElem]
  obtain ⟨hi, hv⟩ := List.getElem?_eq_some_iff.1 h
  refine ⟨hi, by simp [hv], ?_⟩
  intro j hj
  simp only [decide_eq_true_eq]
  intro hcj
  exact List.pairwise_iff_getElem.1 (List.nodup_iff_pairwise_ne.1 hn) j i (by omega) hi hj
    (hcj.trans hv.symm)

/-! ### Numbers -/

/-- Comparison of two numbers. -/
def numCmp (m n : Int) : Ordering := if m < n then .lt else if n < m then .gt else .eq

theorem floatCmp_num {x y : F64} {m n : Int} (hx : realValue x = some m) (hy : realValue y = some n) :
    floatCmp x y = numCmp m n := by
  have h1 : (F64.lt x y = true) ↔ m < n := by
    have := lt_iff .float x y
    simp only [NumType.lt, num] at this
    rw [this]
    constructor
    · rintro ⟨a, b, ha, hb, hab⟩
      rw [hx] at ha; rw [hy] at hb
      have := Option.some.inj ha
      have := Option.some.inj hb
      omega
    · intro h; exact ⟨m, n, hx, hy, h⟩
  have h2 : (F64.lt y x = true) ↔ n < m := by
    have := lt_iff .float y x
    simp only [NumType.lt, num] at this
    rw [this]
    constructor
    · rintro ⟨a, b, ha, hb, hab⟩
      rw [hy] at ha; rw [hx] at hb
      have := Option.some.inj ha
      have := Option.some.inj hb
      omega
    · intro h; exact ⟨n, m, hy, hx, h⟩
  unfold floatCmp numCmp
  by_cases h3 : m < n
  · rw [if_pos (h1.2 h3), if_pos h3]
  · rw [if_neg (mt h1.1 h3), if_neg h3]
    by_cases h4 : n < m
    · rw [if_pos (h2.2 h4), if_pos h4]
    · rw [if_neg (mt h2.1 h4), if_neg h4]

theorem scale_lt (P : Nat) (hP : 0 < P) (a b : Int) : a * (P : Int) < b * (P : Int) ↔ a < b := by
  have : (0 : Int) < (P : Int) := by omega
  exact Int.mul_lt_mul_right this

theorem cmpGeneric_num {a b : Value} {m n : Int} (ha : number a = some m) (hb : number b = some n)
    (hc : a.tag = b.tag ∨ (Convertible a ∧ Convertible b)) : cmpGeneric a b = .ok (numCmp m n) := by
  have hpos : 0 < 2 ^ 1074 := Nat.pow_pos (by omega)
  unfold number at ha hb
  generalize hP : (2 ^ 1074 : Nat) = P at *
  cases a with
  | int i =>
    have ha := Option.some.inj ha
    cases b with
    | int j =>
      have hb := Option.some.inj hb
      subst ha hb
      simp only [cmpGeneric, intCmp, numCmp, scale_lt P hpos]
    | float g =>
      have hc : Convertible (.int i) := by
        rcases hc with h | h
        · simp [Value.tag] at h
        · exact h.1
      have hr := realValue_ofInt hc.1 hc.2
      rw [hP, ha] at hr
      exact congrArg Out.ok (floatCmp_num hr hb)
    | _ => cases hb
  | float f =>
    cases b with
    | int j =>
      have hb := Option.some.inj hb
      have hc : Convertible (.int j) := by
        rcases hc with h | h
        · simp [Value.tag] at h
        · exact h.2
      have hr := realValue_ofInt hc.1 hc.2
      rw [hP, hb] at hr
      exact congrArg Out.ok (floatCmp_num ha hr)
    | float g => exact congrArg Out.ok (floatCmp_num ha hb)
    | _ => cases hb
  | _ => cases ha

theorem number_ne_inactive {a : Value} {m : Int} (h : number a = some m) : a ≠ .inactive := by
  rintro rfl; cases h

/-! ### Equality of values -/

theorem sameValue_symm {a b : Value} (h : SameValue a b) : SameValue b a := by
  rcases h with h | ⟨i, f, n, h, h1, h2⟩
  · exact .inl h.symm
  · refine .inr ⟨i, f, n, ?_, h1, h2⟩
    rcases h with ⟨h, h'⟩ | ⟨h, h'⟩
    · exact .inr ⟨h', h⟩
    · exact .inl ⟨h', h⟩

theorem sameValue_plain_trans {a b c : Value} (ha : Roundless a) (hb : Roundless b) (hc : Roundless c)
    (h1 : SameValue a b) (h2 : SameValue b c) : SameValue a c := by
  have hpos : 0 < 2 ^ 1074 := Nat.pow_pos (by omega)
  rcases h1 with rfl | ⟨i, f, n, h, k1, k2⟩
  · exact h2
  rcases h2 with rfl | ⟨j, g, m, h', l1, l2⟩
  · exact .inr ⟨i, f, n, h, k1, k2⟩
  rcases h with ⟨rfl, rfl⟩ | ⟨rfl, rfl⟩
  · rcases h' with ⟨h', -⟩ | ⟨h', rfl⟩
    · cases h'
    · cases h'
      left
      have e1 := realValue_ofInt ha.1 ha.2
      have e2 := realValue_ofInt hc.1 hc.2
      generalize hP : (2 ^ 1074 : Nat) = P at *
      have hnm : n = m := Option.some.inj (k2.symm.trans l2)
      have e3 := Option.some.inj (e1.symm.trans k1)
      have e4 := Option.some.inj (e2.symm.trans l1)
      have : i.toInt * (P : Int) = j.toInt * (P : Int) := by rw [e3, e4, hnm]
      have := Int.eq_of_mul_eq_mul_right (by omega) this
      rw [BitVec.eq_of_toInt_eq this]
  · rcases h' with ⟨h', rfl⟩ | ⟨h', -⟩
    · cases h'
      left
      have hnm : n = m := Option.some.inj (k1.symm.trans l1)
      rw [float_ext k2 (hnm ▸ l2) ha hc]
    · cases h'

theorem testEqual_valid (little : Bool) {a b : Value} (h : SameValue a b) : (testEqual little a b).1 = true := by
  rcases h with rfl | ⟨i, f, n, ⟨rfl, rfl⟩ | ⟨rfl, rfl⟩, -⟩
  · cases a <;> rfl
  · rfl
  · rfl

theorem testEqual_symm (little : Bool) (a b : Value) : testEqual little a b = testEqual little b a := by
  have h2 : (testEqual little a b).2 = (testEqual little b a).2 := by
    rw [Bool.eq_iff_iff, testEqual_iff, testEqual_iff]
    exact ⟨sameValue_symm, sameValue_symm⟩
  have h1 : (testEqual little a b).1 = (testEqual little b a).1 := by
    cases a <;> cases b <;> rfl
  exact Prod.ext h1 h2

theorem evalEqual_none {jen : Bytes → BitVec 32} {little : Bool} {neg : Bool} {a b : Value}
    (ha : a ≠ .inactive) (hb : b ≠ .inactive) :
    evalEqual jen little neg none none (.ok a) (.ok b) =
      if (testEqual little a b).1 = false then .err .invalidValue
      else .ok (.ofBool (if neg then !(testEqual little a b).2 else (testEqual little a b).2)) := by
  simp [evalEqual, ha, hb, checkParameters]

/-! ### Integer arithmetic -/

theorem intResult_fits {n : Int} (h : Fits n) :
    ∃ r : BitVec 64, intResult n = .ok (.int r) ∧ r.toInt = n := by
  refine ⟨BitVec.ofInt 64 n, ?_, ?_⟩
  · unfold intResult; exact if_pos h
  · exact BitVec.toInt_ofInt_eq_self (by omega) h.1 h.2

theorem intResult_over {n : Int} (h : ¬ Fits n) : intResult n = .ub := by
  unfold intResult; exact if_neg h

theorem toInt_zero_iff (y : BitVec 64) : y = 0#64 ↔ y.toInt = 0 := by
  constructor
  · rintro rfl; rfl
  · intro h; exact BitVec.eq_of_toInt_eq h

theorem tdiv_big {x y : Int} (hx : Fits x) (hy : Fits y) (hy0 : y ≠ 0)
    (h : ¬ x.tdiv y < 2 ^ 63) : x = -2 ^ 63 ∧ y = -1 := by
  have hb := hx.1
  have hb2 := hx.2
  have h1 : (x.tdiv y).natAbs = x.natAbs / y.natAbs := Int.natAbs_tdiv x y
  have h2 : x.natAbs / y.natAbs ≤ x.natAbs := Nat.div_le_self _ _
  by_cases hy1 : y.natAbs = 1
  · rcases (by omega : y = 1 ∨ y = -1) with rfl | rfl
    · rw [Int.tdiv_one] at h; omega
    · have : x.tdiv (-1) = -x := by rw [Int.tdiv_neg, Int.tdiv_one]
      rw [this] at h
      exact ⟨by omega, rfl⟩
  · exfalso
    have h3 : x.natAbs / y.natAbs ≤ x.natAbs / 2 := Nat.div_le_div_left (by omega) (by omega)
    omega

end CCS
