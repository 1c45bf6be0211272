import Verif.Spec.ExprDefined
import Verif.Spec.Ieee
import Verif.Lemmas.Expr
import Verif.Props.Expr

/-!
# Operands of expressions

C146: an expression has exactly the operands its operator takes, so that an evaluation finds them, and an evaluation
is undefined only by a signed overflow.
-/

namespace CCS.Props

open CCS CCS.Spec

theorem usable_iff (n : Node) : Node.refusal n = none ↔ UsableOperand n := by
  cases n with
  | value v => cases v <;> simp [Node.refusal, UsableOperand, Value.tag]
  | expr e => simp [Node.refusal, UsableOperand]
  | param h p => by_cases h0 : h = 0#64 <;> simp [Node.refusal, UsableOperand, h0]
  | object => simp [Node.refusal, UsableOperand]

theorem takes_iff (t n : Nat) :
    TakesOperands t n ↔ ∃ op, Op.ofCode t = some op ∧ arityMismatch op n = false := by
  by_cases ht : t < 18
  · have : t = 0 ∨ t = 1 ∨ t = 2 ∨ t = 3 ∨ t = 4 ∨ t = 5 ∨ t = 6 ∨ t = 7 ∨ t = 8 ∨ t = 9 ∨ t = 10 ∨ t = 11 ∨ t = 12 ∨
      t = 13 ∨ t = 14 ∨ t = 15 ∨ t = 16 ∨ t = 17 := by omega
    rcases this with rfl | rfl | rfl | rfl | rfl | rfl | rfl | rfl | rfl | rfl | rfl | rfl | rfl | rfl | rfl | rfl | rfl |
      rfl <;> simp [TakesOperands, Op.ofCode, arityMismatch, Op.arity]
  · have : Op.ofCode t = none := by
      unfold Op.ofCode
      split <;> first | omega | rfl
    rw [this]
    simp only [TakesOperands]
    constructor
    · intro h; omega
    · rintro ⟨_, h, _⟩; cases h

theorem made {ns : List Node} (h : ∀ n ∈ ns, UsableOperand n) : ∀ os, ∃ es, makeNodes os ns = .ok es ∧
    es.length = ns.length ∧ ∀ (i : Nat) n e, ns[i]? = some n → es[i]? = some e → StandsFor n e := by
  induction ns with
  | nil => exact fun os => ⟨[], by simp [makeNodes], rfl, fun i n e hn => by simp at hn⟩
  | cons n ns ih =>
    intro os
    have hn := h n (by simp)
    have step : ∀ (e : Expr) (os' : List ObjMeta), StandsFor n e →
        (∀ es, makeNodes os' ns = .ok es → makeNodes os (n :: ns) = .ok (e :: es)) →
        ∃ es, makeNodes os (n :: ns) = .ok es ∧ es.length = (n :: ns).length ∧
          ∀ (i : Nat) m x, (n :: ns)[i]? = some m → es[i]? = some x → StandsFor m x := by
      intro e os' hs hm
      obtain ⟨es, h1, h2, h3⟩ := ih (fun m hm => h m (by simp [hm])) os'
      refine ⟨e :: es, hm es h1, by simp [h2], fun i m x hi hx => ?_⟩
      cases i with
      | zero => cases hi; cases hx; exact hs
      | succ i => exact h3 i m x (by simpa using hi) (by simpa using hx)
    cases n with
    | expr e => exact step e os rfl fun es he => by simp only [makeNodes, he]; rfl
    | param a p =>
      refine step (.var (os.headD ⟨0#64, []⟩) a p) os.tail ⟨_, rfl⟩ fun es he => ?_
      have : createVariable (os.headD ⟨0#64, []⟩) a p = .ok (.var (os.headD ⟨0#64, []⟩) a p) := by
        unfold createVariable; exact if_neg hn
      simp only [makeNodes, this, he]; rfl
    | value v =>
      refine step (.literal (os.headD ⟨0#64, []⟩) v) os.tail ⟨_, rfl⟩ fun es he => ?_
      have : createLiteral (os.headD ⟨0#64, []⟩) v = .ok (.literal (os.headD ⟨0#64, []⟩) v) := by
        have := (usable_iff (.value v)).2 hn
        unfold createLiteral
        refine if_neg fun h4 => ?_
        simp only [Node.refusal, if_pos h4] at this
        cases this
      simp only [makeNodes, this, he]; rfl
    | object => exact hn.elim

/-- **C146** An expression is created exactly when its operator exists, the number of operands is the one the
operator takes, and each operand is an expression, a parameter or a plain value.  It has the operator asked for, and
its operands are those given, in order. -/
theorem C146_created (o : ObjMeta) (os : List ObjMeta) (type : Nat) (nodes : List Node) :
    (TakesOperands type nodes.length → (∀ n ∈ nodes, UsableOperand n) →
      ∃ op es, createExpression o os type nodes = .ok (.node o op es) ∧ op.code = type ∧
        es.length = nodes.length ∧ ∀ (i : Nat) n e, nodes[i]? = some n → es[i]? = some e → StandsFor n e) ∧
    (¬ TakesOperands type nodes.length → createExpression o os type nodes = .err .invalidValue) ∧
    (TakesOperands type nodes.length → ∀ n ∈ nodes, ¬ UsableOperand n →
      createExpression o os type nodes = .err .invalidValue ∨
      createExpression o os type nodes = .err .invalidObject) := by
  refine ⟨fun ht hu => ?_, fun ht => ?_, fun ht n hn hu => ?_⟩
  · obtain ⟨op, h1, h2⟩ := (takes_iff _ _).1 ht
    obtain ⟨es, h3, h4, h5⟩ := made hu os
    refine ⟨op, es, ?_, ?_, h4, h5⟩
    · have hf : nodes.findSome? Node.refusal = none := by
        rw [List.findSome?_eq_none_iff]
        exact fun n hn => (usable_iff n).2 (hu n hn)
      unfold createExpression
      simp only [h1, h2, hf, h3]
      rfl
    · clear h2 ht h3 h4 h5
      revert h1
      unfold Op.ofCode
      split <;> intro h <;> first | (cases h; rfl) | cases h
  · unfold createExpression
    cases hop : Op.ofCode type with
    | none => rfl
    | some op =>
      have : arityMismatch op nodes.length = true := by
        cases hc : arityMismatch op nodes.length with
        | true => rfl
        | false => exact absurd ((takes_iff _ _).2 ⟨op, hop, hc⟩) ht
      simp only [this]
      rfl
  · obtain ⟨op, h1, h2⟩ := (takes_iff _ _).1 ht
    unfold createExpression
    simp only [h1, h2]
    cases hf : nodes.findSome? Node.refusal with
    | none =>
      rw [List.findSome?_eq_none_iff] at hf
      exact absurd ((usable_iff n).1 (hf n hn)) hu
    | some e =>
      obtain ⟨m, hm, he⟩ := List.exists_of_findSome?_eq_some hf
      show (Out.err e : Out Expr) = _ ∨ _
      cases m with
      | value v =>
        simp only [Node.refusal] at he
        split at he <;> cases he
        exact .inl rfl
      | expr _ => cases he
      | param a p =>
        simp only [Node.refusal] at he
        split at he <;> cases he
        exact .inr rfl
      | object => cases he; exact .inl rfl

/-! ### Evaluation -/

theorem lookup_defined {env : Env} (h : LongEnough env) (a : BitVec 64) : env.lookup a ≠ .ub := by
  unfold Env.lookup
  cases hv : env.values with
  | none => exact (nomatch ·)
  | some vs =>
    cases hp : env.params with
    | none => exact (nomatch ·)
    | some ps =>
      have hl := h ps vs hp hv
      show (paramIndex ps a >>= _) ≠ _
      unfold paramIndex
      cases hi : ps.findIdx? (fun x => decide (x = a)) with
      | none => exact (nomatch ·)
      | some i =>
        have : i < ps.length := by
          rw [List.findIdx?_eq_some_iff_getElem] at hi
          exact hi.1
        have hg : vs[i]? = some vs[i] := List.getElem?_eq_getElem (by omega)
        show (match vs[i]? with | some v => Out.ok v | none => .ub) ≠ _
        rw [hg]
        exact (nomatch ·)

section
variable {ops : FloatOps} {jen : Bytes → BitVec 32} {little : Bool}

theorem checkParameters_defined (p : Option Param) (v : Value) : checkParameters jen little p v ≠ .ub := by
  unfold checkParameters
  split
  · exact (nomatch ·)
  · split
    all_goals first | (unfold refute; split <;> exact (nomatch ·)) | exact (nomatch ·)

theorem ordinalCompare_defined (p : Param) (a b : Value) : ordinalCompare jen little p a b ≠ .ub := by
  unfold ordinalCompare
  split
  · split <;> exact (nomatch ·)
  · exact (nomatch ·)

theorem cmpGeneric_defined (a b : Value) : cmpGeneric a b ≠ .ub := by
  unfold cmpGeneric
  split <;> exact (nomatch ·)

theorem bind_ub {α β : Type} {x : Out α} {f : α → Out β} (h : (x >>= f) = .ub) :
    x = .ub ∨ ∃ a, x = .ok a ∧ f a = .ub := by
  cases x with
  | ok a => exact .inr ⟨a, rfl, h⟩
  | err e => exact (nomatch h)
  | ub => exact .inl rfl

theorem compareOperands_defined (pl pr : Option Param) (a b : Value) : compareOperands jen little pl pr a b ≠ .ub := by
  intro h
  unfold compareOperands at h
  rcases bind_ub h with h | ⟨_, _, h⟩
  · exact checkParameters_defined _ _ h
  rcases bind_ub h with h | ⟨_, _, h⟩
  · exact checkParameters_defined _ _ h
  split at h
  · exact ordinalCompare_defined _ _ _ h
  · exact ordinalCompare_defined _ _ _ h
  · exact cmpGeneric_defined _ _ h

theorem binary_ub {l r : Out Value} {f : Value → Value → Out Value} (h : (l >>= fun a => r >>= fun b => f a b) = .ub) :
    l = .ub ∨ r = .ub ∨ ∃ a b, l = .ok a ∧ r = .ok b ∧ f a b = .ub := by
  rcases bind_ub h with h | ⟨a, ha, h⟩
  · exact .inl h
  rcases bind_ub h with h | ⟨b, hb, h⟩
  · exact .inr (.inl h)
  · exact .inr (.inr ⟨a, b, ha, hb, h⟩)

theorem evalOr_ub {l r : Out Value} (h : evalOr l r = .ub) : l = .ub ∨ r = .ub := by
  unfold evalOr at h
  rcases binary_ub h with h | h | ⟨a, b, _, _, h⟩
  · exact .inl h
  · exact .inr h
  · exfalso
    repeat' split at h
    all_goals cases h

theorem evalAnd_ub {l r : Out Value} (h : evalAnd l r = .ub) : l = .ub ∨ r = .ub := by
  unfold evalAnd at h
  rcases binary_ub h with h | h | ⟨a, b, _, _, h⟩
  · exact .inl h
  · exact .inr h
  · exfalso
    repeat' split at h
    all_goals cases h

theorem evalEqual_ub {neg : Bool} {pl pr : Option Param} {l r : Out Value} (h : evalEqual jen little neg pl pr l r = .ub) :
    l = .ub ∨ r = .ub := by
  unfold evalEqual at h
  rcases binary_ub h with h | h | ⟨a, b, _, _, h⟩
  · exact .inl h
  · exact .inr h
  · exfalso
    split at h
    · cases h
    split at h
    · cases h
    rcases bind_ub h with h | ⟨_, _, h⟩
    · exact checkParameters_defined _ _ h
    rcases bind_ub h with h | ⟨_, _, h⟩
    · exact checkParameters_defined _ _ h
    simp only at h
    split at h <;> cases h

theorem evalCompare_ub {test : Ordering → Bool} {pl pr : Option Param} {l r : Out Value}
    (h : evalCompare jen little test pl pr l r = .ub) : l = .ub ∨ r = .ub := by
  unfold evalCompare at h
  rcases binary_ub h with h | h | ⟨a, b, _, _, h⟩
  · exact .inl h
  · exact .inr h
  · exfalso
    split at h
    · cases h
    split at h
    · cases h
    split at h
    · cases h
    rcases bind_ub h with h | ⟨_, _, h⟩
    · exact compareOperands_defined _ _ _ _ h
    · cases h

theorem evalInLoop_ub {pl : Option Param} {a : Value} : ∀ {rs : List (Out Value)} {i : Bool},
    evalInLoop jen little pl a i rs = .ub → .ub ∈ rs
  | [], i, h => by unfold evalInLoop at h; cases h
  | r :: rs, i, h => by
    unfold evalInLoop at h
    rcases bind_ub h with h | ⟨b, _, h⟩
    · simp [h]
    rcases bind_ub h with h | ⟨_, _, h⟩
    · exact (checkParameters_defined _ _ h).elim
    split at h
    · cases h
    · exact List.mem_cons_of_mem _ (evalInLoop_ub h)

theorem evalIn_ub {pl : Option Param} {l : Out Value} {items : Option (List (Out Value))}
    (h : evalIn jen little pl l items = .ub) : l = .ub ∨ ∃ rs, items = some rs ∧ .ub ∈ rs := by
  unfold evalIn at h
  cases items with
  | none => cases h
  | some rs =>
    simp only at h
    rcases bind_ub h with h | ⟨a, _, h⟩
    · exact .inl h
    · split at h
      · cases h
      · exact .inr ⟨rs, rfl, evalInLoop_ub h⟩

theorem evalNot_ub {n : Out Value} (h : evalNot n = .ub) : n = .ub := by
  unfold evalNot at h
  rcases bind_ub h with h | ⟨a, _, h⟩
  · exact h
  · cases a <;> cases h

theorem evalPositive_ub {n : Out Value} (h : evalPositive n = .ub) : n = .ub := by
  unfold evalPositive at h
  rcases bind_ub h with h | ⟨a, _, h⟩
  · exact h
  · cases a <;> cases h

theorem intResult_ub {i : Int} (h : intResult i = .ub) : ¬ Fits i := by
  unfold intResult at h
  intro hf
  rw [if_pos (show -2 ^ 63 ≤ i ∧ i < 2 ^ 63 from hf)] at h
  cases h

theorem evalNegative_ub {n : Out Value} (h : evalNegative n = .ub) :
    n = .ub ∨ ∃ a, n = .ok (.int a) ∧ ¬ Fits (-a.toInt) := by
  unfold evalNegative at h
  rcases bind_ub h with h | ⟨a, ha, h⟩
  · exact .inl h
  · cases a with
    | int x => exact .inr ⟨x, ha, intResult_ub h⟩
    | none => cases h
    | float _ => cases h
    | bool _ => cases h
    | str _ => cases h
    | inactive => cases h
    | obj _ => cases h

theorem evalArith_ub {op : Op} (hop : Arithmetic op) {l r : Out Value} (h : evalArith ops op l r = .ub) :
    l = .ub ∨ r = .ub ∨ ∃ a b, l = .ok (.int a) ∧ r = .ok (.int b) ∧
      ((∃ n, exact op a.toInt b.toInt = some n ∧ ¬ Fits n) ∨ (op = .mod ∧ a.toInt = -2 ^ 63 ∧ b.toInt = -1)) := by
  have hfl : ∀ x y, floatArith ops op x y ≠ .ub := by
    intro x y
    rcases hop with rfl | rfl | rfl | rfl | rfl <;> simp only [floatArith]
    · exact (nomatch ·)
    · exact (nomatch ·)
    · exact (nomatch ·)
    · split <;> exact (nomatch ·)
    · split <;> exact (nomatch ·)
  unfold evalArith at h
  rcases binary_ub h with h | h | ⟨a, b, ha, hb, h⟩
  · exact .inl h
  · exact .inr (.inl h)
  · refine .inr (.inr ?_)
    split at h
    · cases h
    split at h
    · cases h
    split at h
    · rename_i x y _ _
      refine ⟨x, y, ha, hb, ?_⟩
      rcases hop with rfl | rfl | rfl | rfl | rfl
      · exact .inl ⟨_, rfl, intResult_ub h⟩
      · exact .inl ⟨_, rfl, intResult_ub h⟩
      · exact .inl ⟨_, rfl, intResult_ub h⟩
      · simp only [intArith] at h
        by_cases h0 : y = 0#64
        · rw [if_pos h0] at h; cases h
        · rw [if_neg h0] at h
          exact .inl ⟨_, by simp only [exact, if_neg (mt (toInt_zero_iff y).2 h0)], intResult_ub h⟩
      · simp only [intArith] at h
        by_cases h0 : y = 0#64
        · rw [if_pos h0] at h; cases h
        · rw [if_neg h0] at h
          by_cases hlt : x.toInt.tdiv y.toInt < 2 ^ 63
          · rw [if_pos hlt] at h
            exact .inl ⟨_, by simp only [exact, if_neg (mt (toInt_zero_iff y).2 h0)], intResult_ub h⟩
          · exact .inr ⟨rfl, tdiv_big ⟨BitVec.le_toInt x, BitVec.toInt_lt⟩ ⟨BitVec.le_toInt y, BitVec.toInt_lt⟩
              (mt (toInt_zero_iff y).2 h0) hlt⟩
    · exact (hfl _ _ h).elim
    · exact (hfl _ _ h).elim
    · exact (hfl _ _ h).elim
    · cases h

theorem mem_evalAll {env : Env} : ∀ {args : List Expr}, Out.ub ∈ evalAll ops jen little env args →
    ∃ a ∈ args, eval ops jen little env a = .ub
  | [], h => by unfold evalAll at h; cases h
  | a :: as, h => by
    unfold evalAll at h
    rcases List.mem_cons.1 h with h | h
    · exact ⟨a, by simp, h.symm⟩
    · obtain ⟨b, hb, h⟩ := mem_evalAll h
      exact ⟨b, by simp [hb], h⟩

/-- **C146** An evaluation never misses an operand and never reads outside of the values: the only undefined
behaviour in an evaluation is that of a part of the expression whose integer operator overflows. -/
theorem C146_undefined_only_by_overflow {env : Env} (henv : LongEnough env) {e : Expr} (hb : Built e)
    (h : eval ops jen little env e = .ub) : ∃ x, Part x e ∧ Overflows (eval ops jen little env) x := by
  induction hsz : sizeOf e using Nat.strongRecOn generalizing e with
  | ind n ih =>
    have inside : ∀ {o op args}, (e = .node o op args) → (∀ a ∈ args, Built a) → ∀ a ∈ args,
        eval ops jen little env a = .ub → ∃ x, Part x e ∧ Overflows (eval ops jen little env) x := by
      intro o op args he hbs a ha hu
      obtain ⟨x, h1, h2⟩ := ih (sizeOf a) (by
        subst he
        have := List.sizeOf_lt_of_mem ha
        simp only [Expr.node.sizeOf_spec] at hsz
        omega) (hbs a ha) hu rfl
      exact ⟨x, he ▸ .inside ha h1, h2⟩
    rcases built_cases hb with ⟨o, v, rfl, _⟩ | ⟨o, a, p, rfl, _⟩ | ⟨o, op, args, rfl, hlen, hbs⟩
    · unfold eval at h; cases h
    · unfold eval at h; exact (lookup_defined henv a h).elim
    · have inside := @inside o op args rfl hbs
      have two : op.arity = some 2 → ∃ l r, args = [l, r] := fun ha => by
        have := hlen 2 ha
        match args, this with
        | [l, r], _ => exact ⟨l, r, rfl⟩
      have one : op.arity = some 1 → ∃ n, args = [n] := fun ha => by
        have := hlen 1 ha
        match args, this with
        | [n], _ => exact ⟨n, rfl⟩
      have fin2 : ∀ {l r}, args = [l, r] → eval ops jen little env l = .ub ∨ eval ops jen little env r = .ub →
          ∃ x, Part x (.node o op args) ∧ Overflows (eval ops jen little env) x := by
        rintro l r rfl (h | h)
        · exact inside l (by simp) h
        · exact inside r (by simp) h
      have arith : Arithmetic op → (∀ l r, args = [l, r] → evalArith ops op (eval ops jen little env l) (eval ops jen little env r) = .ub) →
          ∃ x, Part x (.node o op args) ∧ Overflows (eval ops jen little env) x := by
        intro hop hev
        obtain ⟨l, r, rfl⟩ := two (by rcases hop with rfl | rfl | rfl | rfl | rfl <;> rfl)
        rcases evalArith_ub hop (hev l r rfl) with h | h | ⟨a, b, ha, hb, h⟩
        · exact fin2 rfl (.inl h)
        · exact fin2 rfl (.inr h)
        · exact ⟨_, .self, .inl ⟨o, op, l, r, a, b, rfl, hop, ha, hb, h⟩⟩
      cases op with
      | list => unfold eval at h; simp [evalOp] at h
      | positive =>
        obtain ⟨n, rfl⟩ := one rfl
        rw [eval_unary] at h
        exact inside n (by simp) (evalPositive_ub h)
      | not =>
        obtain ⟨n, rfl⟩ := one rfl
        rw [eval_unary] at h
        exact inside n (by simp) (evalNot_ub h)
      | negative =>
        obtain ⟨n, rfl⟩ := one rfl
        rw [eval_unary] at h
        rcases evalNegative_ub h with h | ⟨a, ha, hf⟩
        · exact inside n (by simp) h
        · exact ⟨_, .self, .inr ⟨o, n, a, rfl, ha, hf⟩⟩
      | or =>
        obtain ⟨l, r, rfl⟩ := two rfl
        rw [eval_binary] at h
        exact fin2 rfl (evalOr_ub h)
      | and =>
        obtain ⟨l, r, rfl⟩ := two rfl
        rw [eval_binary] at h
        exact fin2 rfl (evalAnd_ub h)
      | equal =>
        obtain ⟨l, r, rfl⟩ := two rfl
        rw [eval_binary] at h
        exact fin2 rfl (evalEqual_ub h)
      | notEqual =>
        obtain ⟨l, r, rfl⟩ := two rfl
        rw [eval_binary] at h
        exact fin2 rfl (evalEqual_ub h)
      | less =>
        obtain ⟨l, r, rfl⟩ := two rfl
        rw [eval_binary] at h
        exact fin2 rfl (evalCompare_ub h)
      | greater =>
        obtain ⟨l, r, rfl⟩ := two rfl
        rw [eval_binary] at h
        exact fin2 rfl (evalCompare_ub h)
      | lessEq =>
        obtain ⟨l, r, rfl⟩ := two rfl
        rw [eval_binary] at h
        exact fin2 rfl (evalCompare_ub h)
      | greaterEq =>
        obtain ⟨l, r, rfl⟩ := two rfl
        rw [eval_binary] at h
        exact fin2 rfl (evalCompare_ub h)
      | isIn =>
        obtain ⟨l, r, rfl⟩ := two rfl
        rw [eval_binary] at h
        rcases evalIn_ub h with h | ⟨rs, hrs, hm⟩
        · exact fin2 rfl (.inl h)
        · cases r with
          | node o' op' args' =>
            unfold evalItems at hrs
            split at hrs
            · cases hrs
              obtain ⟨a, ha, hu⟩ := mem_evalAll hm
              have hba : Built a := by
                rcases built_cases (hbs (.node o' op' args') (by simp)) with ⟨_, _, h, _⟩ | ⟨_, _, _, h, _⟩ | ⟨_, _, _, h, _, hbs'⟩
                · cases h
                · cases h
                · cases h; exact hbs' a ha
              obtain ⟨x, h1, h2⟩ := ih (sizeOf a) (by
                have := List.sizeOf_lt_of_mem ha
                simp only [Expr.node.sizeOf_spec, List.cons.sizeOf_spec] at hsz
                omega) hba hu rfl
              exact ⟨x, .inside (a := .node o' op' args') (by simp) (.inside ha h1), h2⟩
            · cases hrs
          | literal _ _ => unfold evalItems at hrs; cases hrs
          | var _ _ _ => unfold evalItems at hrs; cases hrs
      | add => exact arith (.inl rfl) fun l r he => by subst he; rw [eval_binary] at h; exact h
      | sub => exact arith (.inr (.inl rfl)) fun l r he => by subst he; rw [eval_binary] at h; exact h
      | mul => exact arith (.inr (.inr (.inl rfl))) fun l r he => by subst he; rw [eval_binary] at h; exact h
      | div => exact arith (.inr (.inr (.inr (.inl rfl)))) fun l r he => by subst he; rw [eval_binary] at h; exact h
      | mod => exact arith (.inr (.inr (.inr (.inr rfl)))) fun l r he => by subst he; rw [eval_binary] at h; exact h

/-- **C146** When no part of an expression overflows, its evaluation returns a value or an error, whatever the context
and the values. -/
theorem C146_defined {env : Env} (henv : LongEnough env) {e : Expr} (hb : Built e)
    (hno : ∀ x, Part x e → ¬ Overflows (eval ops jen little env) x) :
    (∃ v, eval ops jen little env e = .ok v) ∨ ∃ c, eval ops jen little env e = .err c := by
  cases h : eval ops jen little env e with
  | ok v => exact .inl ⟨v, rfl⟩
  | err c => exact .inr ⟨c, rfl⟩
  | ub =>
    obtain ⟨x, h1, h2⟩ := C146_undefined_only_by_overflow henv hb h
    exact (hno x h1 h2).elim

end

/-! ### Example: `1 + 2`, `NOT` of one and of two operands, `9223372036854775807 + 1` under a comparison -/

def exSumNodes : List Node := [.value (.int 1#64), .value (.int 2#64)]

example : TakesOperands 8 exSumNodes.length ∧ (∀ n ∈ exSumNodes, UsableOperand n) ∧
    createExpression ⟨7#64, []⟩ [] 8 exSumNodes =
      .ok (.node ⟨7#64, []⟩ .add [.literal ⟨0#64, []⟩ (.int 1#64), .literal ⟨0#64, []⟩ (.int 2#64)]) := by
  refine ⟨.inl ⟨.inl (by decide), rfl⟩, ?_, rfl⟩
  intro n hn
  rw [exSumNodes] at hn
  simp only [List.mem_cons, List.not_mem_nil, or_false] at hn
  rcases hn with rfl | rfl <;> exact ⟨(nomatch ·), fun _ => (nomatch ·)⟩

example : ¬ TakesOperands 15 exSumNodes.length ∧ createExpression ⟨7#64, []⟩ [] 15 exSumNodes = .err .invalidValue := by
  refine ⟨?_, rfl⟩
  rintro (⟨h, _⟩ | ⟨_, h⟩ | h)
  · rcases h with h | h <;> revert h <;> decide
  · revert h; decide
  · revert h; decide

def exMax : Expr := .literal ⟨1#64, []⟩ (.int 0x7fffffffffffffff#64)

def exOne : Expr := .literal ⟨2#64, []⟩ (.int 1#64)

def exTooBig : Expr := .node ⟨3#64, []⟩ .add [exMax, exOne]

def exTooBigTest : Expr := .node ⟨4#64, []⟩ .less [exOne, exTooBig]

theorem exTooBigTest_built : Built exTooBigTest :=
  .expression (o := ⟨4#64, []⟩) (os := []) (type := 4) (nodes := [.expr exOne, .expr exTooBig]) rfl fun x hx => by
    simp only [List.mem_cons, Node.expr.injEq, List.not_mem_nil, or_false] at hx
    rcases hx with rfl | rfl
    · exact .literal (o := ⟨2#64, []⟩) (v := .int 1#64) rfl
    · exact .expression (o := ⟨3#64, []⟩) (os := []) (type := 8) (nodes := [.expr exMax, .expr exOne]) rfl fun x hx => by
        simp only [List.mem_cons, Node.expr.injEq, List.not_mem_nil, or_false] at hx
        rcases hx with rfl | rfl
        · exact .literal (o := ⟨1#64, []⟩) (v := .int 0x7fffffffffffffff#64) rfl
        · exact .literal (o := ⟨2#64, []⟩) (v := .int 1#64) rfl

example : LongEnough ⟨none, none⟩ ∧ Built exTooBigTest ∧
    eval Spec.ieee (fun _ => 0#32) true ⟨none, none⟩ exTooBigTest = .ub ∧ Part exTooBig exTooBigTest ∧
    Overflows (eval Spec.ieee (fun _ => 0#32) true ⟨none, none⟩) exTooBig :=
  ⟨fun _ _ h => (nomatch h), exTooBigTest_built, by decide +kernel, .inside (a := exTooBig) (by simp) .self,
    .inl ⟨⟨3#64, []⟩, .add, exMax, exOne, 0x7fffffffffffffff#64, 1#64, rfl, .inl rfl, by decide +kernel, by decide +kernel,
      .inl ⟨_, rfl, fun h => absurd h.2 (by decide +kernel)⟩⟩⟩

end CCS.Props
