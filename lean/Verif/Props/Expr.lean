import Verif.Lemmas.Expr

/-!
# C39–C47: expressions

`Spec.Built e` says that `e` was made with the constructors of the API; `Spec.Occurs`, `Spec.Tri`,
`Spec.SameValue` are defined in `Verif/Spec/Expr.lean`.  The node `Expr.node o op [x, y]` is the expression
"x op y".
-/

namespace CCS.Props

open CCS Spec

/-- Object data of the examples. -/
def anObj : ObjMeta := ⟨1#64, []⟩

/-- A literal. -/
def lit (v : Value) : Expr := .literal anObj v

/-- A numerical parameter of the examples: integers in [0, 10). -/
def pNum : Param := ⟨[0x78#8], .int 0#64, .numerical ⟨.int, 0#64, 10#64, 1#32, 0#32⟩ 0#64⟩

/-- Categorical and ordinal parameters of the examples. -/
def pCat : Param := ⟨[0x63#8], .int 1#64, .categorical .categorical [.int 1#64, .int 2#64]⟩
def pOrd : Param := ⟨[0x6f#8], .int 1#64, .categorical .ordinal [.int 1#64, .int 2#64]⟩
def pOrd' : Param := ⟨[0x70#8], .int 2#64, .categorical .ordinal [.int 2#64, .int 1#64]⟩

section
variable (ops : FloatOps) (jen : Bytes → BitVec 32) (little : Bool)

/-! ## C39 -/

/-- **C39** Two assignments that agree on the parameters reported by the expression give the same
outcome, value or error. -/
theorem C39_depends_on_reported_only {e : Expr} (hb : Built e) {n : Nat} {ps : List (BitVec 64)} {k : Nat}
    (hp : getParameters e (some n) = .ok (some ps, k)) (ctx : List (BitVec 64)) (v₁ v₂ : List Value)
    (h : ∀ (i : Nat) x, ctx[i]? = some x → x ∈ ps → v₁[i]? = v₂[i]?) :
    eval ops jen little ⟨some ctx, some v₁⟩ e = eval ops jen little ⟨some ctx, some v₂⟩ e := by
  refine (eval_congr ops jen little _ _ e fun x hx => ?_).1
  have hocc := (mem_collect x e).1 hx
  have hxp : x ∈ ps := by
    have h1 : x ∈ e.parameters := ((parameters_spec e).1 x).2 ⟨hocc, occurs_ne_zero hb hocc⟩
    unfold getParameters at hp
    simp only at hp
    split at hp
    · cases hp
    · cases hp; simp [h1]
  simp only [Env.lookup, paramIndex]
  cases hf : ctx.findIdx? (fun y => decide (y = x)) with
  | none => rfl
  | some i =>
    have hi : ctx[i]? = some x := by
      rw [List.findIdx?_eq_some_iff_getElem] at hf
      obtain ⟨hi, h1, -⟩ := hf
      rw [List.getElem?_eq_getElem hi]
      simpa using h1
    simp only [Out.bind_ok, h i x hi hxp]

/-- **C39** Across contexts: only the value found for each reported parameter matters, not the
positions in the context. -/
theorem C39_across_contexts {e : Expr} (hb : Built e) {n : Nat} {ps : List (BitVec 64)} {k : Nat}
    (hp : getParameters e (some n) = .ok (some ps, k)) (c₁ c₂ : List (BitVec 64)) (v₁ v₂ : List Value)
    (h₁ : c₁.Nodup) (h₂ : c₂.Nodup)
    (h : ∀ x ∈ ps, x ≠ 0#64 → ∃ (i j : Nat) (v : Value), c₁[i]? = some x ∧ v₁[i]? = some v ∧
      c₂[j]? = some x ∧ v₂[j]? = some v) :
    eval ops jen little ⟨some c₁, some v₁⟩ e = eval ops jen little ⟨some c₂, some v₂⟩ e := by
  have look : ∀ (c : List (BitVec 64)) (v : List Value) (i : Nat) (x : BitVec 64) (w : Value), c.Nodup →
      c[i]? = some x → v[i]? = some w → Env.lookup ⟨some c, some v⟩ x = .ok w := by
    intro c v i x w hn hc hv
    have hf : c.findIdx? (fun y => decide (y = x)) = some i := by
      rw [List.findIdx?_eq_some_iff_getElem]
      obtain ⟨hi, hci⟩ := List.getElem?_eq_some_iff.1 hc
      refine ⟨hi, by simp [hci], ?_⟩
      intro j hj
      simp only [decide_eq_true_eq]
      intro hcj
      have := (List.nodup_iff_pairwise_ne.1 hn)
      have := List.pairwise_iff_getElem.1 this j i (by omega) hi hj
      exact this (hcj.trans hci.symm)
    simp [Env.lookup, paramIndex, hf, hv]
  refine (eval_congr ops jen little _ _ e fun x hx => ?_).1
  have hocc := (mem_collect x e).1 hx
  have hx0 := occurs_ne_zero hb hocc
  have hxp : x ∈ ps := by
    have h1 : x ∈ e.parameters := ((parameters_spec e).1 x).2 ⟨hocc, hx0⟩
    unfold getParameters at hp
    simp only at hp
    split at hp
    · cases hp
    · cases hp; simp [h1]
  obtain ⟨i, j, v, a1, a2, a3, a4⟩ := h x hxp hx0
  rw [look c₁ v₁ i x v h₁ a1 a2, look c₂ v₂ j x v h₂ a3 a4]

/-- **C39** An expression that reports no parameter evaluates the same everywhere, even without context
and values. -/
theorem C39_closed {e : Expr} (hb : Built e) (hp : getParameters e none = .ok (none, 0)) (e₁ e₂ : Env) :
    eval ops jen little e₁ e = eval ops jen little e₂ e := by
  refine (eval_congr ops jen little _ _ e fun x hx => ?_).1
  have hocc := (mem_collect x e).1 hx
  have h1 : x ∈ e.parameters := ((parameters_spec e).1 x).2 ⟨hocc, occurs_ne_zero hb hocc⟩
  have h2 : e.parameters.length = 0 := by
    simpa [getParameters] using hp
  have h3 : e.parameters = [] := List.length_eq_zero_iff.1 h2
  rw [h3] at h1
  cases h1

/-- Non-vacuity: `x < 3` with `x` reported; changing the value of another parameter changes nothing, changing
`x` does. -/
example :
    (∃ e, createExpression anObj [anObj, anObj] 4 [.param 7#64 pNum, .value (.int 3#64)] = .ok e ∧ Built e ∧
      getParameters e (some 2) = .ok (some [7#64, 0#64], 1) ∧
      eval ops jen true ⟨some [5#64, 7#64], some [.int 0#64, .int 2#64]⟩ e = .ok (.bool 1#64) ∧
      eval ops jen true ⟨some [5#64, 7#64], some [.none, .int 2#64]⟩ e = .ok (.bool 1#64) ∧
      eval ops jen true ⟨some [5#64, 7#64], some [.none, .int 4#64]⟩ e = .ok (.bool 0#64)) := by
  refine ⟨_, rfl, .expression (o := anObj) (os := [anObj, anObj]) (type := 4)
    (nodes := [.param 7#64 pNum, .value (.int 3#64)]) rfl (by simp), rfl, rfl, rfl, rfl⟩

/-! ## C40 -/

/-- **C40** The reported list contains each occurring parameter exactly once, in increasing order of
address, padded with NULL; the count is exact; the call fails exactly when the array is too small. -/
theorem C40_reported_exactly {e : Expr} (hb : Built e) :
    ∃ core : List (BitVec 64),
      (∀ h, h ∈ core ↔ Occurs h e) ∧ core.Pairwise (fun a b => a.toNat < b.toNat) ∧ 0#64 ∉ core ∧
      getParameters e none = .ok (none, core.length) ∧
      ∀ n, getParameters e (some n) =
        if core.length ≤ n then .ok (some (core ++ List.replicate (n - core.length) 0#64), core.length)
        else .err .invalidValue := by
  obtain ⟨h1, h2⟩ := parameters_spec e
  refine ⟨e.parameters, ?_, h2, ?_, rfl, ?_⟩
  · intro h
    rw [h1]
    exact ⟨fun x => x.1, fun x => ⟨x, occurs_ne_zero hb x⟩⟩
  · rw [h1]; simp
  · intro n
    unfold getParameters
    simp only
    by_cases hn : e.parameters.length ≤ n
    · rw [if_neg (by omega), if_pos hn]
    · rw [if_pos (by omega), if_neg hn]

/-- **C40** The reported list depends only on which parameters occur, not on the shape. -/
theorem C40_canonical {e₁ e₂ : Expr} (h₁ : Built e₁) (h₂ : Built e₂)
    (h : ∀ x, Occurs x e₁ ↔ Occurs x e₂) (n : Option Nat) : getParameters e₁ n = getParameters e₂ n := by
  have : e₁.parameters = e₂.parameters := by
    refine sorted_ext (parameters_spec e₁).2 (parameters_spec e₂).2 fun a => ?_
    rw [(parameters_spec e₁).1, (parameters_spec e₂).1, h]
  unfold getParameters
  rw [this]

/-- **C40** The context check accepts exactly the contexts that contain every occurring parameter. -/
theorem C40_check_context {e : Expr} (hb : Built e) (ctx : List (BitVec 64)) :
    ((∀ h, Occurs h e → h ∈ ctx) → checkContext e (some ctx) = .ok ()) ∧
    (¬ (∀ h, Occurs h e → h ∈ ctx) → checkContext e (some ctx) = .err .invalidParameter) := by
  have key : e.parameters.all (fun h => decide (h ∈ ctx)) = true ↔ ∀ h, Occurs h e → h ∈ ctx := by
    rw [List.all_eq_true]
    constructor
    · intro h x hx
      simpa using h x (((parameters_spec e).1 x).2 ⟨hx, occurs_ne_zero hb hx⟩)
    · intro h x hx
      simpa using h x (((parameters_spec e).1 x).1 hx).1
  unfold checkContext
  simp only
  constructor
  · intro h
    rw [key.2 h]
    split <;> simp
  · intro h
    have hne : ¬ e.collect.length = 0 := by
      intro h0
      apply h
      intro x hx
      rw [List.length_eq_zero_iff] at h0
      have := (mem_collect x e).2 hx
      rw [h0] at this
      cases this
    rw [if_neg hne]
    have : ¬ e.parameters.all (fun h => decide (h ∈ ctx)) = true := fun h' => h (key.1 h')
    rw [if_neg this]

/-- **C40** After a successful context check, no variable of the expression is unknown to the context. -/
theorem C40_checked_variables_found {e : Expr} (hb : Built e) {ctx : List (BitVec 64)}
    (hc : checkContext e (some ctx) = .ok ()) {values : List Value} (hl : values.length = ctx.length)
    {h : BitVec 64} (ho : Occurs h e) :
    ∃ (i : Nat) (v : Value), ctx[i]? = some h ∧ values[i]? = some v ∧ Env.lookup ⟨some ctx, some values⟩ h = .ok v := by
  have hm : h ∈ ctx := by
    have := C40_check_context hb ctx
    by_cases hall : ∀ h, Occurs h e → h ∈ ctx
    · exact hall h ho
    · rw [this.2 hall] at hc; cases hc
  cases hf : ctx.findIdx? (fun y => decide (y = h)) with
  | none =>
    rw [List.findIdx?_eq_none_iff] at hf
    simpa using hf h hm
  | some i =>
    have hf' := hf
    rw [List.findIdx?_eq_some_iff_getElem] at hf
    obtain ⟨hi, h1, -⟩ := hf
    refine ⟨i, values[i]'(by omega), ?_, List.getElem?_eq_getElem _, ?_⟩
    · rw [List.getElem?_eq_getElem hi]; simpa using h1
    · have : values[i]? = some (values[i]'(by omega)) := List.getElem?_eq_getElem (by omega)
      simp only [Env.lookup, paramIndex, hf', Out.bind_ok, this]

/-- Non-vacuity: `(9 < 7) || (7 < 9)` over parameters 9 and 7 reports 7 then 9. -/
example : ∃ a b e, createExpression anObj [anObj, anObj] 4 [.param 9#64 pNum, .param 7#64 pNum] = .ok a ∧
    createExpression anObj [anObj, anObj] 4 [.param 7#64 pNum, .param 9#64 pNum] = .ok b ∧
    createExpression anObj [] 0 [.expr a, .expr b] = .ok e ∧
    getParameters e (some 3) = .ok (some [7#64, 9#64, 0#64], 2) ∧
    getParameters e (some 1) = .err .invalidValue ∧
    checkContext e (some [9#64, 5#64, 7#64]) = .ok () ∧
    checkContext e (some [9#64]) = .err .invalidParameter ∧ checkContext e none = .err .invalidValue :=
  ⟨_, _, _, rfl, rfl, rfl, rfl, rfl, rfl, rfl, rfl⟩

/-! ## C41 -/

variable (env : Env)

/-- **C41** OR follows its truth table and refuses any operand that is not a boolean or inactive. -/
theorem C41_or_table (o : ObjMeta) {x y : Expr} {a b : Value} (hx : eval ops jen little env x = .ok a)
    (hy : eval ops jen little env y = .ok b) :
    (∀ p q, tri a = some p → tri b = some q →
      eval ops jen little env (.node o .or [x, y]) = .ok (p.or q).value) ∧
    (tri a = none ∨ tri b = none →
      eval ops jen little env (.node o .or [x, y]) = .err .invalidValue) := by
  rw [eval_binary, hx, hy]
  exact evalOr_table a b

/-- **C41** NOT follows its truth table and refuses any other operand. -/
theorem C41_not_table (o : ObjMeta) {x : Expr} {a : Value} (hx : eval ops jen little env x = .ok a) :
    (∀ p, tri a = some p → eval ops jen little env (.node o .not [x]) = .ok p.not.value) ∧
    (tri a = none → eval ops jen little env (.node o .not [x]) = .err .invalidValue) := by
  rw [eval_unary, hx]
  exact evalNot_table a

/-- **C41 (partial)** AND follows its truth table on booleans and inactive operands, and refuses any
other operand unless one of the two is inactive.

Missing: "any other operand is refused", see `C41_and_hides_bad_operand`. -/
theorem C41_and_table_partial (o : ObjMeta) {x y : Expr} {a b : Value}
    (hx : eval ops jen little env x = .ok a) (hy : eval ops jen little env y = .ok b) :
    (∀ p q, tri a = some p → tri b = some q →
      eval ops jen little env (.node o .and [x, y]) = .ok (p.and q).value) ∧
    ((tri a = none ∧ tri b ≠ some .inactive) ∨ (tri b = none ∧ tri a ≠ some .inactive) →
      eval ops jen little env (.node o .and [x, y]) = .err .invalidValue) := by
  rw [eval_binary, hx, hy]
  exact evalAnd_table a b

/-- **C41 (negation)** AND does not refuse a non-boolean operand when the other one is inactive, whatever
that operand is. -/
theorem C41_and_hides_bad_operand (o : ObjMeta) {x y : Expr} {b : Value}
    (hx : eval ops jen little env x = .ok .inactive) (hy : eval ops jen little env y = .ok b) :
    eval ops jen little env (.node o .and [x, y]) = .ok .inactive ∧
    eval ops jen little env (.node o .and [y, x]) = .ok .inactive := by
  rw [eval_binary, eval_binary, hx, hy]
  simp only [evalOp, evalAnd, Out.bind_ok]
  simp

/-- **C41** OR and AND are symmetric when both operands evaluate. -/
theorem C41_symmetric (o : ObjMeta) {x y : Expr} {a b : Value}
    (hx : eval ops jen little env x = .ok a) (hy : eval ops jen little env y = .ok b) :
    eval ops jen little env (.node o .or [x, y]) = eval ops jen little env (.node o .or [y, x]) ∧
    eval ops jen little env (.node o .and [x, y]) = eval ops jen little env (.node o .and [y, x]) := by
  rw [eval_binary, eval_binary, eval_binary, eval_binary, hx, hy]
  simp only [evalOp, evalOr, evalAnd, Out.bind_ok]
  constructor
  · cases a <;> cases b <;> simp [Value.tag, Bool.or_comm]
  · cases a <;> cases b <;> simp [Bool.and_comm]

/-- **C41** A failing operand makes the connective fail with that operand's error (the left one first),
even if the other operand would decide the result. -/
theorem C41_no_short_circuit (o : ObjMeta) {x y : Expr} {e : Err} (op : Op) (hop : op = .or ∨ op = .and) :
    (eval ops jen little env x = .err e → eval ops jen little env (.node o op [x, y]) = .err e) ∧
    (∀ a, eval ops jen little env x = .ok a → eval ops jen little env y = .err e →
      eval ops jen little env (.node o op [x, y]) = .err e) := by
  rw [eval_binary]
  constructor
  · intro hx
    rcases hop with rfl | rfl <;> simp [evalOp, evalOr, evalAnd, hx]
  · intro a hx hy
    rcases hop with rfl | rfl <;> simp [evalOp, evalOr, evalAnd, hx, hy]

/-- Non-vacuity: the three truth values are reachable, and `inactive && 3` is accepted. -/
example : eval ops jen little ⟨some [7#64], some [.inactive]⟩
      (.node anObj .or [.var anObj 7#64 pCat, lit (.bool 1#64)]) = .ok (.bool 1#64) ∧
    eval ops jen little ⟨some [7#64], some [.inactive]⟩
      (.node anObj .or [.var anObj 7#64 pCat, lit (.bool 0#64)]) = .ok .inactive ∧
    eval ops jen little ⟨some [7#64], some [.inactive]⟩
      (.node anObj .and [.var anObj 7#64 pCat, lit (.int 3#64)]) = .ok .inactive ∧
    eval ops jen little ⟨none, none⟩
      (.node anObj .and [lit (.bool 1#64), lit (.int 3#64)]) = .err .invalidValue :=
  ⟨rfl, rfl, rfl, rfl⟩

/-! ## C42 -/

/-- **C42** `x != y` has the outcome of `x == y` with the boolean reversed: same failures, same inactivity,
opposite boolean. -/
theorem C42_not_equal_negates (o : ObjMeta) (x y : Expr) :
    eval ops jen little env (.node o .notEqual [x, y]) =
      negated (eval ops jen little env (.node o .equal [x, y])) := by
  rw [eval_binary, eval_binary]
  simp only [evalOp, evalEqual]
  cases eval ops jen little env x with
  | err e => rfl
  | ub => rfl
  | ok a =>
    cases eval ops jen little env y with
    | err e => rfl
    | ub => rfl
    | ok b =>
      simp only [Out.bind_ok]
      split
      · rfl
      split
      · rfl
      cases checkParameters jen little x.param? b with
      | err e => rfl
      | ub => rfl
      | ok _ =>
        cases checkParameters jen little y.param? a with
        | err e => rfl
        | ub => rfl
        | ok _ =>
          simp only [Out.bind_ok]
          split
          · rfl
          · cases (testEqual little a b).2 <;> rfl

/-- **C42** The result of `==` and `!=`, when it is neither a failure nor inactive, is `true` or `false`. -/
theorem C42_equal_boolean (o : ObjMeta) (x y : Expr) {v : Value}
    (h : eval ops jen little env (.node o .equal [x, y]) = .ok v) :
    v = .inactive ∨ v = .bool 0#64 ∨ v = .bool 1#64 := by
  rw [eval_binary] at h
  simp only [evalOp, evalEqual] at h
  obtain ⟨a, -, h⟩ := bind_eq_ok h
  obtain ⟨b, -, h⟩ := bind_eq_ok h
  split at h
  · cases h; exact .inl rfl
  split at h
  · cases h; exact .inl rfl
  obtain ⟨-, -, h⟩ := bind_eq_ok h
  obtain ⟨-, -, h⟩ := bind_eq_ok h
  split at h
  · cases h
  · cases h
    cases (testEqual little a b).2 <;> simp [Value.ofBool]

/-- Non-vacuity: a true, a false and a refused comparison. -/
example : eval ops jen true env (.node anObj .equal [lit (.int 3#64), lit (.int 3#64)]) = .ok (.bool 1#64) ∧
    eval ops jen true env (.node anObj .notEqual [lit (.int 3#64), lit (.int 3#64)]) = .ok (.bool 0#64) ∧
    eval ops jen true env (.node anObj .notEqual [lit (.int 3#64), lit .none]) = .err .invalidValue :=
  ⟨rfl, rfl, rfl⟩

/-! ## C43 -/

/-- **C43** `x <= y` is the negation of `x > y`, and `x >= y` the negation of `x < y`, with the same failures
and the same inactivity. -/
theorem C43_or_equal_negates (o : ObjMeta) (x y : Expr) :
    eval ops jen little env (.node o .lessEq [x, y]) =
      negated (eval ops jen little env (.node o .greater [x, y])) ∧
    eval ops jen little env (.node o .greaterEq [x, y]) =
      negated (eval ops jen little env (.node o .less [x, y])) := by
  rw [eval_binary, eval_binary, eval_binary, eval_binary]
  simp only [evalOp, evalCompare]
  cases eval ops jen little env x with
  | err e => exact ⟨rfl, rfl⟩
  | ub => exact ⟨rfl, rfl⟩
  | ok a =>
    cases eval ops jen little env y with
    | err e => exact ⟨rfl, rfl⟩
    | ub => exact ⟨rfl, rfl⟩
    | ok b =>
      simp only [Out.bind_ok]
      by_cases h1 : isCategorical x.param? = true ∨ isCategorical y.param? = true
      · simp only [if_pos h1]; exact ⟨rfl, rfl⟩
      · simp only [if_neg h1]
        by_cases h2 : a = .inactive
        · simp only [if_pos h2]; exact ⟨rfl, rfl⟩
        · simp only [if_neg h2]
          by_cases h3 : b = .inactive
          · simp only [if_pos h3]; exact ⟨rfl, rfl⟩
          · simp only [if_neg h3]
            cases compareOperands jen little x.param? y.param? a b with
            | err e => exact ⟨rfl, rfl⟩
            | ub => exact ⟨rfl, rfl⟩
            | ok c => cases c <;> exact ⟨rfl, rfl⟩

/-- **C43 (partial)** `x < y` agrees with `y > x` and `x <= y` with `y >= x`: same booleans, same inactivity,
failures in the same cases.  `defined` excludes operands whose own evaluation is undefined behaviour.

Missing: operands that are variables on two different ordinal parameters, see `C43_two_ordinals`. -/
theorem C43_swap_partial (o : ObjMeta) (x y : Expr)
    (defined : eval ops jen little env x ≠ .ub ∧ eval ops jen little env y ≠ .ub)
    (one : ∀ p q vp vq, x.param? = some p → y.param? = some q → p.kind = .categorical .ordinal vp →
      q.kind = .categorical .ordinal vq → p = q) :
    Agree (eval ops jen little env (.node o .less [x, y]))
      (eval ops jen little env (.node o .greater [y, x])) ∧
    Agree (eval ops jen little env (.node o .lessEq [x, y]))
      (eval ops jen little env (.node o .greaterEq [y, x])) := by
  have one' : OneOrder x.param? y.param? := by
    intro p q hp hq
    cases hx : x.param? with
    | none => rw [hx] at hp; cases hp
    | some p' =>
      cases hy : y.param? with
      | none => rw [hy] at hq; cases hq
      | some q' =>
        rw [hx] at hp; rw [hy] at hq
        simp only [ordinal?] at hp hq
        split at hp
        · split at hq
          · rename_i vp k1 _ vq k2
            cases hp; cases hq
            exact one _ _ _ _ hx hy k1 k2
          · cases hq
        · cases hp
  rw [eval_binary, eval_binary, eval_binary, eval_binary]
  simp only [evalOp, evalCompare]
  cases hx : eval ops jen little env x with
  | ub => exact absurd hx defined.1
  | err e =>
    cases hy : eval ops jen little env y with
    | ub => exact absurd hy defined.2
    | err e' => exact ⟨.inr ⟨⟨_, rfl⟩, ⟨_, rfl⟩⟩, .inr ⟨⟨_, rfl⟩, ⟨_, rfl⟩⟩⟩
    | ok b => exact ⟨.inl rfl, .inl rfl⟩
  | ok a =>
    cases hy : eval ops jen little env y with
    | ub => exact absurd hy defined.2
    | err e' => exact ⟨.inl rfl, .inl rfl⟩
    | ok b =>
      simp only [Out.bind_ok]
      by_cases h1 : isCategorical x.param? = true ∨ isCategorical y.param? = true
      · simp only [if_pos h1, if_pos (Or.symm h1)]; exact ⟨.inl rfl, .inl rfl⟩
      · have h1' : ¬ (isCategorical y.param? = true ∨ isCategorical x.param? = true) := fun h => h1 h.symm
        simp only [if_neg h1, if_neg h1']
        by_cases h2 : a = .inactive <;> by_cases h3 : b = .inactive
        · simp only [if_pos h2, if_pos h3]; exact ⟨.inl rfl, .inl rfl⟩
        · simp only [if_pos h2, if_neg h3]; exact ⟨.inl rfl, .inl rfl⟩
        · simp only [if_neg h2, if_pos h3]; exact ⟨.inl rfl, .inl rfl⟩
        · simp only [if_neg h2, if_neg h3]
          rw [compareOperands_swap jen little one' a b]
          cases compareOperands jen little x.param? y.param? a b with
          | err e => exact ⟨.inl rfl, .inl rfl⟩
          | ub => exact ⟨.inl rfl, .inl rfl⟩
          | ok c => cases c <;> exact ⟨.inl rfl, .inl rfl⟩

/-- **C43 (negation)** Two variables on ordinal parameters listing the same two values in opposite orders:
`x < y` is true and `y > x` is false (and `x <= y` is true, `y >= x` false). -/
theorem C43_two_ordinals :
    ∃ (x y : Expr) (env : Env), Built x ∧ Built y ∧
      Created ops jen little pOrd ∧ Created ops jen little pOrd' ∧
      eval ops jen little env (.node anObj .less [x, y]) = .ok (.bool 1#64) ∧
      eval ops jen little env (.node anObj .greater [y, x]) = .ok (.bool 0#64) ∧
      eval ops jen little env (.node anObj .lessEq [x, y]) = .ok (.bool 1#64) ∧
      eval ops jen little env (.node anObj .greaterEq [y, x]) = .ok (.bool 0#64) := by
  have c1 : ∀ v, checkValue jen little pOrd v = decide (v ∈ [Value.int 1#64, .int 2#64]) := by
    intro v
    have := valueFind_isSome (jen := jen) (little := little) [Value.int 1#64, .int 2#64] v
    rw [Bool.eq_iff_iff, decide_eq_true_eq]
    exact this
  have c2 : ∀ v, checkValue jen little pOrd' v = decide (v ∈ [Value.int 2#64, .int 1#64]) := by
    intro v
    have := valueFind_isSome (jen := jen) (little := little) [Value.int 2#64, .int 1#64] v
    rw [Bool.eq_iff_iff, decide_eq_true_eq]
    exact this
  have lx : Env.lookup ⟨some [7#64, 9#64], some [.int 1#64, .int 2#64]⟩ 7#64 = .ok (.int 1#64) := rfl
  have ly : Env.lookup ⟨some [7#64, 9#64], some [.int 1#64, .int 2#64]⟩ 9#64 = .ok (.int 2#64) := rfl
  have cmp : compareOperands jen little (some pOrd) (some pOrd') (.int 1#64) (.int 2#64) = .ok .lt := by
    have e1 : checkParameters jen little (some pOrd) (.int 2#64) = .ok () := by
      simp only [checkParameters, pOrd]
      change refute (checkValue jen little pOrd _ = false) _ = _
      rw [c1]; rfl
    have e2 : checkParameters jen little (some pOrd') (.int 1#64) = .ok () := by
      simp only [checkParameters, pOrd']
      change refute (checkValue jen little pOrd' _ = false) _ = _
      rw [c2]; rfl
    unfold compareOperands
    rw [e1, e2]
    simp only [Out.bind_ok, ordinal?, pOrd, ordinalCompare, valueIndex_eq]
    rfl
  have cmp' : compareOperands jen little (some pOrd') (some pOrd) (.int 2#64) (.int 1#64) = .ok .lt := by
    have e1 : checkParameters jen little (some pOrd') (.int 1#64) = .ok () := by
      simp only [checkParameters, pOrd']
      change refute (checkValue jen little pOrd' _ = false) _ = _
      rw [c2]; rfl
    have e2 : checkParameters jen little (some pOrd) (.int 2#64) = .ok () := by
      simp only [checkParameters, pOrd]
      change refute (checkValue jen little pOrd _ = false) _ = _
      rw [c1]; rfl
    unfold compareOperands
    rw [e1, e2]
    simp only [Out.bind_ok, ordinal?, pOrd', ordinalCompare, valueIndex_eq]
    rfl
  have dx : Created ops jen little pOrd := .categorical
    (createCategorical_good (kind := .ordinal) (name := [0x6f#8])
      (ds := [⟨.int 1#64, false, false, false⟩, ⟨.int 2#64, false, false, false⟩]) (i := 0)
      rfl (by decide) (by decide) (by simp [Listable]))
  have dy : Created ops jen little pOrd' := .categorical
    (createCategorical_good (kind := .ordinal) (name := [0x70#8])
      (ds := [⟨.int 2#64, false, false, false⟩, ⟨.int 1#64, false, false, false⟩]) (i := 0)
      rfl (by decide) (by decide) (by simp [Listable]))
  refine ⟨.var anObj 7#64 pOrd, .var anObj 9#64 pOrd', ⟨some [7#64, 9#64], some [.int 1#64, .int 2#64]⟩,
    .var (o := anObj) (h := 7#64) (p := pOrd) rfl, .var (o := anObj) (h := 9#64) (p := pOrd') rfl,
    dx, dy, ?_⟩
  rw [eval_binary, eval_binary, eval_binary, eval_binary]
  have ex : eval ops jen little ⟨some [7#64, 9#64], some [.int 1#64, .int 2#64]⟩ (.var anObj 7#64 pOrd) =
    .ok (.int 1#64) := rfl
  have ey : eval ops jen little ⟨some [7#64, 9#64], some [.int 1#64, .int 2#64]⟩ (.var anObj 9#64 pOrd') =
    .ok (.int 2#64) := rfl
  simp only [ex, ey, evalOp, evalCompare, Out.bind_ok, Expr.param?, cmp, cmp']
  refine ⟨rfl, rfl, rfl, rfl⟩

/-- **C43** On two numbers that are not variables, of the same type or with integers that are doubles, the
orderings are the numeric ones. -/
theorem C43_numbers (o : ObjMeta) {x y : Expr} (hx : x.param? = none) (hy : y.param? = none)
    {a b : Value} {m n : Int} (ha : number a = some m) (hb : number b = some n)
    (hc : a.tag = b.tag ∨ (Convertible a ∧ Convertible b))
    (hxe : eval ops jen little env x = .ok a) (hye : eval ops jen little env y = .ok b) :
    eval ops jen little env (.node o .less [x, y]) = .ok (.ofBool (decide (m < n))) ∧
    eval ops jen little env (.node o .greater [x, y]) = .ok (.ofBool (decide (m > n))) ∧
    eval ops jen little env (.node o .lessEq [x, y]) = .ok (.ofBool (decide (m ≤ n))) ∧
    eval ops jen little env (.node o .greaterEq [x, y]) = .ok (.ofBool (decide (m ≥ n))) := by
  simp only [eval_binary, hxe, hye, evalOp, evalCompare, Out.bind_ok, hx, hy, isCategorical,
    number_ne_inactive ha, number_ne_inactive hb, if_false, or_self, Bool.false_eq_true,
    compareOperands, checkParameters, ordinal?, cmpGeneric_num ha hb hc]
  unfold numCmp
  rcases Int.lt_trichotomy m n with h | h | h
  · have h1 : ¬ n < m := by omega
    have h2 : m ≤ n := by omega
    have h3 : ¬ n ≤ m := by omega
    simp [h, h1, h2, h3]
  · subst h; simp
  · have h1 : ¬ m < n := by omega
    have h2 : n ≤ m := by omega
    have h3 : ¬ m ≤ n := by omega
    simp [h, h1, h2, h3]

/-- **C43** Against a variable on an ordinal parameter, the orderings follow the positions in its list. -/
theorem C43_ordinal (o : ObjMeta) {x y : Expr} {p : Param} {vals : List Value}
    (hx : x.param? = some p) (hy : y.param? = none) (hp : Created ops jen little p)
    (hk : p.kind = .categorical .ordinal vals) {i j : Nat} {a b : Value} (ha : vals[i]? = some a)
    (hb : vals[j]? = some b)
    (hxe : eval ops jen little env x = .ok a) (hye : eval ops jen little env y = .ok b) :
    eval ops jen little env (.node o .less [x, y]) = .ok (.ofBool (decide (i < j))) ∧
    eval ops jen little env (.node o .less [y, x]) = .ok (.ofBool (decide (j < i))) ∧
    eval ops jen little env (.node o .lessEq [x, y]) = .ok (.ofBool (decide (i ≤ j))) ∧
    eval ops jen little env (.node o .lessEq [y, x]) = .ok (.ofBool (decide (j ≤ i))) := by
  have hn : vals.Nodup ∧ ∀ v ∈ vals, v ≠ .inactive := by
    cases hp with
    | numerical h => rw [createNumerical_ok h] at hk; cases hk
    | categorical h =>
      obtain ⟨d, -, rfl, hn, hl, hL⟩ := createCategorical_ok h
      cases hk
      refine ⟨hn, fun v hv => ?_⟩
      have := hL v hv
      rintro rfl
      simp [Listable] at this
    | string name => cases hk
  have na : a ≠ .inactive := hn.2 a (List.mem_of_getElem? ha)
  have nb : b ≠ .inactive := hn.2 b (List.mem_of_getElem? hb)
  have hcat : isCategorical (some p) = false := by simp only [isCategorical, hk]
  have hord : ordinal? (some p) = some p := by simp only [ordinal?, hk]
  have chk : checkParameters jen little (some p) b = .ok () := by
    simp only [checkParameters, hk]
    have : checkValue jen little p b = true := by
      rw [checkValue_iff]; unfold Legal; rw [hk]; exact List.mem_of_getElem? hb
    rw [this]; rfl
  have cmp : ordinalCompare jen little p a b = .ok (numCmp i j) := by
    unfold ordinalCompare
    simp only [hk, valueIndex_some hn.1 ha, valueIndex_some hn.1 hb]
    unfold numCmp
    simp
  have cmp' : ordinalCompare jen little p b a = .ok (numCmp j i) := by
    unfold ordinalCompare
    simp only [hk, valueIndex_some hn.1 ha, valueIndex_some hn.1 hb]
    unfold numCmp
    simp
  have chk0 : ∀ v, checkParameters jen little none v = .ok () := fun v => rfl
  have ho : ordinal? none = none := rfl
  have hcn : isCategorical none = false := rfl
  simp only [eval_binary, hxe, hye, evalOp, evalCompare, Out.bind_ok, hx, hy, hcat, na, nb, hcn,
    if_false, or_self, Bool.false_eq_true, compareOperands, chk, chk0, hord, ho, cmp, cmp']
  unfold numCmp
  rcases Nat.lt_trichotomy i j with h | h | h
  · have h1 : ¬ j < i := by omega
    have h2 : i ≤ j := by omega
    have h3 : ¬ j ≤ i := by omega
    simp [h, h1, h2, h3]
  · subst h; simp
  · have h1 : ¬ i < j := by omega
    have h2 : j ≤ i := by omega
    have h3 : ¬ i ≤ j := by omega
    simp [h, h1, h2, h3]

/-- Non-vacuity: `3 < 5.0`, and inactivity. -/
example : eval ops jen little env (.node anObj .less [lit (.int 3#64), lit (.float 0x4014000000000000#64)]) =
      .ok (.bool 1#64) ∧
    eval ops jen little env (.node anObj .greater [lit (.float 0x4014000000000000#64), lit (.int 3#64)]) =
      .ok (.bool 1#64) ∧
    eval ops jen little env (.node anObj .less [lit (.int 3#64), lit .none]) = .err .invalidValue :=
  ⟨rfl, rfl, rfl⟩

/-! ## C44 -/

/-- **C44** On operands that are not variables, `==` is true exactly when the values are the same (same type
and content, or an integer and a double that convert to the same number). -/
theorem C44_equal_iff (o : ObjMeta) {x y : Expr} (hx : x.param? = none) (hy : y.param? = none) {a b : Value}
    (hxe : eval ops jen little env x = .ok a) (hye : eval ops jen little env y = .ok b)
    (ha : a ≠ .inactive) (hb : b ≠ .inactive) :
    eval ops jen little env (.node o .equal [x, y]) = .ok (.bool 1#64) ↔ SameValue a b := by
  rw [eval_binary, hxe, hye]
  simp only [evalOp, hx, hy]
  rw [evalEqual_none ha hb]
  constructor
  · intro h
    split at h
    · cases h
    · rw [← testEqual_iff little]
      cases ht : (testEqual little a b).2
      · rw [ht] at h; cases h
      · rfl
  · intro h
    rw [testEqual_valid little h, (testEqual_iff little a b).2 h]
    rfl

/-- **C44** `==` is reflexive on every value of an active operand that is not a variable. -/
theorem C44_reflexive (o : ObjMeta) {x y : Expr} (hx : x.param? = none) (hy : y.param? = none) {a : Value}
    (hxe : eval ops jen little env x = .ok a) (hye : eval ops jen little env y = .ok a)
    (ha : a ≠ .inactive) : eval ops jen little env (.node o .equal [x, y]) = .ok (.bool 1#64) :=
  (C44_equal_iff ops jen little env o hx hy hxe hye ha ha).2 (.inl rfl)

/-- **C44** `==` is symmetric: exchanging two operands that evaluate, variables or not, never changes the
outcome. -/
theorem C44_symmetric (o : ObjMeta) {x y : Expr} {a b : Value}
    (hxe : eval ops jen little env x = .ok a) (hye : eval ops jen little env y = .ok b) :
    eval ops jen little env (.node o .equal [x, y]) = eval ops jen little env (.node o .equal [y, x]) := by
  rw [eval_binary, eval_binary, hxe, hye]
  simp only [evalOp, evalEqual, Out.bind_ok]
  by_cases h2 : a = .inactive <;> by_cases h3 : b = .inactive
  · simp only [if_pos h2, if_pos h3]
  · simp only [if_pos h2, if_neg h3]
  · simp only [if_neg h2, if_pos h3]
  · simp only [if_neg h2, if_neg h3]
    rw [testEqual_symm little b a]
    rcases checkParameters_cases jen little x.param? b with h1 | h1 <;>
      rcases checkParameters_cases jen little y.param? a with h4 | h4 <;> rw [h1, h4] <;>
      simp only [Out.bind_ok, Out.bind_err]
    by_cases h5 : x.param? = none <;> by_cases h6 : y.param? = none <;> simp [h5, h6]

/-- **C44 (partial)** `==` is transitive on operands that are not variables, when the integers are at most
`2^53` in magnitude and no double is `-0.0`.

Missing: large integers and signed zeros, see `C44_not_transitive`. -/
theorem C44_transitive_partial (o : ObjMeta) {x y z : Expr} (hx : x.param? = none) (hy : y.param? = none)
    (hz : z.param? = none) {a b c : Value} (hxe : eval ops jen little env x = .ok a)
    (hye : eval ops jen little env y = .ok b) (hze : eval ops jen little env z = .ok c)
    (ha : Roundless a) (hb : Roundless b) (hc : Roundless c)
    (h1 : eval ops jen little env (.node o .equal [x, y]) = .ok (.bool 1#64))
    (h2 : eval ops jen little env (.node o .equal [y, z]) = .ok (.bool 1#64)) :
    eval ops jen little env (.node o .equal [x, z]) = .ok (.bool 1#64) := by
  have act : ∀ {x y : Expr} {a b : Value}, eval ops jen little env x = .ok a →
      eval ops jen little env y = .ok b →
      eval ops jen little env (.node o .equal [x, y]) = .ok (.bool 1#64) → a ≠ .inactive ∧ b ≠ .inactive := by
    intro x y a b hx hy h
    rw [eval_binary, hx, hy] at h
    simp only [evalOp, evalEqual, Out.bind_ok] at h
    by_cases h2 : a = .inactive
    · rw [if_pos h2] at h; cases h
    · rw [if_neg h2] at h
      by_cases h3 : b = .inactive
      · rw [if_pos h3] at h; cases h
      · exact ⟨h2, h3⟩
  obtain ⟨na, nb⟩ := act hxe hye h1
  obtain ⟨-, nc⟩ := act hye hze h2
  rw [C44_equal_iff ops jen little env o hx hy hxe hye na nb] at h1
  rw [C44_equal_iff ops jen little env o hy hz hye hze nb nc] at h2
  rw [C44_equal_iff ops jen little env o hx hz hxe hze na nc]
  exact sameValue_plain_trans ha hb hc h1 h2

/-- **C44 (negation)** `==` is not transitive: `2^53 + 1 == 2.0^53` and `2.0^53 == 2^53` but not
`2^53 + 1 == 2^53`; `0.0 == 0` and `0 == -0.0` but not `0.0 == -0.0`. -/
theorem C44_not_transitive :
    (∃ x y z : Expr, Built x ∧ Built y ∧ Built z ∧
      eval ops jen little env (.node anObj .equal [x, y]) = .ok (.bool 1#64) ∧
      eval ops jen little env (.node anObj .equal [y, z]) = .ok (.bool 1#64) ∧
      eval ops jen little env (.node anObj .equal [x, z]) = .ok (.bool 0#64)) ∧
    (∃ x y z : Expr, Built x ∧ Built y ∧ Built z ∧
      eval ops jen little env (.node anObj .equal [x, y]) = .ok (.bool 1#64) ∧
      eval ops jen little env (.node anObj .equal [y, z]) = .ok (.bool 1#64) ∧
      eval ops jen little env (.node anObj .equal [x, z]) = .ok (.bool 0#64) ∧
      x = lit (.float 0#64) ∧ z = lit (.float 0x8000000000000000#64)) := by
  refine ⟨⟨lit (.int 0x20000000000001#64), lit (.float 0x4340000000000000#64), lit (.int 0x20000000000000#64),
    .literal (o := anObj) (v := .int 0x20000000000001#64) rfl,
    .literal (o := anObj) (v := .float 0x4340000000000000#64) rfl,
    .literal (o := anObj) (v := .int 0x20000000000000#64) rfl,
    rfl, rfl, ?_⟩, ⟨lit (.float 0#64), lit (.int 0#64), lit (.float 0x8000000000000000#64),
    .literal (o := anObj) (v := .float 0#64) rfl, .literal (o := anObj) (v := .int 0#64) rfl,
    .literal (o := anObj) (v := .float 0x8000000000000000#64) rfl, rfl, rfl, ?_, rfl, rfl⟩⟩
  · cases little <;> rfl
  · cases little <;> rfl

/-- Non-vacuity: `3 == 3.0` both ways. -/
example : eval ops jen little env (.node anObj .equal [lit (.int 3#64), lit (.float 0x4008000000000000#64)]) =
      .ok (.bool 1#64) ∧
    eval ops jen little env (.node anObj .equal [lit (.float 0x4008000000000000#64), lit (.int 3#64)]) =
      .ok (.bool 1#64) ∧ Roundless (.int 3#64) ∧ Roundless (.float 0x4008000000000000#64) :=
  ⟨rfl, rfl, by simp [Roundless], by simp [Roundless]⟩

/-! ## C45 -/

/-- **C45** The right operand must be a list; an inactive left operand makes the test inactive whatever the
items; a failing left operand makes it fail. -/
theorem C45_shape (o : ObjMeta) (x y : Expr) :
    ((∀ o' items, y ≠ .node o' .list items) →
      eval ops jen little env (.node o .isIn [x, y]) = .err .invalidValue) ∧
    (∀ o' items, y = .node o' .list items →
      (eval ops jen little env x = .ok .inactive →
        eval ops jen little env (.node o .isIn [x, y]) = .ok .inactive) ∧
      (∀ e, eval ops jen little env x = .err e →
        eval ops jen little env (.node o .isIn [x, y]) = .err e)) := by
  rw [eval_binary]
  constructor
  · intro h
    have : evalItems ops jen little env y = none := by
      cases y with
      | literal o v => rfl
      | var o h p => rfl
      | node o' op args =>
        simp only [evalItems]
        by_cases hop : op = .list
        · subst hop; exact absurd rfl (h o' args)
        · rw [if_neg hop]
    simp only [evalOp, evalIn, this]
  · rintro o' items rfl
    rw [evalItems_list]
    constructor
    · intro hx; simp [evalOp, evalIn, hx]
    · intro e hx; simp [evalOp, evalIn, hx]

/-- **C45 (partial)** When the items evaluate, and the left operand is either not a variable or a variable
whose parameter accepts each item as an operand of `==`, IN is membership: true if the left value is one of
the items; otherwise inactive if some item is inactive; otherwise false.

Missing: variables on the left with an inactive item, see `C45_variable_inactive_item`. -/
theorem C45_membership_partial (o o' : ObjMeta) {x : Expr} {items : List Expr} {a : Value} {vs : List Value}
    (hx : eval ops jen little env x = .ok a) (ha : a ≠ .inactive)
    (hi : items.map (eval ops jen little env) = vs.map .ok)
    (hc : ∀ v ∈ vs, checkParameters jen little x.param? v = .ok ()) :
    ((∃ v ∈ vs, SameValue a v) →
      eval ops jen little env (.node o .isIn [x, .node o' .list items]) = .ok (.bool 1#64)) ∧
    ((∀ v ∈ vs, ¬ SameValue a v) → .inactive ∈ vs →
      eval ops jen little env (.node o .isIn [x, .node o' .list items]) = .ok .inactive) ∧
    ((∀ v ∈ vs, ¬ SameValue a v) → .inactive ∉ vs →
      eval ops jen little env (.node o .isIn [x, .node o' .list items]) = .ok (.bool 0#64)) := by
  have hev : eval ops jen little env (.node o .isIn [x, .node o' .list items]) =
      evalInLoop jen little x.param? a false (vs.map .ok) := by
    rw [eval_binary, evalItems_list, hx, hi]
    simp only [evalOp, evalIn, Out.bind_ok, if_neg ha]
  rw [hev]
  refine ⟨?_, ?_, ?_⟩
  · intro h
    have split : ∃ pre v post, vs = pre ++ v :: post ∧ SameValue a v ∧ ∀ w ∈ pre, ¬ SameValue a w := by
      clear hi hc hev
      induction vs with
      | nil => obtain ⟨v, hv, -⟩ := h; cases hv
      | cons v vs ih =>
        by_cases hv : SameValue a v
        · exact ⟨[], v, vs, rfl, hv, by simp⟩
        · obtain ⟨pre, w, post, rfl, hw, hp⟩ := ih (by
            obtain ⟨w, hw, hs⟩ := h
            rcases List.mem_cons.1 hw with rfl | hw
            · exact absurd hs hv
            · exact ⟨w, hw, hs⟩)
          refine ⟨v :: pre, w, post, rfl, hw, ?_⟩
          intro u hu
          rcases List.mem_cons.1 hu with rfl | hu
          · exact hv
          · exact hp u hu
    obtain ⟨pre, v, post, rfl, hv, hp⟩ := split
    rw [List.map_append, evalInLoop_found jen little _ a false (fun w hw => hc w (by simp [hw])) hp]
    simp only [List.map_cons, evalInLoop, Out.bind_ok, hc v (by simp), (testEqual_iff little a v).2 hv]
    rfl
  · intro hn hin
    have := evalInLoop_found jen little x.param? a (post := []) false hc hn
    rw [List.append_nil] at this
    rw [this]
    simp [evalInLoop, hin]
  · intro hn hin
    have := evalInLoop_found jen little x.param? a (post := []) false hc hn
    rw [List.append_nil] at this
    rw [this]
    simp [evalInLoop, hin, Value.ofBool]

/-- **C45** The condition on items is met by every literal, computed or string-parameter left operand. -/
theorem C45_membership_applies {x : Expr}
    (hx : x.param? = none ∨ ∃ p, x.param? = some p ∧ p.kind = .string) (v : Value) :
    checkParameters jen little x.param? v = .ok () := by
  rcases hx with h | ⟨p, h, hk⟩
  · rw [h]; rfl
  · rw [h]; simp only [checkParameters, hk]

/-- **C45** Items are inspected in order: an item that fails, before any item equal to the left value, makes the
test fail with the item's error; an item equal to the left value hides the items after it. -/
theorem C45_in_order (o o' : ObjMeta) {x y : Expr} {pre post : List Expr} {a : Value} {vs : List Value}
    (hx : eval ops jen little env x = .ok a) (ha : a ≠ .inactive)
    (hi : pre.map (eval ops jen little env) = vs.map .ok)
    (hc : ∀ v ∈ vs, checkParameters jen little x.param? v = .ok ()) (hn : ∀ v ∈ vs, ¬ SameValue a v) :
    (∀ e, eval ops jen little env y = .err e →
      eval ops jen little env (.node o .isIn [x, .node o' .list (pre ++ y :: post)]) = .err e) ∧
    (∀ b, eval ops jen little env y = .ok b → checkParameters jen little x.param? b = .ok () →
      SameValue a b →
      eval ops jen little env (.node o .isIn [x, .node o' .list (pre ++ y :: post)]) = .ok (.bool 1#64)) := by
  have hev : eval ops jen little env (.node o .isIn [x, .node o' .list (pre ++ y :: post)]) =
      evalInLoop jen little x.param? a false (vs.map .ok ++
        eval ops jen little env y :: post.map (eval ops jen little env)) := by
    rw [eval_binary, evalItems_list, hx, List.map_append, hi]
    simp only [evalOp, evalIn, Out.bind_ok, if_neg ha, List.map_cons]
  rw [hev, evalInLoop_found jen little _ a false hc hn]
  constructor
  · intro e he; rw [he]; rfl
  · intro b hb hcb hs
    rw [hb]
    simp only [evalInLoop, Out.bind_ok, hcb, (testEqual_iff little a b).2 hs]
    rfl

/-- **C45 (negation)** With a variable on a numerical or discrete parameter on the left, an inactive item is not
skipped: the test is refused, even if a later item equals the left value. -/
theorem C45_variable_inactive_item (o o' ov : ObjMeta) {h : BitVec 64} {p : Param} {a : Value} {y : Expr}
    (hp : (∃ iv d, p.kind = .numerical iv d) ∨ ∃ vals, p.kind = .categorical .discrete vals)
    (hx : eval ops jen little env (.var ov h p) = .ok a) (ha : a ≠ .inactive)
    (hy : eval ops jen little env y = .ok .inactive) (post : List Expr) :
    eval ops jen little env (.node o .isIn [.var ov h p, .node o' .list (y :: post)]) = .err .invalidValue := by
  rw [eval_binary, evalItems_list, hx]
  simp only [evalOp, evalIn, Out.bind_ok, if_neg ha, List.map_cons, hy, evalInLoop, Expr.param?]
  have : checkParameters jen little (some p) .inactive = .err .invalidValue := by
    rcases hp with ⟨iv, d, hk⟩ | ⟨vals, hk⟩ <;> simp only [checkParameters, hk] <;> rfl
  rw [this]
  rfl

/-- Non-vacuity: `2 IN [1, 2]` is true, `2 IN [1, y]` with `y` inactive is inactive, and with a numerical
variable holding 2 on the left it is refused although 2 is in the list. -/
example : eval ops jen little env
      (.node anObj .isIn [lit (.int 2#64), .node anObj .list [lit (.int 1#64), lit (.int 2#64)]]) =
      .ok (.bool 1#64) ∧
    eval ops jen little ⟨some [7#64, 9#64], some [.int 2#64, .inactive]⟩
      (.node anObj .isIn [lit (.int 2#64), .node anObj .list [lit (.int 1#64), .var anObj 9#64 pCat]]) =
      .ok .inactive ∧
    eval ops jen little ⟨some [7#64, 9#64], some [.int 2#64, .inactive]⟩
      (.node anObj .isIn [.var anObj 7#64 pNum, .node anObj .list [.var anObj 9#64 pCat, lit (.int 2#64)]]) =
      .err .invalidValue := by
  refine ⟨?_, ?_, ?_⟩
  · cases little <;> rfl
  · cases little <;> rfl
  · exact C45_variable_inactive_item ops jen little _ _ _ _ (.inl ⟨_, _, rfl⟩) rfl (by simp) rfl _

/-! ## C46 -/

/-- **C46 (partial)** Integer operators return the mathematical result when it fits in 64 bits, and refuse a zero
divisor.

Missing: results that do not fit, and `INT64_MIN % -1`, where the code has undefined behaviour, see
`C46_overflow`. -/
theorem C46_exact_partial (o : ObjMeta) {op : Op} (hop : Arithmetic op) {x y : Expr} {a b : BitVec 64}
    (hx : eval ops jen little env x = .ok (.int a)) (hy : eval ops jen little env y = .ok (.int b)) :
    (∀ n, exact op a.toInt b.toInt = some n → Fits n → ¬ (op = .mod ∧ a.toInt = -2 ^ 63 ∧ b.toInt = -1) →
      ∃ r, eval ops jen little env (.node o op [x, y]) = .ok (.int r) ∧ r.toInt = n) ∧
    (exact op a.toInt b.toInt = none →
      eval ops jen little env (.node o op [x, y]) = .err .invalidValue) := by
  have hev : eval ops jen little env (.node o op [x, y]) = intArith op a b := by
    rw [eval_binary, hx, hy]
    rcases hop with rfl | rfl | rfl | rfl | rfl <;> simp [evalOp, evalArith]
  rw [hev]
  rcases hop with rfl | rfl | rfl | rfl | rfl <;> simp only [exact, intArith]
  · exact ⟨fun n h hf _ => (Option.some.inj h) ▸ intResult_fits ((Option.some.inj h) ▸ hf), fun h => nomatch h⟩
  · exact ⟨fun n h hf _ => (Option.some.inj h) ▸ intResult_fits ((Option.some.inj h) ▸ hf), fun h => nomatch h⟩
  · exact ⟨fun n h hf _ => (Option.some.inj h) ▸ intResult_fits ((Option.some.inj h) ▸ hf), fun h => nomatch h⟩
  · by_cases h0 : b = 0#64
    · rw [if_pos h0, if_pos ((toInt_zero_iff b).1 h0)]
      exact ⟨fun n h => (nomatch h), fun _ => rfl⟩
    · rw [if_neg h0, if_neg (mt (toInt_zero_iff b).2 h0)]
      exact ⟨fun n h hf _ => (Option.some.inj h) ▸ intResult_fits ((Option.some.inj h) ▸ hf), fun h => nomatch h⟩
  · by_cases h0 : b = 0#64
    · rw [if_pos h0, if_pos ((toInt_zero_iff b).1 h0)]
      exact ⟨fun n h => (nomatch h), fun _ => rfl⟩
    · rw [if_neg h0, if_neg (mt (toInt_zero_iff b).2 h0)]
      refine ⟨fun n h hf hno => ?_, fun h => nomatch h⟩
      rw [if_pos]
      · exact (Option.some.inj h) ▸ intResult_fits ((Option.some.inj h) ▸ hf)
      · by_cases hlt : a.toInt.tdiv b.toInt < 2 ^ 63
        · exact hlt
        · exfalso
          have := tdiv_big ⟨BitVec.le_toInt a, BitVec.toInt_lt⟩ ⟨BitVec.le_toInt b, BitVec.toInt_lt⟩
            (mt (toInt_zero_iff b).2 h0) hlt
          exact hno ⟨trivial, this⟩

/-- **C46 (partial)** Unary minus is exact except on `INT64_MIN`, and unary plus is the identity. -/
theorem C46_unary_partial (o : ObjMeta) {x : Expr} {a : BitVec 64}
    (hx : eval ops jen little env x = .ok (.int a)) :
    eval ops jen little env (.node o .positive [x]) = .ok (.int a) ∧
    (a.toInt ≠ -2 ^ 63 → ∃ r, eval ops jen little env (.node o .negative [x]) = .ok (.int r) ∧
      r.toInt = -a.toInt) := by
  rw [eval_unary, eval_unary, hx]
  refine ⟨rfl, fun h => ?_⟩
  have h1 := BitVec.le_toInt a
  have h2 := BitVec.toInt_lt (x := a)
  exact intResult_fits (n := -a.toInt) ⟨by omega, by omega⟩

/-- **C46 (negation)** Every operation whose result does not fit in 64 bits, `INT64_MIN % -1` and the opposite of
`INT64_MIN` are undefined behaviour: nothing refuses them. -/
theorem C46_overflow (o : ObjMeta) {op : Op} (hop : Arithmetic op) {x y : Expr} {a b : BitVec 64}
    (hx : eval ops jen little env x = .ok (.int a)) (hy : eval ops jen little env y = .ok (.int b)) :
    (∀ n, exact op a.toInt b.toInt = some n → ¬ Fits n →
      eval ops jen little env (.node o op [x, y]) = .ub) ∧
    (a.toInt = -2 ^ 63 → b.toInt = -1 → eval ops jen little env (.node o .mod [x, y]) = .ub) ∧
    (a.toInt = -2 ^ 63 → eval ops jen little env (.node o .negative [x]) = .ub) := by
  refine ⟨?_, ?_, ?_⟩
  · have hev : eval ops jen little env (.node o op [x, y]) = intArith op a b := by
      rw [eval_binary, hx, hy]
      rcases hop with rfl | rfl | rfl | rfl | rfl <;> simp [evalOp, evalArith]
    rw [hev]
    intro n
    rcases hop with rfl | rfl | rfl | rfl | rfl <;> simp only [exact, intArith]
    · exact fun h hf => intResult_over ((Option.some.inj h) ▸ hf)
    · exact fun h hf => intResult_over ((Option.some.inj h) ▸ hf)
    · exact fun h hf => intResult_over ((Option.some.inj h) ▸ hf)
    · by_cases h0 : b = 0#64
      · rw [if_pos ((toInt_zero_iff b).1 h0)]
        exact fun h => nomatch h
      · rw [if_neg h0, if_neg (mt (toInt_zero_iff b).2 h0)]
        exact fun h hf => intResult_over ((Option.some.inj h) ▸ hf)
    · by_cases h0 : b = 0#64
      · rw [if_pos ((toInt_zero_iff b).1 h0)]
        exact fun h => nomatch h
      · rw [if_neg h0, if_neg (mt (toInt_zero_iff b).2 h0)]
        intro h hf
        split
        · exact intResult_over ((Option.some.inj h) ▸ hf)
        · rfl
  · intro ha hb
    rw [eval_binary, hx, hy]
    have e : intArith .mod a b = .ub := by
      have h0 : b ≠ 0#64 := by
        rintro rfl; simp at hb
      simp only [intArith, if_neg h0, ha, hb]
      rfl
    simpa [evalOp, evalArith] using e
  · intro ha
    rw [eval_unary, hx]
    simp only [evalOp, evalNegative, Out.bind_ok, ha]
    rfl

/-- Non-vacuity: an exact result, a refused division, an overflow. -/
example : eval ops jen little env (.node anObj .mod [lit (.int (-7#64)), lit (.int 2#64)]) = .ok (.int (-1#64)) ∧
    eval ops jen little env (.node anObj .div [lit (.int 7#64), lit (.int 0#64)]) = .err .invalidValue ∧
    eval ops jen little env (.node anObj .add [lit (.int 0x7fffffffffffffff#64), lit (.int 1#64)]) = .ub ∧
    Arithmetic .mod ∧ exact .mod (-7) 2 = some (-1) ∧ Fits (-1) :=
  ⟨rfl, rfl, rfl, by simp [Arithmetic], rfl, by simp [Fits]⟩

/-! ## C47 -/

/-- The two-operand strict operators other than the orderings. -/
def Strict (op : Op) : Prop := Arithmetic op ∨ op = .equal ∨ op = .notEqual ∨ op = .and

/-- The orderings. -/
def IsOrdering (op : Op) : Prop := op = .less ∨ op = .greater ∨ op = .lessEq ∨ op = .greaterEq

/-- **C47** Arithmetic, equality, inequality and AND are inactive as soon as one operand is, whatever the other
one is worth; so are the unary operators. -/
theorem C47_inactive_operand (o : ObjMeta) {op : Op} (hop : Strict op) {x y : Expr} {b : Value}
    (hx : eval ops jen little env x = .ok .inactive) (hy : eval ops jen little env y = .ok b) :
    eval ops jen little env (.node o op [x, y]) = .ok .inactive ∧
    eval ops jen little env (.node o op [y, x]) = .ok .inactive := by
  rw [eval_binary, eval_binary, hx, hy]
  rcases hop with (rfl | rfl | rfl | rfl | rfl) | rfl | rfl | rfl <;>
    simp [evalOp, evalArith, evalEqual, evalAnd]

/-- **C47** Unary operators are inactive on an inactive operand. -/
theorem C47_inactive_unary (o : ObjMeta) {op : Op} (hop : op = .positive ∨ op = .negative ∨ op = .not)
    {x : Expr} (hx : eval ops jen little env x = .ok .inactive) :
    eval ops jen little env (.node o op [x]) = .ok .inactive := by
  rw [eval_unary, hx]
  rcases hop with rfl | rfl | rfl <;> rfl

/-- **C47 (partial)** Orderings are inactive as soon as one operand is, unless an operand is a variable on a
categorical parameter.

Missing: those variables, see `C47_categorical_refused`. -/
theorem C47_inactive_ordering_partial (o : ObjMeta) {op : Op} (hop : IsOrdering op) {x y : Expr} {b : Value}
    (hx : eval ops jen little env x = .ok .inactive) (hy : eval ops jen little env y = .ok b)
    (hnx : ∀ p vals, x.param? = some p → p.kind ≠ .categorical .categorical vals)
    (hny : ∀ p vals, y.param? = some p → p.kind ≠ .categorical .categorical vals) :
    eval ops jen little env (.node o op [x, y]) = .ok .inactive ∧
    eval ops jen little env (.node o op [y, x]) = .ok .inactive := by
  have cat : ∀ e : Expr, (∀ p vals, e.param? = some p → p.kind ≠ .categorical .categorical vals) →
      isCategorical e.param? = false := by
    intro e h
    cases he : e.param? with
    | none => rfl
    | some p =>
      simp only [isCategorical]
      split
      · rename_i k; exact absurd k (h p _ he)
      · rfl
  rw [eval_binary, eval_binary, hx, hy]
  rcases hop with rfl | rfl | rfl | rfl <;> simp [evalOp, evalCompare, cat x hnx, cat y hny]

/-- **C47 (negation)** An ordering with a variable on a categorical parameter is refused even when the variable is
inactive. -/
theorem C47_categorical_refused (o ov : ObjMeta) {op : Op} (hop : IsOrdering op) {h : BitVec 64} {p : Param}
    {vals : List Value} (hk : p.kind = .categorical .categorical vals) {y : Expr} {b : Value}
    (hx : eval ops jen little env (.var ov h p) = .ok .inactive) (hy : eval ops jen little env y = .ok b) :
    eval ops jen little env (.node o op [.var ov h p, y]) = .err .invalidValue ∧
    eval ops jen little env (.node o op [y, .var ov h p]) = .err .invalidValue := by
  have cat : isCategorical (some p) = true := by simp only [isCategorical, hk]
  rw [eval_binary, eval_binary, hx, hy]
  rcases hop with rfl | rfl | rfl | rfl <;> simp [evalOp, evalCompare, Expr.param?, cat]

/-- Non-vacuity. -/
example : eval ops jen little ⟨some [7#64], some [.inactive]⟩
      (.node anObj .add [.var anObj 7#64 pNum, lit (.str (some []))]) = .ok .inactive ∧
    eval ops jen little ⟨some [7#64], some [.inactive]⟩
      (.node anObj .less [.var anObj 7#64 pNum, lit (.int 1#64)]) = .ok .inactive ∧
    eval ops jen little ⟨some [7#64], some [.inactive]⟩
      (.node anObj .less [.var anObj 7#64 pCat, lit (.int 1#64)]) = .err .invalidValue :=
  ⟨rfl, rfl, rfl⟩

end

end CCS.Props
