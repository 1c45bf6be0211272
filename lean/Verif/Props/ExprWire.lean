import Verif.Lemmas.ExprWire
import Verif.Props.Expr

/-!
# C11: serialization of expressions

`Spec.Storable m f e`: the literals and sizes of `e` can be stored, and the handle map `m` sends each variable
`h` of `e` to the parameter `(f h).2` at address `(f h).1`.  `Spec.relabel f e` is `e` with these new variables.
-/

namespace CCS.Props

open CCS Spec

section
variable (ops : FloatOps) (jen : Bytes → BitVec 32)

/-- **C11 (partial)** The announced size is exact, writing fits exactly, and reading, on a host of any byte order,
gives the same expression (shape, operators, literals, user data) with its variables mapped.

Missing: NULL string literals (`C11_null_string`) and boolean literals that need more than 32 bits
(`C11_wide_boolean`). -/
theorem C11_round_trip_partial (little little' : Bool) {e : Expr} (hb : Built e)
    {m : BitVec 64 → Option Target} {f : BitVec 64 → BitVec 64 × Param} (hs : Storable m f e) :
    ∃ n, szExpr e = .ok n ∧ RoundTrips (serExpr little e) n (deExpr little' (some m)) (relabel f e) :=
  ⟨_, length_expr e hs, exprBytes e, writes_expr little e hs, rfl, reads_expr little' e hb hs⟩

/-- **C11 (partial)** What is read back evaluates identically: whenever each variable maps to an equal parameter
that has the same value in the new context, the outcome is the same.

Missing: as for `C11_round_trip_partial`. -/
theorem C11_same_evaluation_partial (little little' : Bool) {e : Expr} (hb : Built e)
    {m : BitVec 64 → Option Target} {f : BitVec 64 → BitVec 64 × Param} (hs : Storable m f e)
    {env env' : Env}
    (henv : ∀ h p, OccursAs h p e → (f h).2 = p ∧ env'.lookup (f h).1 = env.lookup h) :
    ∃ bs e', WritesBytes (serExpr little e) bs ∧ ReadsBack (deExpr little' (some m)) bs e' ∧
      eval ops jen little' env' e' = eval ops jen little' env e :=
  ⟨exprBytes e, relabel f e, writes_expr little e hs, reads_expr little' e hb hs,
    (eval_relabel ops jen little' env env' f e henv).1⟩

/-- **C11** A variable cannot be read without a handle map, nor when the map does not know its handle. -/
theorem C11_variable_needs_map (little little' : Bool) (o : ObjMeta) (h : BitVec 64) (p : Param) :
    ∃ bs, WritesBytes (serExpr little (.var o h p)) bs ∧
      (∀ tail, deExpr little' none (bs ++ tail) = .err .invalidObject) ∧
      (∀ m : BitVec 64 → Option Target, m h = none → ∀ tail,
        deExpr little' (some m) (bs ++ tail) = .err .invalidHandle) := by
  refine ⟨exprBytes (.var o h p), ?_, ?_, ?_⟩
  · simp only [serExpr, exprBytes]
    have := writes_seq (writes_obj expressionType o.handle) (writes_seq (writes_enum 19#32)
      (writes_seq (writes_size 0) (writes_seq (writes_handle h) (writes_userData o.ud))))
    simpa using this
  · intro tail
    unfold deExpr
    simp only [exprBytes, List.append_assoc]
    rw [around_result]
    rfl
  · intro m hm tail
    unfold deExpr
    simp only [exprBytes, List.append_assoc]
    rw [around_result]
    have hv : deVariable (some m) o.handle (lebBytes 19#32 ++ (lebBytes (BitVec.ofNat 64 0) ++
        (lebBytes h ++ (blobBytes o.ud ++ tail)))) = .err .invalidHandle := by
      have hr : refute ((some m : HandleMap).isNone = true) Err.invalidObject = .ok () := by simp [refute]
      unfold deVariable
      rw [Rd.bind_eq, hr, Rd.lift_ok, Out.bind_ok]
      rw [Rd.bind_eq, ← List.append_assoc (lebBytes 19#32), reads_noNodes, Out.bind_ok, Rd.bind_eq,
        (decodes_handle h).1, Out.bind_ok]
      simp only [targetVariable, hm]
      rfl
    unfold deExprBody
    rw [if_neg (by decide), if_pos rfl, hv]
    rfl

/-- **C11 (negation)** A literal holding a NULL string is accepted by the constructor; computing its size, and
writing it in a buffer that has room for its header, are undefined behaviour. -/
theorem C11_null_string (little : Bool) (o : ObjMeta) (b : WBuf) :
    ∃ e, createLiteral o (.str none) = .ok e ∧ szExpr e = .ub ∧
      (szObj expressionType o.handle + 3 ≤ b.left → serExpr little e b = .ub) := by
  refine ⟨_, rfl, rfl, fun hb => ?_⟩
  have hw := writes_seq (writes_obj expressionType o.handle) (writes_seq (writes_enum 18#32)
    (writes_seq (writes_size 0) (writes_enum 4#32)))
  have l1 : (lebBytes 18#32).length = 1 := by rw [lebBytes]; rfl
  have l2 : (lebBytes (BitVec.ofNat 64 0)).length = 1 := by rw [lebBytes]; rfl
  have l3 : (lebBytes 4#32).length = 1 := by rw [lebBytes]; rfl
  have hwb := hw b
  rw [if_pos (by simp only [List.length_append, length_obj, l1, l2, l3]; omega)] at hwb
  have hseq : ∀ (w₁ w₂ w₃ w₄ w₅ w₆ : Wr) (b b' : WBuf), (w₁ ⨟ w₂ ⨟ w₃ ⨟ w₄) b = .ok b' → w₅ b' = .ub →
      (w₁ ⨟ w₂ ⨟ w₃ ⨟ (w₄ ⨟ w₅) ⨟ w₆) b = .ub := by
    intro w₁ w₂ w₃ w₄ w₅ w₆ b b' h1 h2
    simp only [Wr.seq] at h1 ⊢
    obtain ⟨c1, k1, h1⟩ := bind_eq_ok h1
    obtain ⟨c2, k2, h1⟩ := bind_eq_ok h1
    obtain ⟨c3, k3, h1⟩ := bind_eq_ok h1
    rw [k1, Out.bind_ok]
    show (w₂ c1 >>= (w₃ ⨟ (w₄ ⨟ w₅) ⨟ w₆)) = .ub
    rw [k2, Out.bind_ok]
    show (w₃ c2 >>= ((w₄ ⨟ w₅) ⨟ w₆)) = .ub
    rw [k3, Out.bind_ok]
    show ((w₄ c3 >>= w₅) >>= w₆) = .ub
    rw [h1, Out.bind_ok, h2]
    rfl
  exact hseq _ _ _ _ _ _ b _ hwb rfl

/-- **C11 (negation)** A true boolean literal whose low 32 bits are zero is accepted by the constructor and read
back as false. -/
theorem C11_wide_boolean (little little' : Bool) (o : ObjMeta) (ho : o.ud.length < 2 ^ 64)
    (m : BitVec 64 → Option Target) (env : Env) :
    ∃ e e' bs, createLiteral o (.bool 0x100000000#64) = .ok e ∧ WritesBytes (serExpr little e) bs ∧
      ReadsBack (deExpr little' (some m)) bs e' ∧
      eval ops jen little env (.node o .not [e]) = .ok (.bool 0#64) ∧
      eval ops jen little env (.node o .not [e']) = .ok (.bool 1#64) := by
  refine ⟨.literal o (.bool 0x100000000#64), .literal o (.bool 0#64), exprBytes (.literal o (.bool 0x100000000#64)),
    rfl, ?_, ?_, rfl, rfl⟩
  · simp only [serExpr, exprBytes]
    have := writes_seq (writes_obj expressionType o.handle) (writes_seq (writes_enum 18#32)
      (writes_seq (writes_size 0) (writes_seq (writes_datum little (.bool 0x100000000#64) trivial)
        (writes_userData o.ud))))
    simpa using this
  · intro tail
    unfold deExpr
    simp only [exprBytes]
    refine reads_around ho (e' := .literal ⟨o.handle, []⟩ (.bool 0#64)) ?_ rfl tail
    rw [← List.append_assoc (lebBytes 18#32)]
    unfold deExprBody
    rw [if_pos rfl]
    unfold deLiteral
    exact reads_bind (reads_noNodes _) (reads_bind_pure
      (decodes_datum little' (.bool 0x100000000#64) trivial).1 rfl)

/-- **C11 (negation, crafted input)** A stored literal that announces operands makes the reader dereference a
NULL pointer. -/
theorem C11_crafted_literal (little : Bool) (map : HandleMap) (h : BitVec 64) (n : Nat) (hn : 0 < n)
    (hn' : n < 2 ^ 64) (rest : Bytes) :
    deExpr little map (objBytes expressionType h ++ (lebBytes 18#32 ++
      (lebBytes (BitVec.ofNat 64 n) ++ rest))) = .ub := by
  unfold deExpr
  rw [around_result]
  unfold deExprBody
  rw [if_pos rfl]
  unfold deLiteral deNoNodes
  rw [Rd.bind_eq, Rd.bind_eq, (decodes_enum 18#32).1, Out.bind_ok, Rd.bind_eq, (decodes_size hn').1,
    Out.bind_ok]
  simp only
  rw [if_neg (by omega)]
  rfl

/-- Non-vacuity: `(x < 3) == true` over a parameter known to the map meets the hypotheses. -/
example : ∃ e, createExpression anObj [anObj] 2
      [.expr (.node anObj .less [.var anObj 7#64 pNum, lit (.int 3#64)]), .value (.bool 1#64)] = .ok e ∧
    Built e ∧ Storable (fun h => if h = 7#64 then some (.param 70#64 pNum) else none)
      (fun _ => (70#64, pNum)) e ∧
    (∀ h p, OccursAs h p e → h = 7#64 ∧ p = pNum) ∧
    eval ops jen true ⟨some [7#64], some [.int 2#64]⟩ e = .ok (.bool 1#64) := by
  refine ⟨_, rfl, .expression (o := anObj) (os := [anObj]) (type := 2)
      (nodes := [.expr (.node anObj .less [.var anObj 7#64 pNum, lit (.int 3#64)]), .value (.bool 1#64)]) rfl
      ?_, ?_, ?_, rfl⟩
  · intro x hx
    simp at hx
    subst hx
    exact .expression (o := anObj) (os := [anObj, anObj]) (type := 4)
      (nodes := [.param 7#64 pNum, .value (.int 3#64)]) rfl (by simp)
  · refine .node (by decide) (by decide) ?_
    intro a ha
    simp at ha
    rcases ha with rfl | rfl
    · refine .node (by decide) (by decide) ?_
      intro a ha
      simp at ha
      rcases ha with rfl | rfl
      · exact .var (by decide) rfl (by decide)
      · exact .literal (by decide) trivial
    · exact .literal (by decide) (by simp [StorableValue])
  · intro h p ho
    cases ho with
    | inside ha ho =>
      simp at ha
      rcases ha with rfl | rfl
      · cases ho with
        | inside ha ho =>
          simp at ha
          rcases ha with rfl | rfl
          · cases ho; exact ⟨rfl, rfl⟩
          · cases ho
      · cases ho

end

end CCS.Props
