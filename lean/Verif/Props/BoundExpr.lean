/-
C145: expressions built and evaluated from Python and Ruby.
-/
import Verif.Spec.BoundExpr
import Verif.Props.PyDatum
import Verif.Props.RbDatum
import Verif.Props.BoundValues
import Verif.Props.Expr

namespace CCS.Props
open CCS CCS.Spec

theorem number_code (k : ExprClass) : Op.ofCode k.number = some (operator k) := by cases k <;> decide

theorem arity_of (k : ExprClass) (n : Nat) (h : k = .list ∨ (operator k).arity = some n) : arityMismatch (operator k) n = false := by
  rcases h with rfl | h
  · rfl
  · unfold arityMismatch; rw [h]; simp

/-- Nodes that are accepted are made into operands. -/
theorem accepted_nodes {α : Type} {toNode : α → Out Node} {toNodes : List α → Out (List Node)} {S : α → Expr → Prop} {P : α → Prop}
    (h0 : toNodes [] = .ok [])
    (h1 : ∀ x xs, toNodes (x :: xs) = (toNode x >>= fun n => toNodes xs >>= fun ns => .ok (n :: ns)))
    (hx : ∀ x, P x → ∃ n, toNode x = .ok n ∧ n.refusal = none ∧ ∀ os ns (Q : List Expr → Prop),
      (∀ os, ∃ es, makeNodes os ns = .ok es ∧ Q es) → ∃ e es, makeNodes os (n :: ns) = .ok (e :: es) ∧ S x e ∧ Q es) :
    ∀ xs, (∀ x ∈ xs, P x) → ∃ ns, toNodes xs = .ok ns ∧ ns.length = xs.length ∧ ns.findSome? Node.refusal = none ∧
      ∀ os, ∃ es, makeNodes os ns = .ok es ∧ OneByOne S xs es := by
  intro xs
  induction xs with
  | nil => intro _; exact ⟨[], h0, rfl, rfl, fun os => ⟨[], by unfold makeNodes; rfl, rfl, by simp⟩⟩
  | cons x xs ih =>
    intro h
    obtain ⟨ns, hns, hl, hr, hm⟩ := ih fun y hy => h y (by simp [hy])
    obtain ⟨n, hn, hnr, hmk⟩ := hx x (h x (by simp))
    refine ⟨n :: ns, by rw [h1, hn, hns]; rfl, by simp [hl], by simp [hnr, hr], fun os => ?_⟩
    obtain ⟨e, es, he, hs, h2⟩ := hmk os ns (OneByOne S xs) hm
    refine ⟨e :: es, he, by simp [h2.1], fun i y e' hy he' => ?_⟩
    cases i with
    | zero =>
      simp only [List.getElem?_cons_zero, Option.some.injEq] at hy he'
      exact hy ▸ he' ▸ hs
    | succ i => exact h2.2 i y e' (by simpa using hy) (by simpa using he')

/-- An expression whose nodes are accepted is made. -/
theorem createExpression_ok (o : ObjMeta) (os : List ObjMeta) (k : ExprClass) {ns : List Node}
    (hk : k = .list ∨ (operator k).arity = some ns.length) (hr : ns.findSome? Node.refusal = none) {es : List Expr}
    (hm : makeNodes os ns = .ok es) : createExpression o os k.number ns = .ok (.node o (operator k) es) := by
  unfold createExpression
  rw [number_code k]
  simp only [arity_of k ns.length hk, hr, hm]
  rfl

/-- Parameters are asked of the library, and there is an exception unless there is none. -/
theorem getParameters_none (e : Expr) : getParameters e none = .ok (none, e.parameters.length) := rfl

end CCS.Props

namespace CCS.Py
open CCS CCS.Spec CCS.Py.Spec CCS.Props

theorem toDatum_of {v : Val} {w : Value} (h : Denotes v w) (hu : Usual w) : ∃ d, toDatum v = .ok d ∧ d.v = w := by
  cases v <;> cases w <;> try exact absurd h id
  · exact ⟨_, rfl, rfl⟩
  · next b i =>
    refine ⟨_, rfl, ?_⟩
    have h : b = true ↔ i ≠ 0#64 := h
    rcases hu with rfl | rfl <;> cases b <;> simp_all
  · next n i =>
    refine ⟨_, rfl, ?_⟩
    have h : n = i.toInt := h
    subst h
    simp
  · next f g => exact ⟨_, rfl, congrArg Value.float h⟩
  · next s t =>
    cases t with
    | none => exact absurd h id
    | some t =>
      have h : s = t := h
      subst h
      refine ⟨_, rfl, ?_⟩
      show Value.str (some (s.takeWhile _)) = _
      rw [nul_free hu]
  · exact ⟨_, rfl, rfl⟩

theorem fromDatum_of {w : Value} (h : Showable w) : ∃ x, fromDatum { v := w } = .ok x ∧ Denotes x w := by
  cases w with
  | none => exact ⟨.none, rfl, trivial⟩
  | bool i =>
    refine ⟨.bool (i != 0#64), rfl, ?_⟩
    show (i != 0#64) = true ↔ i ≠ 0#64
    simp
  | int i => exact ⟨.int i.toInt, rfl, rfl⟩
  | float f => exact ⟨.float f, rfl, rfl⟩
  | str s =>
    cases s with
    | none => exact absurd h id
    | some s => exact ⟨.str s, rfl, rfl⟩
  | inactive => exact ⟨.inactive, rfl, trivial⟩
  | obj o => exact absurd h id

theorem gets_of (given : Out Value) : Gets Denotes given (given >>= fun v => fromDatum { v := v }) := by
  cases given with
  | ub => exact rfl
  | err e => exact rfl
  | ok w => intro h; exact fromDatum_of h

theorem giveAll_of : ∀ {vs : List Val} {ws : List Value}, OneByOne Denotes vs ws → (∀ w ∈ ws, Usual w) →
    ∃ ds, giveAll vs = .ok ds ∧ ds.map (·.v) = ws := by
  intro vs
  induction vs with
  | nil =>
    intro ws h _
    have : ws = [] := List.eq_nil_of_length_eq_zero h.1.symm
    exact ⟨[], rfl, this.symm⟩
  | cons v vs ih =>
    intro ws h hu
    match ws, h, hu with
    | [], h, _ => exact absurd h.1 (by simp)
    | w :: ws, h, hu =>
      obtain ⟨d, h1, h2⟩ := toDatum_of (h.2 0 v w rfl rfl) (hu w (by simp))
      obtain ⟨ds, h3, h4⟩ := ih (ws := ws) ⟨by simpa using h.1, fun i x y hx hy => h.2 (i + 1) x y (by simpa using hx) (by simpa using hy)⟩
        fun x hx => hu x (by simp [hx])
      exact ⟨d :: ds, by unfold giveAll; rw [h1, h3]; rfl, by simp [h2, h4]⟩

theorem toNode_of {x : Operand} (h : Usable x) : ∃ n, toNode x = .ok n ∧ n.refusal = none ∧
    ∀ os ns (Q : List Expr → Prop), (∀ os, ∃ es, makeNodes os ns = .ok es ∧ Q es) →
      ∃ e es, makeNodes os (n :: ns) = .ok (e :: es) ∧ Stands x e ∧ Q es := by
  cases x with
  | expr e =>
    refine ⟨.expr e, rfl, rfl, fun os ns Q hm => ?_⟩
    obtain ⟨es', h1, h2⟩ := hm os
    exact ⟨e, es', by unfold makeNodes; rw [h1]; rfl, rfl, h2⟩
  | param a p =>
    have h : a ≠ 0#64 := h
    refine ⟨.param a p, rfl, if_neg h, fun os ns Q hm => ?_⟩
    obtain ⟨es', h1, h2⟩ := hm os.tail
    exact ⟨.var (os.headD ⟨0#64, []⟩) a p, es', by unfold makeNodes createVariable; rw [if_neg h, h1]; rfl, ⟨rfl, rfl⟩, h2⟩
  | val v =>
    obtain ⟨hv, w, hw, hu⟩ := h
    obtain ⟨d, h1, h2⟩ := toDatum_of hw hu
    have ht : ¬ 4 < w.tag := by
      cases v <;> cases w <;> first | exact absurd hw id | exact absurd rfl hv | simp [Value.tag]
    refine ⟨.value w, by show (toDatum v >>= fun d => Out.ok (Node.value d.v)) = _; rw [h1, ← h2]; rfl, if_neg ht, fun os ns Q hm => ?_⟩
    obtain ⟨es', h3, h4⟩ := hm os.tail
    exact ⟨.literal (os.headD ⟨0#64, []⟩) w, es', by unfold makeNodes createLiteral; rw [if_neg ht, h3]; rfl, hw, h4⟩

theorem toNodes_of (xs : List Operand) (h : ∀ x ∈ xs, Usable x) : ∃ ns, toNodes xs = .ok ns ∧ ns.length = xs.length ∧
    ns.findSome? Node.refusal = none ∧ ∀ os, ∃ es, makeNodes os ns = .ok es ∧ OneByOne Stands xs es :=
  accepted_nodes (P := Usable) rfl (fun _ _ => rfl) (fun _ hx => by
    obtain ⟨n, h1, h2, h3⟩ := toNode_of hx
    exact ⟨n, h1, h2, h3⟩) xs h

end CCS.Py

namespace CCS.Rb
open CCS CCS.Spec CCS.Rb.Spec CCS.Props

theorem toDatum_of {v : Val} {w : Value} (h : Denotes v w) (hu : Usual w) : ∃ d, toDatum v = .ok d ∧ d.v = w := by
  cases v <;> cases w <;> try exact absurd h id
  · exact ⟨_, rfl, rfl⟩
  · next b i =>
    refine ⟨_, rfl, ?_⟩
    have h : b = true ↔ i ≠ 0#64 := h
    rcases hu with rfl | rfl <;> cases b <;> simp_all
  · next n i =>
    have h : n = i.toInt := h
    subst h
    refine ⟨{ v := .int i }, ?_, rfl⟩
    show (int64 i.toInt >>= fun n => Out.ok ({ v := .int n } : Datum)) = _
    unfold int64
    rw [if_pos ⟨BitVec.le_toInt i, BitVec.toInt_lt⟩, BitVec.ofInt_toInt]
    rfl
  · next f g => exact ⟨_, rfl, congrArg Value.float h⟩
  · next s b t =>
    cases t with
    | none => exact absurd h id
    | some t =>
      have h : s = t := h
      subst h
      refine ⟨withBits (.str (some (s.takeWhile (· ≠ 0#8)))) 1, rfl, ?_⟩
      show Value.str (some (s.takeWhile _)) = _
      rw [Py.nul_free hu]
  · exact ⟨_, rfl, rfl⟩

theorem fromDatum_of (r : Refs) {w : Value} (h : Showable w) : ∃ x, fromDatum r { v := w } = .ok x ∧ Result r x w := by
  cases w with
  | none => exact ⟨(.nil, r), rfl, trivial, rfl⟩
  | bool i =>
    refine ⟨(.bool (i != 0#64), r), rfl, ?_, rfl⟩
    show (i != 0#64) = true ↔ i ≠ 0#64
    simp
  | int i => exact ⟨(.int i.toInt, r), rfl, rfl, rfl⟩
  | float f => exact ⟨(.float f, r), rfl, rfl, rfl⟩
  | str s =>
    cases s with
    | none => exact absurd h id
    | some s => exact ⟨(.str s true, r), rfl, rfl, rfl⟩
  | inactive => exact ⟨(.inactive, r), rfl, trivial, rfl⟩
  | obj o => exact absurd h id

theorem gets_of (r : Refs) (given : Out Value) : Gets (Result r) given (given >>= fun v => fromDatum r { v := v }) := by
  cases given with
  | ub => exact rfl
  | err e => exact rfl
  | ok w => intro h; exact fromDatum_of r h

theorem giveAll_of : ∀ {vs : List Val} {ws : List Value}, OneByOne Denotes vs ws → (∀ w ∈ ws, Usual w) →
    ∃ ds, giveAll vs = .ok ds ∧ ds.map (·.v) = ws := by
  intro vs
  induction vs with
  | nil =>
    intro ws h _
    have : ws = [] := List.eq_nil_of_length_eq_zero h.1.symm
    exact ⟨[], rfl, this.symm⟩
  | cons v vs ih =>
    intro ws h hu
    match ws, h, hu with
    | [], h, _ => exact absurd h.1 (by simp)
    | w :: ws, h, hu =>
      obtain ⟨d, h1, h2⟩ := toDatum_of (h.2 0 v w rfl rfl) (hu w (by simp))
      obtain ⟨ds, h3, h4⟩ := ih (ws := ws) ⟨by simpa using h.1, fun i x y hx hy => h.2 (i + 1) x y (by simpa using hx) (by simpa using hy)⟩
        fun x hx => hu x (by simp [hx])
      exact ⟨d :: ds, by unfold giveAll; rw [h1, h3]; rfl, by simp [h2, h4]⟩

theorem toNode_of {x : Operand} (h : Usable x) : ∃ n, toNode x = .ok n ∧ n.refusal = none ∧
    ∀ os ns (Q : List Expr → Prop), (∀ os, ∃ es, makeNodes os ns = .ok es ∧ Q es) →
      ∃ e es, makeNodes os (n :: ns) = .ok (e :: es) ∧ Stands x e ∧ Q es := by
  cases x with
  | expr e =>
    refine ⟨.expr e, rfl, rfl, fun os ns Q hm => ?_⟩
    obtain ⟨es', h1, h2⟩ := hm os
    exact ⟨e, es', by unfold makeNodes; rw [h1]; rfl, rfl, h2⟩
  | param a p =>
    have h : a ≠ 0#64 := h
    refine ⟨.param a p, rfl, if_neg h, fun os ns Q hm => ?_⟩
    obtain ⟨es', h1, h2⟩ := hm os.tail
    exact ⟨.var (os.headD ⟨0#64, []⟩) a p, es', by unfold makeNodes createVariable; rw [if_neg h, h1]; rfl, ⟨rfl, rfl⟩, h2⟩
  | val v =>
    obtain ⟨hv, w, hw, hu⟩ := h
    obtain ⟨d, h1, h2⟩ := toDatum_of hw hu
    have ht : ¬ 4 < w.tag := by
      cases v <;> cases w <;> first | exact absurd hw id | exact absurd rfl hv | simp [Value.tag]
    have hn : toNode (.val v) = .ok (.value w) := by
      show (toDatum v >>= fun d => match d.v with | .obj _ => Out.ok Node.object | v => .ok (.value v)) = _
      rw [h1]
      show (match d.v with | .obj _ => Out.ok Node.object | v => .ok (.value v)) = _
      rw [h2]
      cases v <;> cases w <;> first | exact absurd hw id | rfl
    refine ⟨.value w, hn, if_neg ht, fun os ns Q hm => ?_⟩
    obtain ⟨es', h3, h4⟩ := hm os.tail
    exact ⟨.literal (os.headD ⟨0#64, []⟩) w, es', by unfold makeNodes createLiteral; rw [if_neg ht, h3]; rfl, hw, h4⟩

theorem toNodes_of (xs : List Operand) (h : ∀ x ∈ xs, Usable x) : ∃ ns, toNodes xs = .ok ns ∧ ns.length = xs.length ∧
    ns.findSome? Node.refusal = none ∧ ∀ os, ∃ es, makeNodes os ns = .ok es ∧ OneByOne Stands xs es :=
  accepted_nodes (P := Usable) rfl (fun _ _ => rfl) (fun _ hx => by
    obtain ⟨n, h1, h2, h3⟩ := toNode_of hx
    exact ⟨n, h1, h2, h3⟩) xs h

end CCS.Rb

namespace CCS.Props
open CCS CCS.Spec

/-! ### Building -/

/-- **C145** In Python, an expression is built from operands as its class says: its operator is that of the class, its operands those
that were given, in order. -/
theorem C145_python_build (o : ObjMeta) (os : List ObjMeta) (k : ExprClass) :
    (∀ l r, (operator k).arity = some 2 → Py.Spec.Usable l → Py.Spec.Usable r →
      ∃ el er, Py.newBinary o os k l r = .ok (.node o (operator k) [el, er]) ∧ Py.Spec.Stands l el ∧ Py.Spec.Stands r er) ∧
    (∀ x, (operator k).arity = some 1 → Py.Spec.Usable x →
      ∃ e, Py.newUnary o os k x = .ok (.node o (operator k) [e]) ∧ Py.Spec.Stands x e) ∧
    ∀ xs, (∀ x ∈ xs, Py.Spec.Usable x) →
      ∃ es, Py.newList o os xs = .ok (.node o .list es) ∧ OneByOne Py.Spec.Stands xs es := by
  refine ⟨fun l r hk hl hr => ?_, fun x hk hx => ?_, fun xs h => ?_⟩
  · obtain ⟨ns, h1, h2, h3, h4⟩ := Py.toNodes_of [l, r] (by simp [hl, hr])
    obtain ⟨es, h5, h6⟩ := h4 os
    match es, h5, h6 with
    | [el, er], h5, h6 =>
      refine ⟨el, er, ?_, h6.2 0 l el rfl rfl, h6.2 1 r er rfl rfl⟩
      have hc := createExpression_ok o os k (.inr (h2 ▸ hk)) h3 h5
      obtain ⟨nl, hl', -⟩ := Py.toNode_of hl
      obtain ⟨nr, hr', -⟩ := Py.toNode_of hr
      have : ns = [nl, nr] := by
        have h1 := h1
        unfold Py.toNodes Py.toNodes Py.toNodes at h1
        rw [hl', hr'] at h1
        exact (Out.ok.inj h1).symm
      subst this
      unfold Py.newBinary createBinary
      rw [hl', hr']
      exact hc
    | [], _, h6 => exact absurd h6.1 (by simp)
    | [_], _, h6 => exact absurd h6.1 (by simp)
    | _ :: _ :: _ :: _, _, h6 => exact absurd h6.1 (by simp)
  · obtain ⟨ns, h1, h2, h3, h4⟩ := Py.toNodes_of [x] (by simp [hx])
    obtain ⟨es, h5, h6⟩ := h4 os
    match es, h5, h6 with
    | [e], h5, h6 =>
      refine ⟨e, ?_, h6.2 0 x e rfl rfl⟩
      have hc := createExpression_ok o os k (.inr (h2 ▸ hk)) h3 h5
      obtain ⟨n, hx', -⟩ := Py.toNode_of hx
      have : ns = [n] := by
        have h1 := h1
        unfold Py.toNodes Py.toNodes at h1
        rw [hx'] at h1
        exact (Out.ok.inj h1).symm
      subst this
      unfold Py.newUnary createUnary
      rw [hx']
      exact hc
    | [], _, h6 => exact absurd h6.1 (by simp)
    | _ :: _ :: _, _, h6 => exact absurd h6.1 (by simp)
  · obtain ⟨ns, h1, h2, h3, h4⟩ := Py.toNodes_of xs h
    obtain ⟨es, h5, h6⟩ := h4 os
    refine ⟨es, ?_, h6⟩
    unfold Py.newList
    rw [h1]
    exact createExpression_ok o os .list (.inl rfl) h3 h5

/-- **C145** The same in Ruby. -/
theorem C145_ruby_build (o : ObjMeta) (os : List ObjMeta) (k : ExprClass) :
    (∀ l r, (operator k).arity = some 2 → Rb.Spec.Usable l → Rb.Spec.Usable r →
      ∃ el er, Rb.newBinary o os k l r = .ok (.node o (operator k) [el, er]) ∧ Rb.Spec.Stands l el ∧ Rb.Spec.Stands r er) ∧
    (∀ x, (operator k).arity = some 1 → Rb.Spec.Usable x →
      ∃ e, Rb.newUnary o os k x = .ok (.node o (operator k) [e]) ∧ Rb.Spec.Stands x e) ∧
    ∀ xs, (∀ x ∈ xs, Rb.Spec.Usable x) →
      ∃ es, Rb.newList o os xs = .ok (.node o .list es) ∧ OneByOne Rb.Spec.Stands xs es := by
  refine ⟨fun l r hk hl hr => ?_, fun x hk hx => ?_, fun xs h => ?_⟩
  · obtain ⟨ns, h1, h2, h3, h4⟩ := Rb.toNodes_of [l, r] (by simp [hl, hr])
    obtain ⟨es, h5, h6⟩ := h4 os
    match es, h5, h6 with
    | [el, er], h5, h6 =>
      refine ⟨el, er, ?_, h6.2 0 l el rfl rfl, h6.2 1 r er rfl rfl⟩
      have hc := createExpression_ok o os k (.inr (h2 ▸ hk)) h3 h5
      obtain ⟨nl, hl', -⟩ := Rb.toNode_of hl
      obtain ⟨nr, hr', -⟩ := Rb.toNode_of hr
      have : ns = [nl, nr] := by
        have h1 := h1
        unfold Rb.toNodes Rb.toNodes Rb.toNodes at h1
        rw [hl', hr'] at h1
        exact (Out.ok.inj h1).symm
      subst this
      unfold Rb.newBinary createBinary
      rw [hl', hr']
      exact hc
    | [], _, h6 => exact absurd h6.1 (by simp)
    | [_], _, h6 => exact absurd h6.1 (by simp)
    | _ :: _ :: _ :: _, _, h6 => exact absurd h6.1 (by simp)
  · obtain ⟨ns, h1, h2, h3, h4⟩ := Rb.toNodes_of [x] (by simp [hx])
    obtain ⟨es, h5, h6⟩ := h4 os
    match es, h5, h6 with
    | [e], h5, h6 =>
      refine ⟨e, ?_, h6.2 0 x e rfl rfl⟩
      have hc := createExpression_ok o os k (.inr (h2 ▸ hk)) h3 h5
      obtain ⟨n, hx', -⟩ := Rb.toNode_of hx
      have : ns = [n] := by
        have h1 := h1
        unfold Rb.toNodes Rb.toNodes at h1
        rw [hx'] at h1
        exact (Out.ok.inj h1).symm
      subst this
      unfold Rb.newUnary createUnary
      rw [hx']
      exact hc
    | [], _, h6 => exact absurd h6.1 (by simp)
    | _ :: _ :: _, _, h6 => exact absurd h6.1 (by simp)
  · obtain ⟨ns, h1, h2, h3, h4⟩ := Rb.toNodes_of xs h
    obtain ⟨es, h5, h6⟩ := h4 os
    refine ⟨es, ?_, h6⟩
    unfold Rb.newList
    rw [h1]
    exact createExpression_ok o os .list (.inl rfl) h3 h5

/-- **C145** The value of a literal is read back as the value it was built from. -/
theorem C145_literal {o : ObjMeta} {w : Value} (h : Showable w) :
    (∃ x, Py.literalValue (.literal o w) = .ok x ∧ Py.Spec.Denotes x w) ∧
    ∀ r, ∃ x, Rb.literalValue r (.literal o w) = .ok x ∧ Rb.Spec.Result r x w :=
  ⟨Py.fromDatum_of h, fun r => Rb.fromDatum_of r h⟩

/-! ### Evaluating -/

section
variable (ops : FloatOps) (jen : Bytes → BitVec 32) (little : Bool)

/-- **C145** In Python, evaluating an expression or an item of a list in a context that has parameters gives what the library gives for
the same values; so does evaluating without a context.  For a context without parameters see `C145_python_no_parameters`. -/
theorem C145_python_eval_partial (e : Expr) :
    (∀ ps vs ws, ps.length = vs.length → vs ≠ [] → OneByOne Py.Spec.Denotes vs ws → (∀ w ∈ ws, Usual w) →
      Gets Py.Spec.Denotes (eval ops jen little ⟨some ps, some ws⟩ e) (Py.evalExpr ops jen little e (some ps) (some vs)) ∧
      ∀ i : Nat, i < 2 ^ 64 → Gets Py.Spec.Denotes (listEvalNode ops jen little ⟨some ps, some ws⟩ e i)
        (Py.evalNode ops jen little e i (some ps) (some vs))) ∧
    Gets Py.Spec.Denotes (eval ops jen little ⟨none, none⟩ e) (Py.evalExpr ops jen little e none none) ∧
    ∀ i : Nat, i < 2 ^ 64 → Gets Py.Spec.Denotes (listEvalNode ops jen little ⟨none, none⟩ e i)
      (Py.evalNode ops jen little e i none none) := by
  have hi : ∀ i : Nat, i < 2 ^ 64 → (BitVec.ofInt 64 (i : Int)).toNat = i := by
    intro i h
    rw [BitVec.toNat_ofInt]
    omega
  refine ⟨fun ps vs ws hl hne hd hu => ?_, Py.gets_of _, fun i h => ?_⟩
  · obtain ⟨ds, h1, h2⟩ := Py.giveAll_of hd hu
    have ha : Py.evalArgs (some ps) (some vs) = .ok ⟨some ps, some ws⟩ := by
      cases vs with
      | nil => exact absurd rfl hne
      | cons v vs =>
        unfold Py.evalArgs
        simp only [hl, ne_eq, not_true_eq_false, if_false, h1]
        show Out.ok _ = _
        rw [h2]
    refine ⟨?_, fun i h => ?_⟩
    · unfold Py.evalExpr; rw [ha]; exact Py.gets_of _
    · unfold Py.evalNode; rw [ha, hi i h]; exact Py.gets_of _
  · unfold Py.evalNode; rw [hi i h]; exact Py.gets_of _

/-- **C145** In Ruby, evaluating an expression or an item of a list, in any context or without one, gives what the library gives for the
same values. -/
theorem C145_ruby_eval (e : Expr) (r : Refs) :
    (∀ ps vs ws, ps.length = vs.length → OneByOne Rb.Spec.Denotes vs ws → (∀ w ∈ ws, Usual w) →
      Gets (Rb.Spec.Result r) (eval ops jen little ⟨some ps, some ws⟩ e) (Rb.evalExpr ops jen little e (some ps) (some vs) r) ∧
      ∀ i : BitVec 64, Gets (Rb.Spec.Result r) (listEvalNode ops jen little ⟨some ps, some ws⟩ e i.toNat)
        (Rb.evalNode ops jen little e i (some ps) (some vs) r)) ∧
    Gets (Rb.Spec.Result r) (eval ops jen little ⟨none, none⟩ e) (Rb.evalExpr ops jen little e none none r) ∧
    ∀ i : BitVec 64, Gets (Rb.Spec.Result r) (listEvalNode ops jen little ⟨none, none⟩ e i.toNat)
      (Rb.evalNode ops jen little e i none none r) := by
  refine ⟨fun ps vs ws hl hd hu => ?_, Rb.gets_of r _, fun i => Rb.gets_of r _⟩
  obtain ⟨ds, h1, h2⟩ := Rb.giveAll_of hd hu
  have ha : Rb.evalArgs (some ps) (some vs) = .ok ⟨some ps, some ws⟩ := by
    unfold Rb.evalArgs
    simp only [hl, ne_eq, not_true_eq_false, if_false, h1]
    show Out.ok _ = _
    rw [h2]
  refine ⟨?_, fun i => ?_⟩
  · unfold Rb.evalExpr; rw [ha]; exact Rb.gets_of r _
  · unfold Rb.evalNode; rw [ha]; exact Rb.gets_of r _

/-- **C145** A number of values that is not the number of parameters of the context is refused before the library is asked. -/
theorem C145_counts (e : Expr) {ps : List (BitVec 64)} :
    (∀ vs : List Py.Val, vs.length ≠ ps.length → Py.evalExpr ops jen little e (some ps) (some vs) = .err .invalidValue ∧
      ∀ i, Py.evalNode ops jen little e i (some ps) (some vs) = .err .invalidValue) ∧
    ∀ (vs : List Rb.Val) r, vs.length ≠ ps.length → Rb.evalExpr ops jen little e (some ps) (some vs) r = .err .external ∧
      ∀ i, Rb.evalNode ops jen little e i (some ps) (some vs) r = .err .external := by
  refine ⟨fun vs h => ?_, fun vs r h => ?_⟩
  · have ha : Py.evalArgs (some ps) (some vs) = .err .invalidValue := by
      cases vs with
      | nil => rfl
      | cons v vs => exact if_pos (Ne.symm h)
    exact ⟨by unfold Py.evalExpr; rw [ha]; rfl, fun i => by unfold Py.evalNode; rw [ha]; rfl⟩
  · have ha : Rb.evalArgs (some ps) (some vs) = .err .external := if_pos h
    exact ⟨by unfold Rb.evalExpr; rw [ha]; rfl, fun i => by unfold Rb.evalNode; rw [ha]; rfl⟩

/-- **C145** fails: in Python, no expression can be evaluated in a context without parameters, though the library evaluates all those
that have no parameters, literals for instance. -/
theorem C145_python_no_parameters :
    (∀ e, Py.evalExpr ops jen little e (some []) (some []) = .err .invalidValue) ∧
    (∀ o w, eval ops jen little ⟨some [], some []⟩ (.literal o w) = .ok w) ∧
    ∀ o r, Rb.evalExpr ops jen little (.literal o (.int 1#64)) (some []) (some []) r = .ok (.int 1, r) :=
  ⟨fun _ => rfl, fun _ _ => rfl, fun _ _ => rfl⟩

end

/-- **C145** fails: neither in Python nor in Ruby can the parameters of an expression be asked for, unless it has none. -/
theorem C145_parameters_fail {e : Expr} (hb : Built e) :
    ((∃ h, Occurs h e) → Py.parametersOf e = .err .external ∧ Rb.parametersOf e = .err .external) ∧
    ((∀ h, ¬ Occurs h e) → Py.parametersOf e = .ok [] ∧ Rb.parametersOf e = .ok []) := by
  obtain ⟨core, h1, -, -, h2, h3⟩ := C40_reported_exactly hb
  have hlen : core.length = 0 ↔ ∀ h, ¬ Occurs h e := by
    constructor
    · intro hl h ho
      rw [List.eq_nil_of_length_eq_zero hl] at h1
      exact absurd ((h1 h).mpr ho) (by simp)
    · intro hno
      cases core with
      | nil => rfl
      | cons x xs => exact absurd ((h1 x).mp (by simp)) (hno x)
  constructor
  · rintro ⟨h, ho⟩
    have hne : core.length ≠ 0 := fun hl => hlen.mp hl h ho
    unfold Py.parametersOf Rb.parametersOf
    rw [h2]
    show (if core.length = 0 then _ else _) = _ ∧ (if core.length = 0 then _ else _) = _
    rw [if_neg hne, if_neg hne, h3, if_pos (Nat.le_refl _)]
    exact ⟨rfl, rfl⟩
  · intro hno
    have h0 : core.length = 0 := hlen.mpr hno
    unfold Py.parametersOf Rb.parametersOf
    rw [h2]
    show (if core.length = 0 then _ else _) = _ ∧ (if core.length = 0 then _ else _) = _
    rw [if_pos h0, if_pos h0]
    exact ⟨rfl, rfl⟩

/-! ### Examples -/

section
variable (ops : FloatOps) (jen : Bytes → BitVec 32)

/-- In Python `Expression.Less(left = x, right = 3)` for a parameter `x`, evaluated where `x` is 2 and where it is 4. -/
example : ∃ e, Py.newBinary anObj [anObj, anObj] .less (.param 7#64 pNum) (.val (.int 3)) = .ok e ∧
    Py.Spec.Usable (.param 7#64 pNum) ∧ Py.Spec.Usable (.val (.int 3)) ∧ Built e ∧ (∃ h, Occurs h e) ∧
    Py.evalExpr ops jen true e (some [5#64, 7#64]) (some [.none, .int 2]) = .ok (.bool true) ∧
    Py.evalExpr ops jen true e (some [5#64, 7#64]) (some [.str [65#8], .int 4]) = .ok (.bool false) ∧
    Py.evalExpr ops jen true e none none = .err .invalidValue ∧
    Py.evalNode ops jen true e 0 none none = .err .invalidExpression ∧
    Py.parametersOf e = .err .external :=
  ⟨_, rfl, (by decide : (7#64 : BitVec 64) ≠ 0#64), ⟨by simp, .int 3#64, (rfl : (3 : Int) = (3#64).toInt), trivial⟩,
    .expression (o := anObj) (os := [anObj, anObj]) (type := 4) (nodes := [.param 7#64 pNum, .value (.int 3#64)]) rfl (by simp),
    ⟨7#64, .inside (a := .var anObj 7#64 pNum) (by simp) .here⟩, rfl, rfl, rfl, rfl, rfl⟩

/-- The values of the evaluations above, and the items of a list in Ruby. -/
example : OneByOne Py.Spec.Denotes [.str [65#8], .int 4] [.str (some [65#8]), .int 4#64] ∧
    (∀ w ∈ [Value.str (some [65#8]), .int 4#64], Usual w) ∧
    ∃ e, Rb.newList anObj [anObj, anObj] [.val (.bool true), .param 7#64 pNum] = .ok e ∧
      Rb.Spec.Usable (.val (.bool true)) ∧ Rb.Spec.Usable (.param 7#64 pNum) ∧
      ∀ r, Rb.evalNode ops jen true e 0#64 none none r = .ok (.bool true, r) ∧
        Rb.evalNode ops jen true e 1#64 (some [7#64]) (some [.str [65#8] false]) r = .ok (.str [65#8] true, r) ∧
        Rb.evalNode ops jen true e 2#64 none none r = .err .outOfBounds := by
  refine ⟨⟨rfl, fun i x y hx hy => ?_⟩, ?_, _, rfl, ⟨by simp, .bool 1#64, by show _ ↔ _; decide, .inr rfl⟩,
    (by decide : (7#64 : BitVec 64) ≠ 0#64), fun r => ⟨rfl, rfl, rfl⟩⟩
  · match i, hx, hy with
    | 0, hx, hy => cases hx; cases hy; rfl
    | 1, hx, hy => cases hx; cases hy; rfl
  · intro w hw
    simp only [List.mem_cons, List.not_mem_nil, or_false] at hw
    rcases hw with rfl | rfl
    · show 0#8 ∉ [65#8]; decide
    · trivial

/-- Values that are not for literals are refused. -/
example : Py.newUnary anObj [anObj] .not (.val .inactive) = .err .invalidValue ∧
    Py.newUnary anObj [anObj] .add (.val (.int 1)) = .err .invalidValue ∧
    Rb.newUnary anObj [anObj] .negative (.val (.int (2 ^ 63))) = .err .external := ⟨rfl, rfl, rfl⟩

end

end CCS.Props
