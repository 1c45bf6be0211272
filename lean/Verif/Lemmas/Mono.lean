import Verif.Lemmas.Expr

/-!
# Evaluation and inactive values

Making some values inactive never turns one definite result into another.
-/

namespace CCS

open Spec

/-- If the first outcome is definite and the second one is a value, it is the same. -/
def Refines (less more : Out Value) : Prop :=
  ∀ v v', less = .ok v → v ≠ .inactive → more = .ok v' → v' = v

theorem Refines.refl (r : Out Value) : Refines r r := by
  intro v v' h _ h'
  rw [h] at h'
  exact (Out.ok.inj h').symm

/-- Pointwise refinement. -/
inductive RefinesAll : List (Out Value) → List (Out Value) → Prop
  | nil : RefinesAll [] []
  | cons {a b as bs} : Refines a b → RefinesAll as bs → RefinesAll (a :: as) (b :: bs)

/-- Refinement of the items of a list, if any. -/
inductive RefinesItems : Option (List (Out Value)) → Option (List (Out Value)) → Prop
  | none : RefinesItems none none
  | some {a b} : RefinesAll a b → RefinesItems (some a) (some b)

section
variable {ops : FloatOps} {jen : Bytes → BitVec 32} {little : Bool}

theorem refines_binary {f : Value → Value → Out Value} {l r l' r' : Out Value} (hl : Refines l l') (hr : Refines r r')
    (hleft : ∀ b, ∀ v, f .inactive b = .ok v → v = .inactive)
    (hright : ∀ a, ∀ v, f a .inactive = .ok v → v = .inactive) :
    Refines (l >>= fun a => r >>= fun b => f a b) (l' >>= fun a => r' >>= fun b => f a b) := by
  intro v v' h hv h'
  obtain ⟨a, ha, h⟩ := bind_eq_ok h
  obtain ⟨b, hb, h⟩ := bind_eq_ok h
  obtain ⟨a', ha', h'⟩ := bind_eq_ok h'
  obtain ⟨b', hb', h'⟩ := bind_eq_ok h'
  have hna : a ≠ .inactive := fun he => hv (hleft b v (he ▸ h))
  have hnb : b ≠ .inactive := fun he => hv (hright a v (he ▸ h))
  have h1 := hl a a' ha hna ha'
  have h2 := hr b b' hb hnb hb'
  subst h1 h2
  rw [h] at h'
  exact (Out.ok.inj h').symm

theorem refines_unary {f : Value → Out Value} {n n' : Out Value} (hn : Refines n n')
    (h0 : ∀ v, f .inactive = .ok v → v = .inactive) : Refines (n >>= f) (n' >>= f) := by
  intro v v' h hv h'
  obtain ⟨a, ha, h⟩ := bind_eq_ok h
  obtain ⟨a', ha', h'⟩ := bind_eq_ok h'
  have hna : a ≠ .inactive := fun he => hv (h0 v (he ▸ h))
  have h1 := hn a a' ha hna ha'
  subst h1
  rw [h] at h'
  exact (Out.ok.inj h').symm

theorem refines_or {l r l' r' : Out Value} (hl : Refines l l') (hr : Refines r r') :
    Refines (evalOr l r) (evalOr l' r') := by
  intro v v' h hv h'
  unfold evalOr at h h'
  obtain ⟨a, ha, h⟩ := bind_eq_ok h
  obtain ⟨b, hb, h⟩ := bind_eq_ok h
  obtain ⟨a', ha', h'⟩ := bind_eq_ok h'
  obtain ⟨b', hb', h'⟩ := bind_eq_ok h'
  by_cases hna : a = .inactive
  · subst hna
    by_cases hnb : b = .inactive
    · subst hnb
      simp [Value.tag] at h
      exact absurd h.symm hv
    · have h2 := hr b b' hb hnb hb'
      subst h2
      cases b' <;> simp [Value.tag] at h
      · rename_i y
        by_cases hy : y = 0#64
        · simp [hy] at h; exact absurd h.symm hv
        · simp [hy] at h
          subst h
          cases a' <;> simp [Value.tag, hy] at h'
          · exact h'.symm
          · exact h'.symm
      · exact absurd rfl hnb
  · have h1 := hl a a' ha hna ha'
    subst h1
    by_cases hnb : b = .inactive
    · subst hnb
      obtain _ | _ | _ | y | _ | _ | _ := a' <;> simp [Value.tag] at h
      · by_cases hy : y = 0#64
        · simp [hy] at h; exact absurd h.symm hv
        · simp [hy] at h
          subst h
          cases b' <;> simp [Value.tag, hy] at h'
          · exact h'.symm
          · exact h'.symm
      · exact absurd rfl hna
    · have h2 := hr b b' hb hnb hb'
      subst h2
      rw [h] at h'
      exact (Out.ok.inj h').symm

theorem testEqual_inactive {a : Value} (h : a ≠ .inactive) : (testEqual little a .inactive).2 = false := by
  cases a <;> first | rfl | exact absurd rfl h

theorem refines_inLoop {pl : Option Param} {a : Value} (ha : a ≠ .inactive) {rs rs' : List (Out Value)}
    (hr : RefinesAll rs rs') : ∀ (i i' : Bool), (i' = true → i = true) →
    (Refines (evalInLoop jen little pl a i rs) (evalInLoop jen little pl a i' rs')) ∧
    (i = true → ∀ v, evalInLoop jen little pl a i rs = .ok v → v ≠ .inactive → v = .ofBool true) := by
  induction hr with
  | nil =>
    intro i i' hi
    refine ⟨?_, ?_⟩
    · intro v v' h hv h'
      simp only [evalInLoop, Out.ok.injEq] at h h'
      subst h h'
      cases i
      · cases i'
        · rfl
        · exact absurd (hi rfl) (by simp)
      · exact absurd rfl hv
    · rintro rfl v h hv
      simp only [evalInLoop, if_true, Out.ok.injEq] at h
      exact absurd h.symm hv
  | @cons x y xs ys hxy _ ih =>
    intro i i' hi
    refine ⟨?_, ?_⟩
    · intro v v' h hv h'
      simp only [evalInLoop] at h h'
      obtain ⟨b, hb, h⟩ := bind_eq_ok h
      obtain ⟨b', hb', h'⟩ := bind_eq_ok h'
      obtain ⟨⟨⟩, hc, h⟩ := bind_eq_ok h
      obtain ⟨⟨⟩, hc', h'⟩ := bind_eq_ok h'
      by_cases hbi : b = .inactive
      · subst hbi
        rw [testEqual_inactive ha] at h
        simp only [Bool.false_eq_true, if_false, decide_true, Bool.or_true] at h
        have hvt := (ih true true (fun h => h)).2 rfl v h hv
        split at h'
        · cases h'; exact hvt.symm
        · exact (ih true _ (fun _ => rfl)).1 v v' h hv h'
      · have := hxy b b' hb hbi hb'
        subst this
        split at h
        · rename_i ht
          rw [if_pos ht] at h'
          rw [h] at h'
          exact (Out.ok.inj h').symm
        · rename_i ht
          rw [if_neg ht] at h'
          refine (ih _ _ ?_).1 v v' h hv h'
          intro hh
          simp only [hbi, decide_false, Bool.or_false] at hh ⊢
          exact hi hh
    · rintro rfl v h hv
      simp only [evalInLoop] at h
      obtain ⟨b, hb, h⟩ := bind_eq_ok h
      obtain ⟨⟨⟩, hc, h⟩ := bind_eq_ok h
      split at h
      · cases h; rfl
      · simp only [Bool.true_or] at h
        exact (ih true true (fun h => h)).2 rfl v h hv

theorem refines_in {pl : Option Param} {l l' : Out Value} {items items' : Option (List (Out Value))}
    (hl : Refines l l') (hi : RefinesItems items items') :
    Refines (evalIn jen little pl l items) (evalIn jen little pl l' items') := by
  intro v v' h hv h'
  cases hi with
  | none => simp [evalIn] at h
  | some hrs =>
    simp only [evalIn] at h h'
    obtain ⟨a, ha, h⟩ := bind_eq_ok h
    obtain ⟨a', ha', h'⟩ := bind_eq_ok h'
    by_cases hai : a = .inactive
    · subst hai
      simp at h
      exact absurd h.symm hv
    · have := hl a a' ha hai ha'
      subst this
      rw [if_neg hai] at h h'
      exact (refines_inLoop hai hrs false false (fun h => h)).1 v v' h hv h'

theorem refines_arith {op : Op} {l r l' r' : Out Value} (hl : Refines l l') (hr : Refines r r') :
    Refines (evalArith ops op l r) (evalArith ops op l' r') := by
  unfold evalArith
  refine refines_binary hl hr ?_ ?_
  · intro b v h; simp at h; exact h.symm
  · intro a v h
    by_cases ha : a = .inactive
    · simp [ha] at h; exact h.symm
    · simp [ha] at h; exact h.symm

theorem refines_and {l r l' r' : Out Value} (hl : Refines l l') (hr : Refines r r') :
    Refines (evalAnd l r) (evalAnd l' r') := by
  unfold evalAnd
  refine refines_binary hl hr ?_ ?_
  · intro b v h; simp at h; exact h.symm
  · intro a v h
    by_cases ha : a = .inactive
    · simp [ha] at h; exact h.symm
    · simp [ha] at h; exact h.symm

theorem refines_equal {neg : Bool} {pl pr : Option Param} {l r l' r' : Out Value} (hl : Refines l l')
    (hr : Refines r r') :
    Refines (evalEqual jen little neg pl pr l r) (evalEqual jen little neg pl pr l' r') := by
  unfold evalEqual
  refine refines_binary hl hr ?_ ?_
  · intro b v h; simp at h; exact h.symm
  · intro a v h
    by_cases ha : a = .inactive
    · simp [ha] at h; exact h.symm
    · simp [ha] at h; exact h.symm

theorem refines_compare {test : Ordering → Bool} {pl pr : Option Param} {l r l' r' : Out Value}
    (hl : Refines l l') (hr : Refines r r') :
    Refines (evalCompare jen little test pl pr l r) (evalCompare jen little test pl pr l' r') := by
  unfold evalCompare
  refine refines_binary hl hr ?_ ?_
  · intro b v h
    split at h
    · cases h
    · simp at h; exact h.symm
  · intro a v h
    split at h
    · cases h
    · by_cases ha : a = .inactive
      · simp [ha] at h; exact h.symm
      · simp [ha] at h; exact h.symm

theorem refines_not {n n' : Out Value} (hn : Refines n n') : Refines (evalNot n) (evalNot n') := by
  unfold evalNot
  refine refines_unary hn ?_
  intro v h; cases h; rfl

theorem refines_positive {n n' : Out Value} (hn : Refines n n') : Refines (evalPositive n) (evalPositive n') := by
  unfold evalPositive
  refine refines_unary hn ?_
  intro v h; cases h; rfl

theorem refines_negative {n n' : Out Value} (hn : Refines n n') : Refines (evalNegative n) (evalNegative n') := by
  unfold evalNegative
  refine refines_unary hn ?_
  intro v h; cases h; rfl

theorem refines_bad {r' : Out Value} {r : Out Value} (h : ∀ v, r ≠ .ok v) : Refines r r' :=
  fun v _ hv => absurd hv (h v)

theorem refines_op (op : Op) (ps : List (Option Param)) {rs rs' : List (Out Value)}
    {items items' : Option (List (Out Value))} (hr : RefinesAll rs rs') (hi : RefinesItems items items') :
    Refines (evalOp ops jen little op ps rs items) (evalOp ops jen little op ps rs' items') := by
  cases hr with
  | nil => cases op <;> (intro v v' h; simp [evalOp] at h)
  | @cons x y xs ys hxy hrest =>
    cases hrest with
    | nil =>
      cases op
      case positive => exact refines_positive hxy
      case negative => exact refines_negative hxy
      case not => exact refines_not hxy
      all_goals (intro v v' h; simp [evalOp] at h)
    | @cons x2 y2 xs2 ys2 hxy2 hrest2 =>
      cases op
      case positive => exact refines_positive hxy
      case negative => exact refines_negative hxy
      case not => exact refines_not hxy
      case or => exact refines_or hxy hxy2
      case and => exact refines_and hxy hxy2
      case add => exact refines_arith hxy hxy2
      case sub => exact refines_arith hxy hxy2
      case mul => exact refines_arith hxy hxy2
      case div => exact refines_arith hxy hxy2
      case mod => exact refines_arith hxy hxy2
      case list => intro v v' h; simp [evalOp] at h
      case isIn =>
        cases ps with
        | nil => intro v v' h; simp [evalOp] at h
        | cons pl ps => exact refines_in hxy hi
      all_goals
        match ps with
        | [] => intro v v' h; simp [evalOp] at h
        | [p] => intro v v' h; simp [evalOp] at h
        | p :: q :: _ => first | exact refines_equal hxy hxy2 | exact refines_compare hxy hxy2

theorem eval_mono (ops : FloatOps) (jen : Bytes → BitVec 32) (little : Bool) (e₁ e₂ : Env) (e : Expr)
    (h : ∀ x ∈ e.collect, Refines (e₁.lookup x) (e₂.lookup x)) :
    Refines (eval ops jen little e₁ e) (eval ops jen little e₂ e) ∧
    RefinesItems (evalItems ops jen little e₁ e) (evalItems ops jen little e₂ e) := by
  revert h
  refine Expr.induct (P := fun e => (∀ x ∈ e.collect, Refines (e₁.lookup x) (e₂.lookup x)) →
    Refines (eval ops jen little e₁ e) (eval ops jen little e₂ e) ∧
    RefinesItems (evalItems ops jen little e₁ e) (evalItems ops jen little e₂ e)) e ?_ ?_ ?_
  · intro o v _
    exact ⟨by simp only [eval]; exact .refl _, by simp only [evalItems]; exact .none⟩
  · intro o x p h
    exact ⟨by simp only [eval]; exact h x (by simp [Expr.collect]), by simp only [evalItems]; exact .none⟩
  · intro o op args ih h
    rw [collect_node] at h
    have hargs : ∀ a ∈ args, Refines (eval ops jen little e₁ a) (eval ops jen little e₂ a) ∧
        RefinesItems (evalItems ops jen little e₁ a) (evalItems ops jen little e₂ a) := fun a ha =>
      ih a ha fun x hx => h x (List.mem_flatMap.2 ⟨a, ha, hx⟩)
    have hall : ∀ as : List Expr, (∀ a ∈ as, a ∈ args) →
        RefinesAll (evalAll ops jen little e₁ as) (evalAll ops jen little e₂ as) := by
      intro as
      induction as with
      | nil => intro _; exact .nil
      | cons a as iha =>
        intro hs
        simp only [evalAll]
        exact .cons (hargs a (hs a (by simp))).1 (iha fun x hx => hs x (by simp [hx]))
    have hall := hall args (fun _ h => h)
    refine ⟨?_, ?_⟩
    · rw [eval_node, eval_node]
      refine refines_op op _ hall ?_
      match args, hargs with
      | [], _ => simp only [evalSecond]; exact .none
      | [a], _ => simp only [evalSecond, evalHeadItems]; exact .none
      | a :: b :: _, hargs =>
        simp only [evalSecond, evalHeadItems]
        exact (hargs b (by simp)).2
    · simp only [evalItems]
      split
      · exact .some hall
      · exact .none

end

end CCS
