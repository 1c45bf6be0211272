import Verif.Spec.Object

/-! Helper lemmas about lifetimes and error stacks. -/

namespace CCS

open Spec

theorem run_append {σ ι : Type} (step : σ → ι → Call σ) (s : σ) (xs ys : List ι)
    {cs : List (Option Err)} {s' : σ} (h : Call.run step s xs = some (cs, s')) :
    Call.run step s (xs ++ ys) = (Call.run step s' ys).map fun p => (cs ++ p.1, p.2) := by
  induction xs generalizing s cs with
  | nil => cases h; simp
  | cons x xs ih =>
    rw [List.cons_append, Call.run]
    rw [Call.run] at h
    cases hx : step s x with
    | ub => rw [hx] at h; cases h
    | ret c s1 =>
      rw [hx] at h
      simp only at h ⊢
      cases h1 : Call.run step s1 xs with
      | none => rw [h1] at h; cases h
      | some p =>
        rw [h1] at h
        obtain ⟨p1, p2⟩ := p
        simp only [Option.some.injEq, Prod.mk.injEq] at h
        obtain ⟨rfl, rfl⟩ := h
        rw [ih s1 h1]
        cases Call.run step p2 ys <;> simp

theorem snoc_induction {α : Type} {P : List α → Prop} (nil : P [])
    (snoc : ∀ l a, P l → P (l ++ [a])) (l : List α) : P l := by
  have : ∀ r : List α, P r.reverse := by
    intro r
    induction r with
    | nil => exact nil
    | cons a r ih => rw [List.reverse_cons]; exact snoc _ _ ih
  simpa using this l.reverse

theorem balance_snoc (ops : List LifeOp) (op : LifeOp) : balance (ops ++ [op]) = balance ops +
    (match op with | .retain => 1 | .release => -1 | .attach _ => 0) := by
  unfold balance
  rw [List.count_append, List.count_append]
  cases op <;> simp [List.count_cons] <;> omega

theorem attached_append (a b : List LifeOp) : attached (a ++ b) = attached a ++ attached b := by
  induction a with
  | nil => rfl
  | cons x a ih => cases x <;> simp [attached, ih]

/-- State after calls that keep at least one reference. -/
theorem life_alive (delRes : Option Err) (ops : List LifeOp) (hh : Held ops) :
    Call.run (lifeStep delRes) lifeInit ops =
      some (List.replicate ops.length none, ⟨.alive (balance ops) (attached ops), []⟩) := by
  induction ops using snoc_induction with
  | nil => simp [Call.run, lifeInit, balance, attached]
  | snoc ops op ih =>
    have ih' := ih (fun k hk => by
      have := hh k (by rw [List.length_append]; omega)
      rwa [List.take_append_of_le_length hk] at this)
    rw [run_append _ _ _ _ ih']
    have h1 := (hh ops.length (by simp)).1
    rw [List.take_left] at h1
    have ⟨h2, h3⟩ := hh (ops ++ [op]).length (Nat.le_refl _)
    rw [List.take_length] at h2 h3
    have hb := balance_snoc ops op
    cases op with
    | retain =>
      simp only at hb
      have e1 : ¬ balance ops ≤ 0 := by omega
      have e2 : ¬ balance ops = 2 ^ 31 - 1 := by omega
      simp only [Call.run, lifeStep]
      rw [if_neg e1, if_neg e2]
      rw [attached_append]
      simp [attached, hb]
      exact List.replicate_succ'.symm
    | release =>
      simp only at hb
      have e1 : ¬ balance ops ≤ 0 := by omega
      have e2 : ¬ balance ops - 1 = 0 := by omega
      simp only [Call.run, lifeStep]
      rw [if_neg e1, if_neg e2]
      rw [attached_append]
      simp [attached, hb]
      exact ⟨List.replicate_succ'.symm, by omega⟩
    | attach id =>
      simp only [Call.run, lifeStep]
      rw [attached_append]
      simp [attached, hb]
      exact List.replicate_succ'.symm

theorem quiet_exec (b : Body) (h : Quiet b) (s : Slot) : b.exec s = (none, s) := by
  induction b generalizing s with
  | done => rfl
  | raise => exact absurd h (by simp [Quiet])
  | raiseGoto => exact absurd h (by simp [Quiet])
  | validate b f r ihb ihr => simp only [Body.exec, ihb h.1, ihr h.2]
  | validateGoto b f cl r ihb _ ihr => simp only [Body.exec, ihb h.1, ihr h.2]
  | ignore b r ihb ihr => simp only [Body.exec, ihb h.1, ihr h.2]
  | foreign => exact absurd h (by simp [Quiet])

theorem exec_code (b : Body) (s : Slot) : (b.exec s).1 = (failureOf b).map Failure.code := by
  induction b generalizing s with
  | done => rfl
  | raise => rfl
  | raiseGoto => rfl
  | validate b f r ihb ihr =>
    have h := ihb s
    simp only [Body.exec, failureOf]
    cases hb : b.exec s with
    | mk c s1 =>
      rw [hb] at h
      cases hf : failureOf b with
      | none => rw [hf] at h; simp at h; subst h; exact ihr s1
      | some x => rw [hf] at h; simp at h; subst h; rfl
  | validateGoto b f cl r ihb _ ihr =>
    have h := ihb s
    simp only [Body.exec, failureOf]
    cases hb : b.exec s with
    | mk c s1 =>
      rw [hb] at h
      cases hf : failureOf b with
      | none => rw [hf] at h; simp at h; subst h; exact ihr s1
      | some x => rw [hf] at h; simp at h; subst h; rfl
  | ignore b r ihb ihr => simp only [Body.exec, failureOf]; exact ihr _
  | foreign => rfl

theorem exec_failure (b : Body) (h : Disciplined b) (s : Slot) (x : Failure)
    (hf : failureOf b = some x) : (b.exec s).2 = some ⟨x.code, x.msg, x.path⟩ := by
  induction b generalizing s x with
  | done => simp [failureOf] at hf
  | raise c m f => simp only [failureOf, Option.some.injEq] at hf; subst hf; rfl
  | raiseGoto c m f cl =>
    simp only [failureOf, Option.some.injEq] at hf; subst hf
    simp only [Body.exec, quiet_exec cl h]; rfl
  | validate b f r ihb ihr =>
    have hc := exec_code b s
    simp only [Body.exec, failureOf] at hf ⊢
    cases hb : b.exec s with
    | mk c s1 =>
      rw [hb] at hc
      cases hfb : failureOf b with
      | none =>
        rw [hfb] at hc hf; simp at hc; subst hc
        exact ihr h.2 s1 x hf
      | some y =>
        rw [hfb] at hc hf; simp at hc; subst hc
        simp only [Option.some.injEq] at hf
        subst hf
        have := ihb h.1 s y hfb
        rw [hb] at this
        simp only at this
        subst this
        rfl
  | validateGoto b f cl r ihb _ ihr =>
    have hc := exec_code b s
    simp only [Body.exec, failureOf] at hf ⊢
    cases hb : b.exec s with
    | mk c s1 =>
      rw [hb] at hc
      cases hfb : failureOf b with
      | none =>
        rw [hfb] at hc hf; simp at hc; subst hc
        exact ihr h.2.2 s1 x hf
      | some y =>
        rw [hfb] at hc hf; simp at hc; subst hc
        simp only [Option.some.injEq] at hf
        subst hf
        have := ihb h.1 s y hfb
        rw [hb] at this
        simp only at this
        subst this
        simp only [quiet_exec cl h.2.1]
        rfl
  | ignore b r ihb ihr => simp only [Body.exec, failureOf] at *; exact ihr h _ x hf
  | foreign => exact absurd h (by simp [Disciplined])

end CCS
