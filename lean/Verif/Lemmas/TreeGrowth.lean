import Verif.Lemmas.TreeWalk

/-!
# What later calls leave as it was in a tree

A call that succeeds keeps the number of places and the value of every node, and the children it has, except for the node it destroys.
-/

namespace CCS.Forest

open CCS CCS.Spec

/-- The node still has these places, this value and these children. -/
structure Stays (n n' : TreeNode) : Prop where
  arity : n'.arity = n.arity
  value : n'.value = n.value
  children : ∀ i c, n.children.getD i none = some c → n'.children.getD i none = some c

theorem Stays.refl (n : TreeNode) : Stays n n := ⟨rfl, rfl, fun _ _ h => h⟩

theorem Stays.of_skel {n m : TreeNode} (h : skel m = skel n) : Stays n m := by
  obtain ⟨h1, h2, -, h3, -⟩ := skel_eq h
  exact ⟨h1, h3, fun i c hc => by rw [h2]; exact hc⟩

theorem Stays.trans {a b c : TreeNode} (h1 : Stays a b) (h2 : Stays b c) : Stays a c :=
  ⟨h2.arity.trans h1.arity, h2.value.trans h1.value, fun i c hc => h2.children i c (h1.children i c hc)⟩

theorem step_stays {ops : FloatOps} {f g : Forest} (hh : Healthy ops f) {op : Op} (hf : Fair f op) {fuel : Nat}
    (hs : f.step ops fuel op = some (.ok g)) {k : Nat} {n : TreeNode} (hk : f.node k = some n) (hd : op ≠ .destroy k) :
    ∃ n', g.node k = some n' ∧ Stays n n' := by
  cases op with
  | create a v =>
    simp only [step, create, Option.some.injEq] at hs
    by_cases h1 : 4 < v.tag
    · simp [h1] at hs
    · by_cases h2 : 2 ^ 63 - 2 < a
      · rw [refute_false h1, Out.bind_ok, refute_true h2] at hs
        cases hs
      · by_cases h3 : v = .str none
        · rw [refute_false h1, Out.bind_ok, refute_false h2, Out.bind_ok, refute_true h3] at hs
          cases hs
        · rw [refute_false h1, Out.bind_ok, refute_false h2, Out.bind_ok, refute_false h3, Out.bind_ok] at hs
          cases hs
          have := node_lt hk
          exact ⟨n, by rw [node_append, if_neg (by omega)]; exact hk, .refl n⟩
  | destroy h =>
    simp only [step, destroy, Option.some.injEq] at hs
    split at hs
    · cases hs
    · cases hs
      have hne : k ≠ h := fun e => hd (by rw [e])
      rw [node_set_none, if_neg hne, node_detach]
      split
      · exact ⟨{ n with parent := none, index := 0 }, by rw [hk]; rfl, ⟨rfl, rfl, fun _ _ h => h⟩⟩
      · exact ⟨n, hk, .refl n⟩
  | setWeight h w =>
    cases hn : f.node h with
    | none => simp [step, setWeight, hn] at hs
    | some m =>
      by_cases hw : F64.lt w F64.zero = true
      · simp [step, setWeight, hn, hw] at hs
      · obtain ⟨d, g', h1, -, h3⟩ := setWeight_ok hh hn (by simpa using hw)
        have := step_det (op := .setWeight h w) (h1 (d + 1) (by omega)) hs
        cases this
        obtain ⟨n', h4, h5⟩ := h3.skel.node hk
        exact ⟨n', h4, .of_skel h5⟩
  | setBias h w =>
    cases hn : f.node h with
    | none => simp [step, setBias, hn] at hs
    | some m =>
      by_cases hw : F64.lt w F64.zero = true
      · simp [step, setBias, hn, hw] at hs
      · obtain ⟨d, g', h1, -, h3⟩ := setBias_ok hh hn (by simpa using hw)
        have := step_det (op := .setBias h w) (h1 (d + 1) (by omega)) hs
        cases this
        by_cases hkh : k = h
        · subst hkh
          obtain ⟨n', h4, h5, -⟩ := h3.self hk
          obtain ⟨e1, e2, -, e3, -⟩ := skel_eq h5
          exact ⟨n', h4, e1, e3, fun i c hc => by rw [e2]; exact hc⟩
        · obtain ⟨n', h4, h5, -⟩ := h3.other hkh hk
          exact ⟨n', h4, .of_skel h5⟩
  | setChild h i c =>
    cases hn : f.node h with
    | none => simp [step, setChild, hn] at hs
    | some m =>
      cases hm : f.node c with
      | none => simp [step, setChild, hn, hm] at hs
      | some x =>
        by_cases h1 : m.arity ≤ i
        · simp [step, setChild, hn, hm, h1] at hs
        · by_cases h2 : (m.children.getD i none).isSome = true
          · simp only [step, setChild, hn, hm, if_neg h1, if_pos h2] at hs; cases hs
          · by_cases h3 : (x.parent.isSome || x.index != 0) = true
            · simp only [step, setChild, hn, hm, if_neg h1, if_neg h2, if_pos h3] at hs; cases hs
            · have hp : x.parent = none := by
                cases hmp : x.parent with
                | none => rfl
                | some x => simp [hmp] at h3
              have hempty := getD_none (by rw [(hh.ok hn).children]; omega) h2
              obtain ⟨d, g', h4, -, h5⟩ := setChild_ok hh hn hm hempty hp hf
              have := step_det (op := .setChild h i c) (h4 (d + 1) (by omega)) hs
              cases this
              have hne : h ≠ c := by rintro rfl; exact hf .self
              have hl : ∃ n1, (f.link h i c).node k = some n1 ∧ Stays n n1 := by
                rw [node_link hn hm hne]
                by_cases hkh : k = h
                · subst hkh
                  rw [hn] at hk; cases hk
                  refine ⟨_, if_pos rfl, rfl, rfl, fun j c' hc' => ?_⟩
                  have hji : j ≠ i := by
                    rintro rfl
                    rw [List.getD_eq_getElem?_getD, hempty] at hc'
                    cases hc'
                  show (n.children.set i (some c)).getD j none = some c'
                  rw [List.getD_eq_getElem?_getD, List.getElem?_set_ne (Ne.symm hji), ← List.getD_eq_getElem?_getD]
                  exact hc'
                · by_cases hkc : k = c
                  · subst hkc
                    rw [hm] at hk; cases hk
                    exact ⟨{ n with parent := some h, index := i }, by rw [if_neg hkh, if_pos rfl], rfl, rfl, fun _ _ h => h⟩
                  · exact ⟨n, by rw [if_neg hkh, if_neg hkc]; exact hk, .refl n⟩
              obtain ⟨n1, h6, h7⟩ := hl
              obtain ⟨n', h8, h9⟩ := h5.skel.node h6
              exact ⟨n', h8, h7.trans (.of_skel h9)⟩

/-- A child is not destroyed by a call that respects the rules. -/
theorem child_stays {ops : FloatOps} {f : Forest} (hh : Healthy ops f) {op : Op} (hf : Fair f op) {r i c : Nat} {n : TreeNode}
    (hn : f.node r = some n) (hc : n.children.getD i none = some c) : op ≠ .destroy c := by
  rintro rfl
  obtain ⟨m, hm, hp, -⟩ := hh.linked.down hn (getD_some hc)
  have : f.getParent c = .ok none := hf
  simp [getParent, hm, hp] at this

section
variable {ops : FloatOps} {f g : Forest} (hh : Healthy ops f) {op : Op} (hf : Fair f op) {fuel : Nat}
  (hs : f.step ops fuel op = some (.ok g))
include hh hf hs

theorem stepDown_stays {r i c : Nat} (hd : op ≠ .destroy r) (h : f.stepDown r i = .ok c) : g.stepDown r i = .ok c ∧ op ≠ .destroy c := by
  cases hn : f.node r with
  | none => simp only [stepDown, getChild, hn] at h; cases h
  | some n =>
    simp only [stepDown, getChild, hn] at h
    by_cases hi : n.arity ≤ i
    · rw [if_pos hi] at h; cases h
    · rw [if_neg hi, Out.bind_ok] at h
      cases hc : n.children.getD i none with
      | none => rw [hc] at h; cases h
      | some c' =>
        rw [hc] at h
        cases h
        obtain ⟨n', h1, h2⟩ := step_stays hh hf hs hn hd
        refine ⟨?_, child_stays hh hf hn hc⟩
        simp only [stepDown, getChild, h1, h2.arity, if_neg hi, Out.bind_ok, h2.children i c hc]

theorem walk_stays {p : List Nat} : ∀ {r q : Nat}, op ≠ .destroy r → f.walk r p = .ok q → g.walk r p = .ok q := by
  induction p with
  | nil => intro r q _ h; exact h
  | cons i p ih =>
    intro r q hd h
    simp only [walk] at h ⊢
    cases hc : f.stepDown r i with
    | ub => rw [hc] at h; cases h
    | err e => rw [hc] at h; cases h
    | ok c =>
      rw [hc, Out.bind_ok] at h
      obtain ⟨h1, h2⟩ := stepDown_stays hh hf hs hd hc
      rw [h1, Out.bind_ok]
      exact ih h2 h

theorem walkValues_stays {p : List Nat} : ∀ {r : Nat} {vs : List Value}, op ≠ .destroy r → f.walkValues r p = .ok vs →
    g.walkValues r p = .ok vs := by
  induction p with
  | nil => intro r q _ h; exact h
  | cons i p ih =>
    intro r vs hd h
    simp only [walkValues] at h ⊢
    cases hc : f.stepDown r i with
    | ub => rw [hc] at h; cases h
    | err e => rw [hc] at h; cases h
    | ok c =>
      rw [hc, Out.bind_ok] at h
      obtain ⟨h1, h2⟩ := stepDown_stays hh hf hs hd hc
      rw [h1, Out.bind_ok]
      cases hm : f.node c with
      | none => simp only [getValue, hm] at h; cases h
      | some m =>
        obtain ⟨m', h3, h4⟩ := step_stays hh hf hs hm h2
        simp only [getValue, hm, Out.bind_ok] at h
        simp only [getValue, h3, Out.bind_ok, h4.value]
        cases hw : f.walkValues c p with
        | ub => rw [hw] at h; cases h
        | err e => rw [hw] at h; cases h
        | ok ws =>
          rw [hw] at h
          rw [ih h2 hw]
          exact h

theorem validLoop_stays {p : List Nat} : ∀ {r : Option Nat}, (∀ h, r = some h → op ≠ .destroy h) → f.validLoop r p = .ok true →
    ∀ r', (∀ h, r = some h → r' = some h) → (r = none → p = []) → g.validLoop r' p = .ok true := by
  induction p with
  | nil => intro r _ _ r' _ _; cases r' <;> rfl
  | cons i p ih =>
    intro r hd h r' hr hnone
    cases r with
    | none => cases hnone rfl
    | some r =>
      rw [hr r rfl]
      simp only [validLoop] at h ⊢
      cases hn : f.node r with
      | none => rw [hn] at h; cases h
      | some n =>
        obtain ⟨n', h1, h2⟩ := step_stays hh hf hs hn (hd r rfl)
        rw [hn] at h
        rw [h1]
        simp only [h2.arity] at h ⊢
        by_cases hi : n.arity ≤ i
        · rw [if_pos hi] at h; cases h
        · rw [if_neg hi] at h ⊢
          refine ih (fun c hc => child_stays hh hf hn hc) h _ (fun c hc => h2.children i c hc) (fun hc => ?_)
          cases p with
          | nil => rfl
          | cons j p => rw [hc] at h; simp [validLoop] at h

end

end CCS.Forest
