import Verif.Spec.Evaluation
import Verif.Lemmas.Binding
import Verif.Lemmas.Num

namespace CCS

open Spec

theorem score_numeric {a b : Value} {t : NumType} {x y : Int} (ha : score a = some (t, x)) (hb : score b = some (t, y)) :
    numericCompare a b = some (if x < y then .lt else if y < x then .gt else .eq) := by
  cases a <;> simp only [score, reduceCtorEq, Option.map_eq_some_iff, Prod.mk.injEq] at ha
  · rename_i a
    obtain ⟨n, hn, rfl, rfl⟩ := ha
    cases b <;> simp only [score, reduceCtorEq, Option.map_eq_some_iff, Prod.mk.injEq, false_and, and_false, exists_false] at hb
    rename_i b
    obtain ⟨m, hm, -, rfl⟩ := hb
    simp only [num, Option.some.injEq] at hn hm
    subst hn hm
    rfl
  · rename_i a
    obtain ⟨n, hn, rfl, rfl⟩ := ha
    cases b <;> simp only [score, reduceCtorEq, Option.map_eq_some_iff, Prod.mk.injEq, false_and, and_false, exists_false] at hb
    rename_i b
    obtain ⟨m, hm, -, rfl⟩ := hb
    have h1 := lt_iff .float a b
    have h2 := lt_iff .float b a
    rw [hn, hm] at h1
    rw [hn, hm] at h2
    simp only [Option.some.injEq, exists_eq_left', exists_and_left] at h1 h2
    have e1 : NumType.lt .float a b = F64.lt a b := rfl
    have e2 : NumType.lt .float b a = F64.lt b a := rfl
    rw [e1] at h1
    rw [e2] at h2
    simp only [numericCompare, floatCmp, Option.some.injEq]
    by_cases h : n < m
    · rw [if_pos (h1.2 h), if_pos h]
    · rw [if_neg (fun x => h (h1.1 x)), if_neg h]
      by_cases h' : m < n
      · rw [if_pos (h2.2 h'), if_pos h']
      · rw [if_neg (fun x => h' (h2.1 x)), if_neg h']

theorem numericCompare_swap (a b : Value) : numericCompare b a = (numericCompare a b).map Ordering.swap := by
  cases a <;> cases b <;> simp only [numericCompare, Option.map_none, Option.map_some, Option.some.injEq]
  · unfold intCmp; repeat' split
    all_goals first | rfl | (exfalso; omega)
  · rename_i a b
    unfold floatCmp
    have h1 := lt_iff .float a b
    have h2 := lt_iff .float b a
    have e1 : NumType.lt .float a b = F64.lt a b := rfl
    have e2 : NumType.lt .float b a = F64.lt b a := rfl
    rw [e1] at h1
    rw [e2] at h2
    by_cases h : F64.lt a b = true
    · by_cases h' : F64.lt b a = true
      · obtain ⟨x, y, hx, hy, hxy⟩ := h1.1 h
        obtain ⟨x', y', hx', hy', hxy'⟩ := h2.1 h'
        rw [hx] at hy'
        rw [hy] at hx'
        cases hx'; cases hy'; omega
      · simp [h, h']
    · by_cases h' : F64.lt b a = true <;> simp [h, h']

theorem numericCompare_some {a b : Value} : (∃ r, numericCompare a b = some r) ↔ SameNumericType a b := by
  cases a <;> cases b <;> simp [numericCompare, SameNumericType]

theorem orient_swap (t : BitVec 32) (r : Ordering) : orient t r.swap = (orient t r).swap := by
  unfold orient; split <;> simp

theorem mergeOne_swap (acc : Comparison) (r : Ordering) (h : acc ≠ .notComparable) :
    mergeOne acc.swap r.swap = (mergeOne acc r).map Comparison.swap := by
  cases acc <;> cases r <;> simp_all [mergeOne, Comparison.swap, Comparison.ofCmp]

theorem mergeOne_ne {acc acc' : Comparison} {r : Ordering} (h : acc ≠ .notComparable) (hm : mergeOne acc r = some acc') :
    acc' ≠ .notComparable := by
  cases acc <;> cases r <;> simp_all [mergeOne, Comparison.ofCmp] <;> subst hm <;> simp

theorem compareLoop_swap (f g : Expr → Out Value) : ∀ (os : List Objective) (acc r : Comparison),
    acc ≠ .notComparable → compareLoop f g acc os = .ok r → compareLoop g f acc.swap os = .ok r.swap
  | [], acc, r, _, h => by simp only [compareLoop, Out.ok.injEq] at h ⊢; rw [h]
  | o :: os, acc, r, ha, h => by
    unfold compareLoop at h ⊢
    cases hf : f o.expression with
    | err e => rw [hf] at h; cases h
    | ub => rw [hf] at h; cases h
    | ok a =>
      cases hg : g o.expression with
      | err e => rw [hf, hg] at h; cases h
      | ub => rw [hf, hg] at h; cases h
      | ok b =>
        rw [hf, hg] at h
        simp only [Out.bind_ok] at h ⊢
        rw [numericCompare_swap a b]
        cases hn : numericCompare a b with
        | none => rw [hn] at h; cases h; rfl
        | some c =>
          rw [hn] at h
          simp only [Option.map_some] at h ⊢
          rw [orient_swap, mergeOne_swap acc _ ha]
          cases hm : mergeOne acc (orient o.type c) with
          | none => rw [hm] at h; cases h; rfl
          | some acc' =>
            rw [hm] at h
            exact compareLoop_swap f g os acc' r (mergeOne_ne ha hm) h

/-- An answer other than NOT_COMPARABLE means that all objectives could be compared. -/
theorem compareLoop_all (f g : Expr → Out Value) : ∀ (os : List Objective) (acc r : Comparison),
    acc ≠ .notComparable → compareLoop f g acc os = .ok r → r ≠ .notComparable →
    ∀ o ∈ os, ∃ a b, f o.expression = .ok a ∧ g o.expression = .ok b ∧ SameNumericType a b
  | [], _, _, _, _, _ => by simp
  | o :: os, acc, r, ha, h, hr => by
    unfold compareLoop at h
    cases hf : f o.expression with
    | err e => rw [hf] at h; cases h
    | ub => rw [hf] at h; cases h
    | ok a =>
      cases hg : g o.expression with
      | err e => rw [hf, hg] at h; cases h
      | ub => rw [hf, hg] at h; cases h
      | ok b =>
        rw [hf, hg] at h
        simp only [Out.bind_ok] at h
        cases hn : numericCompare a b with
        | none => rw [hn] at h; cases h; exact absurd rfl hr
        | some c =>
          rw [hn] at h
          simp only at h
          cases hm : mergeOne acc (orient o.type c) with
          | none => rw [hm] at h; cases h; exact absurd rfl hr
          | some acc' =>
            rw [hm] at h
            intro o' ho'
            rcases List.mem_cons.1 ho' with rfl | ho'
            · exact ⟨a, b, hf, hg, numericCompare_some.1 ⟨c, hn⟩⟩
            · exact compareLoop_all f g os acc' r (mergeOne_ne ha hm) h hr o' ho'

/-- The answers of the objectives put together. -/
def mergeAll : Comparison → List Ordering → Comparison
  | acc, [] => acc
  | acc, r :: rs =>
    match mergeOne acc r with
    | none => .notComparable
    | some acc' => mergeAll acc' rs

theorem mergeAll_spec : ∀ (rs : List Ordering) (acc : Comparison), acc ≠ .notComparable →
    (mergeAll acc rs = .better ↔ (acc ≠ .worse ∧ .gt ∉ rs) ∧ (acc = .better ∨ .lt ∈ rs)) ∧
    (mergeAll acc rs = .worse ↔ (acc ≠ .better ∧ .lt ∉ rs) ∧ (acc = .worse ∨ .gt ∈ rs)) ∧
    (mergeAll acc rs = .equivalent ↔ acc = .equivalent ∧ .lt ∉ rs ∧ .gt ∉ rs)
  | [], acc, h => by cases acc <;> simp_all [mergeAll]
  | r :: rs, acc, h => by
    have ih := mergeAll_spec rs
    have i1 := ih .better (by decide)
    have i2 := ih .worse (by decide)
    have i3 := ih .equivalent (by decide)
    cases acc <;> cases r <;> simp_all [mergeAll, mergeOne, Comparison.ofCmp]

/-- The comparison of two lists of values. -/
theorem compareLoop_values (f g : Expr → Out Value) : ∀ (os : List Objective) (vs ws : List Value) (acc : Comparison),
    vs.length = os.length → ws.length = os.length →
    (∀ (i : Nat) o v, os[i]? = some o → vs[i]? = some v → f o.expression = .ok v) →
    (∀ (i : Nat) o v, os[i]? = some o → ws[i]? = some v → g o.expression = .ok v) →
    (∀ (i : Nat) a b, vs[i]? = some a → ws[i]? = some b → SameNumericType a b) →
    ∃ rs : List Ordering, compareLoop f g acc os = .ok (mergeAll acc rs) ∧
      ∀ r, r ∈ rs ↔ ∃ (i : Nat) (o : Objective) (a b : Value) (c : Ordering), os[i]? = some o ∧ vs[i]? = some a ∧
        ws[i]? = some b ∧ numericCompare a b = some c ∧ r = orient o.type c
  | [], [], [], acc, _, _, _, _, _ => ⟨[], rfl, by simp⟩
  | o :: os, v :: vs, w :: ws, acc, h1, h2, hf, hg, hc => by
    obtain ⟨c, hcc⟩ := numericCompare_some.2 (hc 0 v w rfl rfl)
    have hmem : ∀ (rs : List Ordering), (∀ r, r ∈ rs ↔ ∃ (i : Nat) (o : Objective) (a b : Value) (c : Ordering),
          os[i]? = some o ∧ vs[i]? = some a ∧ ws[i]? = some b ∧ numericCompare a b = some c ∧ r = orient o.type c) →
        ∀ r, r ∈ orient o.type c :: rs ↔ ∃ (i : Nat) (o' : Objective) (a b : Value) (c : Ordering),
          (o :: os)[i]? = some o' ∧ (v :: vs)[i]? = some a ∧ (w :: ws)[i]? = some b ∧ numericCompare a b = some c ∧
          r = orient o'.type c := by
      intro rs hrs r
      rw [List.mem_cons, hrs r]
      constructor
      · rintro (rfl | ⟨i, o', a, b, c', q1, q2, q3, q4, q5⟩)
        · exact ⟨0, o, v, w, c, rfl, rfl, rfl, hcc, rfl⟩
        · exact ⟨i + 1, o', a, b, c', by simpa using q1, by simpa using q2, by simpa using q3, q4, q5⟩
      · rintro ⟨i, o', a, b, c', q1, q2, q3, q4, q5⟩
        cases i with
        | zero =>
          simp only [List.getElem?_cons_zero, Option.some.injEq] at q1 q2 q3
          subst q1 q2 q3
          rw [hcc] at q4
          cases q4
          exact .inl q5
        | succ i => exact .inr ⟨i, o', a, b, c', by simpa using q1, by simpa using q2, by simpa using q3, q4, q5⟩
    have ih := fun acc => compareLoop_values f g os vs ws acc (by simpa using h1) (by simpa using h2)
      (fun i o' v' a b => hf (i + 1) o' v' (by simpa using a) (by simpa using b))
      (fun i o' v' a b => hg (i + 1) o' v' (by simpa using a) (by simpa using b))
      (fun i a b x y => hc (i + 1) a b (by simpa using x) (by simpa using y))
    unfold compareLoop
    rw [hf 0 o v rfl rfl, hg 0 o w rfl rfl]
    simp only [Out.bind_ok, hcc]
    cases hm : mergeOne acc (orient o.type c) with
    | none =>
      obtain ⟨rs, -, hrs⟩ := ih acc
      exact ⟨orient o.type c :: rs, by simp [mergeAll, hm], hmem rs hrs⟩
    | some acc' =>
      obtain ⟨rs, he, hrs⟩ := ih acc'
      exact ⟨orient o.type c :: rs, by simp [mergeAll, hm, he], hmem rs hrs⟩

/-- The same, in terms of dominance. -/
theorem compareLoop_pareto (f g : Expr → Out Value) (os : List Objective) (vs ws : List Value)
    (h1 : vs.length = os.length) (h2 : ws.length = os.length)
    (hf : ∀ (i : Nat) o v, os[i]? = some o → vs[i]? = some v → f o.expression = .ok v)
    (hg : ∀ (i : Nat) o v, os[i]? = some o → ws[i]? = some v → g o.expression = .ok v)
    (hc : Commensurable vs ws) :
    ∃ r, compareLoop f g .equivalent os = .ok r ∧ (r = .better ↔ Dominates os vs ws) ∧
      (r = .worse ↔ Dominates os ws vs) ∧ (r = .equivalent ↔ Tied vs ws) := by
  have hs : ∀ (i : Nat) a b, vs[i]? = some a → ws[i]? = some b → SameNumericType a b := fun i a b ha hb => by
    obtain ⟨t, x, y, hx, hy⟩ := hc i a b ha hb
    exact numericCompare_some.1 ⟨_, score_numeric hx hy⟩
  obtain ⟨rs, he, hrs⟩ := compareLoop_values f g os vs ws .equivalent h1 h2 hf hg hs
  obtain ⟨m1, m2, m3⟩ := mergeAll_spec rs .equivalent (by decide)
  -- one objective
  have key : ∀ (o : Objective) (a b : Value), (∃ t x y, score a = some (t, x) ∧ score b = some (t, y)) →
      ∃ c, numericCompare a b = some c ∧ (orient o.type c = .lt ↔ Beats o a b) ∧
        (orient o.type c = .gt ↔ Beats o b a) ∧ (orient o.type c = .eq ↔ Level a b) := by
    rintro o a b ⟨t, x, y, hx, hy⟩
    refine ⟨_, score_numeric hx hy, ?_, ?_, ?_⟩
    · unfold Beats
      rw [hx, hy]
      constructor
      · intro h
        refine ⟨t, x, y, rfl, rfl, ?_⟩
        unfold orient at h
        split at h <;> rename_i ho
        · rw [if_pos ho]; repeat' split at h
          all_goals first | assumption | cases h
        · rw [if_neg ho]; repeat' split at h
          all_goals first | assumption | cases h
      · rintro ⟨t', x', y', hx', hy', h⟩
        cases hx'; cases hy'
        unfold orient
        split at h <;> rename_i ho
        · rw [if_pos ho, if_neg (by omega), if_pos h]; rfl
        · rw [if_neg ho, if_pos h]
    · unfold Beats
      rw [hx, hy]
      constructor
      · intro h
        refine ⟨t, y, x, rfl, rfl, ?_⟩
        unfold orient at h
        split at h <;> rename_i ho
        · rw [if_pos ho]; repeat' split at h
          all_goals first | assumption | cases h
        · rw [if_neg ho]; repeat' split at h
          all_goals first | assumption | cases h
      · rintro ⟨t', x', y', hx', hy', h⟩
        cases hx'; cases hy'
        unfold orient
        split at h <;> rename_i ho
        · rw [if_pos ho, if_pos h]; rfl
        · rw [if_neg ho, if_neg (by omega), if_pos h]
    · unfold Level
      rw [hx, hy]
      constructor
      · intro h
        have : x = y := by
          unfold orient at h
          repeat' split at h
          all_goals first | omega | cases h
        subst this
        exact ⟨t, x, rfl, rfl⟩
      · rintro ⟨t', x', hx', hy'⟩
        cases hx'; cases hy'
        unfold orient
        simp
  have hidx : ∀ (i : Nat) a, vs[i]? = some a → ∃ o b, os[i]? = some o ∧ ws[i]? = some b := fun i a ha => by
    have hi := (List.getElem?_eq_some_iff.1 ha).1
    exact ⟨os[i], ws[i], List.getElem?_eq_getElem (by omega), List.getElem?_eq_getElem (by omega)⟩
  have hlt : Ordering.lt ∈ rs ↔ ∃ (i : Nat) (o : Objective) (a b : Value), os[i]? = some o ∧ vs[i]? = some a ∧
      ws[i]? = some b ∧ Beats o a b := by
    rw [hrs]
    constructor
    · rintro ⟨i, o, a, b, c, q1, q2, q3, q4, q5⟩
      obtain ⟨c', hc', k1, -, -⟩ := key o a b (hc i a b q2 q3)
      rw [q4] at hc'; cases hc'
      exact ⟨i, o, a, b, q1, q2, q3, k1.1 q5.symm⟩
    · rintro ⟨i, o, a, b, q1, q2, q3, q4⟩
      obtain ⟨c', hc', k1, -, -⟩ := key o a b (hc i a b q2 q3)
      exact ⟨i, o, a, b, c', q1, q2, q3, hc', (k1.2 q4).symm⟩
  have hgt : Ordering.gt ∈ rs ↔ ∃ (i : Nat) (o : Objective) (a b : Value), os[i]? = some o ∧ vs[i]? = some a ∧
      ws[i]? = some b ∧ Beats o b a := by
    rw [hrs]
    constructor
    · rintro ⟨i, o, a, b, c, q1, q2, q3, q4, q5⟩
      obtain ⟨c', hc', -, k2, -⟩ := key o a b (hc i a b q2 q3)
      rw [q4] at hc'; cases hc'
      exact ⟨i, o, a, b, q1, q2, q3, k2.1 q5.symm⟩
    · rintro ⟨i, o, a, b, q1, q2, q3, q4⟩
      obtain ⟨c', hc', -, k2, -⟩ := key o a b (hc i a b q2 q3)
      exact ⟨i, o, a, b, c', q1, q2, q3, hc', (k2.2 q4).symm⟩
  -- one of the three holds
  have tri : ∀ (i : Nat) o a b, os[i]? = some o → vs[i]? = some a → ws[i]? = some b →
      (¬ Beats o b a ↔ Beats o a b ∨ Level a b) ∧ (¬ Beats o a b ↔ Beats o b a ∨ Level b a) ∧
      (Level a b ↔ ¬ Beats o a b ∧ ¬ Beats o b a) := by
    intro i o a b _ q2 q3
    have hcm := hc i a b q2 q3
    obtain ⟨c, -, k1, k2, k3⟩ := key o a b hcm
    have hsym : Level b a ↔ Level a b :=
      ⟨fun ⟨t, x, p, q⟩ => ⟨t, x, q, p⟩, fun ⟨t, x, p, q⟩ => ⟨t, x, q, p⟩⟩
    rw [hsym, ← k1, ← k2, ← k3]
    cases orient o.type c <;> simp
  refine ⟨_, he, ?_, ?_, ?_⟩
  · rw [m1, hlt, hgt]
    simp only [ne_eq, reduceCtorEq, not_false_eq_true, true_and, false_or]
    unfold Dominates
    refine and_congr_left fun _ => ⟨fun h i o a b q1 q2 q3 => ?_, ?_⟩
    · exact ((tri i o a b q1 q2 q3).1).1 (fun q => h ⟨i, o, a, b, q1, q2, q3, q⟩)
    · rintro h ⟨i, o, a, b, q1, q2, q3, q4⟩
      exact ((tri i o a b q1 q2 q3).1).2 (h i o a b q1 q2 q3) q4
  · rw [m2, hlt, hgt]
    simp only [ne_eq, reduceCtorEq, not_false_eq_true, true_and, false_or]
    unfold Dominates
    refine and_congr ⟨fun h i o a b q1 q2 q3 => ?_, ?_⟩ ?_
    · exact ((tri i o b a q1 q3 q2).2.1).1 (fun q => h ⟨i, o, b, a, q1, q3, q2, q⟩)
    · rintro h ⟨i, o, a, b, q1, q2, q3, q4⟩
      exact ((tri i o a b q1 q2 q3).2.1).2 (h i o b a q1 q3 q2) q4
    · constructor
      · rintro ⟨i, o, a, b, q1, q2, q3, q4⟩; exact ⟨i, o, b, a, q1, q3, q2, q4⟩
      · rintro ⟨i, o, a, b, q1, q2, q3, q4⟩; exact ⟨i, o, b, a, q1, q3, q2, q4⟩
  · rw [m3, hlt, hgt]
    simp only [true_and]
    unfold Tied
    constructor
    · rintro ⟨n1, n2⟩ i a b q2 q3
      obtain ⟨o, b', q1, hb'⟩ := hidx i a q2
      exact ((tri i o a b q1 q2 q3).2.2).2 ⟨fun q => n1 ⟨i, o, a, b, q1, q2, q3, q⟩, fun q => n2 ⟨i, o, a, b, q1, q2, q3, q⟩⟩
    · intro h
      constructor
      · rintro ⟨i, o, a, b, q1, q2, q3, q4⟩
        exact (((tri i o a b q1 q2 q3).2.2).1 (h i a b q2 q3)).1 q4
      · rintro ⟨i, o, a, b, q1, q2, q3, q4⟩
        exact (((tri i o a b q1 q2 q3).2.2).1 (h i a b q2 q3)).2 q4

/-- An objective whose values are not numbers of the same type. -/
theorem compareLoop_mismatch (f g : Expr → Out Value) : ∀ (os : List Objective) (acc : Comparison),
    (∀ o ∈ os, ∃ a b, f o.expression = .ok a ∧ g o.expression = .ok b) →
    (∃ o ∈ os, ∃ a b, f o.expression = .ok a ∧ g o.expression = .ok b ∧ ¬ SameNumericType a b) →
    compareLoop f g acc os = .ok .notComparable
  | [], _, _, ⟨o, ho, _⟩ => by simp at ho
  | o :: os, acc, hall, ⟨o', ho', a', b', ha', hb', hn⟩ => by
    obtain ⟨a, b, ha, hb⟩ := hall o List.mem_cons_self
    unfold compareLoop
    rw [ha, hb]
    simp only [Out.bind_ok]
    cases hc : numericCompare a b with
    | none => rfl
    | some c =>
      simp only
      cases hm : mergeOne acc (orient o.type c) with
      | none => rfl
      | some acc' =>
        simp only
        refine compareLoop_mismatch f g os acc' (fun x hx => hall x (List.mem_cons_of_mem _ hx)) ?_
        rcases List.mem_cons.1 ho' with rfl | h
        · rw [ha] at ha'; rw [hb] at hb'
          cases ha'; cases hb'
          exact absurd (numericCompare_some.1 ⟨c, hc⟩) hn
        · exact ⟨o', h, a', b', ha', hb', hn⟩

end CCS
