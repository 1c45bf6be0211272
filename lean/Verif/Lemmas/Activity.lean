import Verif.Lemmas.SpaceRun
import Verif.Lemmas.Mono

/-!
# Activity of parameters
-/

namespace CCS

open Spec

section
variable {ops : FloatOps} {jen : Bytes → BitVec 32} {little : Bool}

/-! ## Lookups of values -/

theorem paramIndex_ok {hs : List (BitVec 64)} {h : BitVec 64} {i : Nat} (hi : paramIndex hs h = .ok i) :
    hs[i]? = some h := by
  unfold paramIndex at hi
  split at hi
  · rename_i j hj
    cases hi
    obtain ⟨hlt, heq, -⟩ := List.findIdx?_eq_some_iff_getElem.1 hj
    exact List.getElem?_eq_some_iff.2 ⟨hlt, by simpa using heq⟩
  · cases hi

theorem paramIndex_some {hs : List (BitVec 64)} {h : BitVec 64} (hm : h ∈ hs) : ∃ i, paramIndex hs h = .ok i := by
  unfold paramIndex
  split
  · rename_i j hj
    exact ⟨j, rfl⟩
  · rename_i hn
    rw [List.findIdx?_eq_none_iff] at hn
    have := hn h hm
    simp at this

theorem lookup_congr {hs : List (BitVec 64)} {vals vals' : List Value} {h : BitVec 64}
    (hj : ∀ j : Nat, hs[j]? = some h → vals[j]? = vals'[j]?) :
    Env.lookup ⟨some hs, some vals⟩ h = Env.lookup ⟨some hs, some vals'⟩ h := by
  unfold Env.lookup
  simp only
  cases hi : paramIndex hs h with
  | err e => rfl
  | ub => rfl
  | ok i =>
    rw [Out.bind_ok, Out.bind_ok, hj i (paramIndex_ok hi)]

theorem evalOn_congr {s : Space} {vals vals' : List Value} {e : Expr}
    (h : ∀ (j : Nat) x, s.handles[j]? = some x → Occurs x e → vals[j]? = vals'[j]?) :
    evalOn ops jen little s vals e = evalOn ops jen little s vals' e := by
  unfold evalOn
  refine (eval_congr ops jen little _ _ e ?_).1
  intro x hx
  exact lookup_congr fun j hj => h j x hj ((mem_collect x e).1 hx)

/-- In a larger space, on more values, known expressions keep their value. -/
theorem evalOn_append {s s' : Space} {vals rest : List Value} {hs : List (BitVec 64)} {e : Expr}
    (hh : s'.handles = s.handles ++ hs) (hl : vals.length = s.handles.length)
    (hk : ∀ x, Occurs x e → x ∈ s.handles) :
    evalOn ops jen little s' (vals ++ rest) e = evalOn ops jen little s vals e := by
  unfold evalOn
  refine (eval_congr ops jen little _ _ e ?_).1
  intro x hx
  have hm := hk x ((mem_collect x e).1 hx)
  unfold Env.lookup
  simp only [hh]
  have : paramIndex (s.handles ++ hs) x = paramIndex s.handles x := by
    unfold paramIndex
    rw [List.findIdx?_append]
    cases hf : s.handles.findIdx? (fun y => decide (y = x)) with
    | some i => rfl
    | none =>
      rw [List.findIdx?_eq_none_iff] at hf
      have := hf x hm
      simp at this
  rw [this]
  obtain ⟨i, hi⟩ := paramIndex_some hm
  rw [hi, Out.bind_ok, Out.bind_ok]
  have hlt := (List.getElem?_eq_some_iff.1 (paramIndex_ok hi)).1
  rw [List.getElem?_append_left (by omega)]

/-- `vals` has the values of `more`, except that some are inactive. -/
theorem evalOn_mono {s : Space} {vals more : List Value} {e : Expr}
    (h : ∀ (j : Nat) x v, s.handles[j]? = some x → Occurs x e → vals[j]? = some v → v = .inactive ∨ more[j]? = some v)
    {v v' : Value} (h1 : evalOn ops jen little s vals e = .ok v) (hv : v ≠ .inactive)
    (h2 : evalOn ops jen little s more e = .ok v') : v' = v := by
  unfold evalOn at h1 h2
  refine (eval_mono ops jen little _ _ e ?_).1 v v' h1 hv h2
  intro x hx a b ha hne hb
  unfold Env.lookup at ha hb
  simp only at ha hb
  obtain ⟨i, hi, ha⟩ := bind_eq_ok ha
  obtain ⟨i', hi', hb⟩ := bind_eq_ok hb
  rw [hi] at hi'
  cases hi'
  cases hvi : vals[i]? with
  | none => rw [hvi] at ha; cases ha
  | some u =>
    rw [hvi] at ha
    cases ha
    rcases h i x a (paramIndex_ok hi) ((mem_collect x e).1 hx) hvi with h | h
    · exact absurd h hne
    · rw [h] at hb
      cases hb
      rfl

/-! ## The loop on the sorted parameters -/

/-- No parameter of `l` depends on itself or on a later one. -/
def NoForward (ps : List (BitVec 64 × Option Expr)) (l : List Nat) : Prop :=
  ∀ before i after, l = before ++ i :: after → ∀ j, DependsOn ps i j → j ∉ i :: after

theorem PartialOrder.noForward {ps : List (BitVec 64 × Option Expr)} {l : List Nat} (h : PartialOrder ps l) :
    NoForward ps l := by
  intro b i a hl j hj hm
  have hb := h.ordered b i a hl j hj
  have hn := h.nodup
  rw [hl, List.nodup_append] at hn
  exact hn.2.2 j hb j hm rfl

theorem NoForward.tail {ps : List (BitVec 64 × Option Expr)} {i : Nat} {l : List Nat} (h : NoForward ps (i :: l)) :
    NoForward ps l := fun b k a hl j hj => h (i :: b) k a (by rw [hl]; rfl) j hj

theorem depends_of_occurs {s : Space} {i j : Nat} {w : PWrap} {e : Expr} {x : BitVec 64} (hw : s.params[i]? = some w)
    (hc : w.condition = some e) (hj : s.handles[j]? = some x) (ho : Occurs x e) :
    DependsOn (Spec.conditions s) i j := by
  simp only [Space.handles, List.getElem?_map, Option.map_eq_some_iff] at hj
  obtain ⟨w', hw', rfl⟩ := hj
  refine ⟨w.handle, e, w'.handle, w'.condition, ?_, conditions_get hw', ho⟩
  rw [conditions_get hw, hc]

theorem setActives_spec {s : Space} : ∀ (l : List Nat) (cur out : List Value), l.Nodup →
    NoForward (Spec.conditions s) l → cur.length = s.params.length → setActives ops jen little s l cur = .ok out →
    out.length = cur.length ∧ (∀ j, j ∉ l → out[j]? = cur[j]?) ∧
    ∀ i ∈ l, ∃ w, s.params[i]? = some w ∧ (w.condition = none → out[i]? = cur[i]?) ∧
      ∀ e, w.condition = some e → ∃ r, evalOn ops jen little s out e = .ok r ∧
        out[i]? = if isTrue r then cur[i]? else some .inactive
  | [], cur, out, _, _, _, h => by
    simp only [setActives, Out.ok.injEq] at h
    subst h
    simp
  | i :: l, cur, out, hn, hf, hlen, h => by
    rw [List.nodup_cons] at hn
    unfold setActives at h
    cases hw : s.params[i]? with
    | none => rw [hw] at h; cases h
    | some w =>
      rw [hw] at h
      simp only at h
      have hilt : i < cur.length := by rw [hlen]; exact (List.getElem?_eq_some_iff.1 hw).1
      cases hc : w.condition with
      | none =>
        rw [hc] at h
        obtain ⟨h1, h2, h3⟩ := setActives_spec l cur out hn.2 hf.tail hlen h
        refine ⟨h1, fun j hj => h2 j (fun hm => hj (by simp [hm])), ?_⟩
        intro k hk
        rcases List.mem_cons.1 hk with rfl | hk
        · exact ⟨w, hw, fun _ => h2 k hn.1, by rw [hc]; intro e he; cases he⟩
        · exact h3 k hk
      | some e =>
        rw [hc] at h
        simp only at h
        obtain ⟨r, hr, h⟩ := bind_eq_ok h
        have hlen' : (if isTrue r then cur else cur.set i .inactive).length = s.params.length := by
          split <;> simp [hlen]
        obtain ⟨h1, h2, h3⟩ := setActives_spec l _ out hn.2 hf.tail hlen' h
        have hother : ∀ j, j ≠ i → (if isTrue r then cur else cur.set i .inactive)[j]? = cur[j]? := by
          intro j hj
          split
          · rfl
          · rw [List.getElem?_set_ne (fun h => hj h.symm)]
        refine ⟨h1.trans (hlen'.trans hlen.symm), ?_, ?_⟩
        · intro j hj
          rw [h2 j (fun hm => hj (by simp [hm])), hother j (fun he => hj (by simp [he]))]
        · intro k hk
          rcases List.mem_cons.1 hk with rfl | hk
          · refine ⟨w, hw, fun he => (by rw [hc] at he; cases he), ?_⟩
            intro e' he'
            rw [hc] at he'
            cases he'
            refine ⟨r, ?_, ?_⟩
            · rw [← hr]
              refine evalOn_congr (ops := ops) (jen := jen) (little := little) (s := s) ?_
              intro j x hj ho
              have hdep := depends_of_occurs hw hc hj ho
              have hnot := hf [] k l rfl j hdep
              rw [h2 j (fun hm => hnot (by simp [hm])), hother j (fun he => hnot (by simp [he]))]
            · rw [h2 k hn.1]
              split
              · rfl
              · simp [hilt]
          · obtain ⟨w', hw', h4, h5⟩ := h3 k hk
            have hki : k ≠ i := fun he => hn.1 (he ▸ hk)
            refine ⟨w', hw', fun hc' => by rw [h4 hc', hother k hki], ?_⟩
            intro e' he'
            obtain ⟨r', hr', ho⟩ := h5 e' he'
            refine ⟨r', hr', ?_⟩
            rw [ho, hother k hki]

theorem isTrue_iff (v : Value) : isTrue v = true ↔ v = .bool 1#64 := by simp [isTrue]

/-- On a complete order the loop computes the activity its result asks for. -/
theorem setActives_right {s : Space} {l : List Nat} (ho : EvalOrder (Spec.conditions s) l) {raw out : List Value}
    (hlen : raw.length = s.params.length) (hact : ∀ v ∈ raw, v ≠ .inactive)
    (h : setActives ops jen little s l raw = .ok out) :
    ActivityRight ops jen little s out ∧ Masks raw out ∧
    ∀ (i : Nat) w e, s.params[i]? = some w → w.condition = some e → ∃ r, evalOn ops jen little s out e = .ok r := by
  have hp := evalOrder_partial ho
  obtain ⟨h1, -, h3⟩ := setActives_spec l raw out hp.nodup hp.noForward hlen h
  have hmem : ∀ i, i < s.params.length → i ∈ l := by
    intro i hi
    exact ho.1.mem_iff.2 (List.mem_range.2 (by rw [conditions_length]; exact hi))
  refine ⟨?_, ⟨h1, ?_⟩, ?_⟩
  · intro i hd c v hc hv
    obtain ⟨w, hw, -, rfl⟩ := conditions_some hc
    obtain ⟨w', hw', ha, hb⟩ := h3 i (hmem i (List.getElem?_eq_some_iff.1 hw).1)
    rw [hw] at hw'
    cases hw'
    cases hcond : w.condition with
    | none =>
      have := ha hcond
      rw [hv] at this
      constructor
      · intro _ e he; cases he
      · intro _; exact hact v (List.mem_of_getElem? this.symm)
    | some e =>
      obtain ⟨r, hr, hov⟩ := hb e hcond
      constructor
      · intro hne e' he'
        cases he'
        by_cases ht : isTrue r = true
        · rw [hr, (isTrue_iff r).1 ht]
        · rw [if_neg ht, hv] at hov
          exact absurd (Option.some.inj hov) hne
      · intro hs
        have := hs e rfl
        rw [hr] at this
        cases this
        rw [if_pos (by simp [isTrue]), hv] at hov
        exact hact v (List.mem_of_getElem? hov.symm)
  · intro i v hv
    have hi : i < s.params.length := by
      rw [← hlen, ← h1]
      exact (List.getElem?_eq_some_iff.1 hv).1
    obtain ⟨w, hw, ha, hb⟩ := h3 i (hmem i hi)
    cases hcond : w.condition with
    | none => exact .inr (by rw [← ha hcond, hv])
    | some e =>
      obtain ⟨r, hr, hov⟩ := hb e hcond
      rw [hv] at hov
      split at hov
      · exact .inr hov.symm
      · exact .inl (Option.some.inj hov)
  · intro i w e hw he
    obtain ⟨w', hw', -, hb⟩ := h3 i (hmem i (List.getElem?_eq_some_iff.1 hw).1)
    rw [hw] at hw'
    cases hw'
    obtain ⟨r, hr, -⟩ := hb e he
    exact ⟨r, hr⟩

/-- Two configurations with the right activity over the same values are the same. -/
theorem activity_unique {s : Space} {l : List Nat} (ho : EvalOrder (Spec.conditions s) l) {raw a b : List Value}
    (hlen : raw.length = s.params.length) (hact : ∀ v ∈ raw, v ≠ .inactive)
    (ha : ActivityRight ops jen little s a) (hb : ActivityRight ops jen little s b) (hma : Masks raw a)
    (hmb : Masks raw b) : a = b := by
  have key : ∀ k, k ≤ l.length → ∀ i ∈ l.take k, a[i]? = b[i]? := by
    intro k
    induction k with
    | zero => intro _ i hi; simp at hi
    | succ k ih =>
      intro hk i hi
      have hkl : k < l.length := hk
      rw [List.take_succ_eq_append_getElem hkl, List.mem_append] at hi
      rcases hi with hi | hi
      · exact ih (by omega) i hi
      simp at hi
      have hsplit : l = l.take k ++ i :: l.drop (k + 1) := by
        rw [hi, List.getElem_cons_drop, List.take_append_drop]
      have hil : i < s.params.length := by
        have : i ∈ l := by rw [hi]; exact List.getElem_mem hkl
        have := List.mem_range.1 (ho.1.mem_iff.1 this)
        rwa [conditions_length] at this
      have hw : s.params[i]? = some s.params[i] := List.getElem?_eq_getElem hil
      have hai : a[i]? = some (a[i]'(by rw [hma.1, hlen]; exact hil)) := List.getElem?_eq_getElem _
      have hbi : b[i]? = some (b[i]'(by rw [hmb.1, hlen]; exact hil)) := List.getElem?_eq_getElem _
      generalize a[i]'(by rw [hma.1, hlen]; exact hil) = va at *
      generalize b[i]'(by rw [hmb.1, hlen]; exact hil) = vb at *
      have hraw : raw[i]? = some (raw[i]'(by rw [hlen]; exact hil)) := List.getElem?_eq_getElem _
      have hiff : va ≠ .inactive ↔ vb ≠ .inactive := by
        rw [ha i _ _ va (conditions_get hw) hai, hb i _ _ vb (conditions_get hw) hbi]
        have hsame : ∀ e, (s.params[i]).condition = some e →
            evalOn ops jen little s a e = evalOn ops jen little s b e := by
          intro e he
          apply evalOn_congr
          intro j x hj hox
          exact ih (by omega) j (ho.2 _ _ _ hsplit j (depends_of_occurs hw he hj hox))
        constructor
        · intro h e he; rw [← hsame e he]; exact h e he
        · intro h e he; rw [hsame e he]; exact h e he
      rw [hai, hbi]
      rcases hma.2 i va hai with hva | hva
      · rcases hmb.2 i vb hbi with hvb | hvb
        · rw [hva, hvb]
        · exact absurd hva (hiff.2 (hact vb (List.mem_of_getElem? hvb)))
      · rcases hmb.2 i vb hbi with hvb | hvb
        · exact absurd hvb (hiff.1 (hact va (List.mem_of_getElem? hva)))
        · rw [← hva, ← hvb]
  apply List.ext_getElem?
  intro i
  by_cases hi : i < s.params.length
  · refine key l.length (Nat.le_refl _) i ?_
    rw [List.take_length]
    exact ho.1.mem_iff.2 (List.mem_range.2 (by rw [conditions_length]; exact hi))
  · rw [List.getElem?_eq_none (by rw [hma.1, hlen]; omega), List.getElem?_eq_none (by rw [hmb.1, hlen]; omega)]

/-- `out` is what the loop is after: every parameter keeps its value, unless its condition is not true on `out`. -/
def Solves (ops : FloatOps) (jen : Bytes → BitVec 32) (little : Bool) (s : Space) (raw out : List Value) : Prop :=
  out.length = raw.length ∧ ∀ (i : Nat) w, s.params[i]? = some w → (w.condition = none → out[i]? = raw[i]?) ∧
    ∀ e, w.condition = some e → ∃ r, evalOn ops jen little s out e = .ok r ∧
      out[i]? = if isTrue r then raw[i]? else some .inactive

theorem setActives_solves {s : Space} {l : List Nat} (ho : EvalOrder (Spec.conditions s) l) {raw out : List Value}
    (hlen : raw.length = s.params.length) (h : setActives ops jen little s l raw = .ok out) :
    Solves ops jen little s raw out := by
  have hp := evalOrder_partial ho
  obtain ⟨h1, -, h3⟩ := setActives_spec l raw out hp.nodup hp.noForward hlen h
  refine ⟨h1, fun i w hw => ?_⟩
  obtain ⟨w', hw', h4⟩ := h3 i (ho.1.mem_iff.2 (List.mem_range.2 (by
    rw [conditions_length]; exact (List.getElem?_eq_some_iff.1 hw).1)))
  rw [hw] at hw'
  cases hw'
  exact h4

theorem solves_unique {s : Space} {l : List Nat} (ho : EvalOrder (Spec.conditions s) l) {raw a b : List Value}
    (hlen : raw.length = s.params.length) (ha : Solves ops jen little s raw a)
    (hb : Solves ops jen little s raw b) : a = b := by
  have key : ∀ k, k ≤ l.length → ∀ i ∈ l.take k, a[i]? = b[i]? := by
    intro k
    induction k with
    | zero => intro _ i hi; simp at hi
    | succ k ih =>
      intro hk i hi
      have hkl : k < l.length := hk
      rw [List.take_succ_eq_append_getElem hkl, List.mem_append] at hi
      rcases hi with hi | hi
      · exact ih (by omega) i hi
      simp at hi
      have hsplit : l = l.take k ++ i :: l.drop (k + 1) := by
        rw [hi, List.getElem_cons_drop, List.take_append_drop]
      have hil : i < s.params.length := by
        have : i ∈ l := by rw [hi]; exact List.getElem_mem hkl
        have := List.mem_range.1 (ho.1.mem_iff.1 this)
        rwa [conditions_length] at this
      have hw : s.params[i]? = some s.params[i] := List.getElem?_eq_getElem hil
      obtain ⟨ha1, ha2⟩ := ha.2 i _ hw
      obtain ⟨hb1, hb2⟩ := hb.2 i _ hw
      cases hc : (s.params[i]).condition with
      | none => rw [ha1 hc, hb1 hc]
      | some e =>
        obtain ⟨r, hr, hra⟩ := ha2 e hc
        obtain ⟨r', hr', hrb⟩ := hb2 e hc
        have hsame : evalOn ops jen little s a e = evalOn ops jen little s b e := by
          apply evalOn_congr
          intro j x hj hox
          exact ih (by omega) j (ho.2 _ _ _ hsplit j (depends_of_occurs hw hc hj hox))
        rw [hr, hr'] at hsame
        cases hsame
        rw [hra, hrb]
  apply List.ext_getElem?
  intro i
  by_cases hi : i < s.params.length
  · refine key l.length (Nat.le_refl _) i ?_
    rw [List.take_length]
    exact ho.1.mem_iff.2 (List.mem_range.2 (by rw [conditions_length]; exact hi))
  · rw [List.getElem?_eq_none (by rw [ha.1, hlen]; omega), List.getElem?_eq_none (by rw [hb.1, hlen]; omega)]

theorem setActives_complete {s : Space} {l : List Nat} (ho : EvalOrder (Spec.conditions s) l) {raw a : List Value}
    (hlen : raw.length = s.params.length) (ha : Solves ops jen little s raw a) :
    setActives ops jen little s l raw = .ok a := by
  have key : ∀ (rest before : List Nat) (cur : List Value), l = before ++ rest → cur.length = s.params.length →
      (∀ j ∈ before, cur[j]? = a[j]?) → (∀ j, j ∉ before → cur[j]? = raw[j]?) →
      ∃ out, setActives ops jen little s rest cur = .ok out := by
    intro rest
    induction rest with
    | nil => intro before cur _ _ _ _; exact ⟨cur, rfl⟩
    | cons i rest ih =>
      intro before cur hl hcl hb hr
      have hil : i < s.params.length := by
        have : i ∈ l := by rw [hl]; simp
        have := List.mem_range.1 (ho.1.mem_iff.1 this)
        rwa [conditions_length] at this
      have hnb : i ∉ before := by
        have hn := ho.1.nodup_iff.2 List.nodup_range
        rw [hl, List.nodup_append] at hn
        exact fun hm => hn.2.2 i hm i (by simp) rfl
      have hw : s.params[i]? = some s.params[i] := List.getElem?_eq_getElem hil
      obtain ⟨ha1, ha2⟩ := ha.2 i _ hw
      unfold setActives
      rw [hw]
      simp only
      cases hc : (s.params[i]).condition with
      | none =>
        simp only
        refine ih (before ++ [i]) cur (by rw [hl]; simp) hcl ?_ ?_
        · intro j hj
          rcases List.mem_append.1 hj with hj | hj
          · exact hb j hj
          · simp at hj
            subst hj
            rw [hr j hnb, ha1 hc]
        · intro j hj
          exact hr j (fun h => hj (by simp [h]))
      | some e =>
        simp only
        obtain ⟨r, hre, hra⟩ := ha2 e hc
        have hcur : eval ops jen little (s.env cur) e = .ok r := by
          rw [← hre]
          refine evalOn_congr (ops := ops) (jen := jen) (little := little) (s := s) ?_
          intro j x hj hox
          exact hb j (ho.2 _ _ _ hl j (depends_of_occurs hw hc hj hox))
        rw [hcur, Out.bind_ok]
        have hcur' : ∀ j, j ≠ i → (if isTrue r then cur else cur.set i .inactive)[j]? = cur[j]? := by
          intro j hj
          split
          · rfl
          · rw [List.getElem?_set_ne (fun h => hj h.symm)]
        refine ih (before ++ [i]) _ (by rw [hl]; simp) (by split <;> simp [hcl]) ?_ ?_
        · intro j hj
          rcases List.mem_append.1 hj with hj | hj
          · have hji : j ≠ i := fun h => hnb (h ▸ hj)
            rw [hcur' j hji]
            exact hb j hj
          · simp at hj
            subst hj
            rw [hra]
            split
            · exact hr j hnb
            · simp [hcl, hil]
        · intro j hj
          have hji : j ≠ i := fun h => hj (by simp [h])
          rw [hcur' j hji]
          exact hr j (fun h => hj (by simp [h]))
  obtain ⟨out, hout⟩ := key l [] raw rfl hlen (by simp) (by simp)
  rw [hout, solves_unique ho hlen (setActives_solves ho hlen hout) ha]

/-- A configuration with the right activity whose conditions all evaluate is what the loop is after. -/
theorem solves_of_right {s : Space} {raw a : List Value} (hlen : raw.length = s.params.length)
    (ha : ActivityRight ops jen little s a) (hma : Masks raw a)
    (hev : ∀ (i : Nat) w e, s.params[i]? = some w → w.condition = some e →
      ∃ r, evalOn ops jen little s a e = .ok r) : Solves ops jen little s raw a := by
  refine ⟨hma.1, fun i w hw => ?_⟩
  have hil := (List.getElem?_eq_some_iff.1 hw).1
  have hai : a[i]? = some (a[i]'(by rw [hma.1, hlen]; exact hil)) := List.getElem?_eq_getElem _
  generalize a[i]'(by rw [hma.1, hlen]; exact hil) = va at *
  have hright := ha i _ _ va (conditions_get hw) hai
  have hmask := hma.2 i va hai
  refine ⟨fun hc => ?_, fun e hc => ?_⟩
  · have hne : va ≠ .inactive := hright.2 (by rw [hc]; intro e he; cases he)
    rcases hmask with h | h
    · exact absurd h hne
    · rw [hai, h]
  · obtain ⟨r, hr⟩ := hev i w e hw hc
    refine ⟨r, hr, ?_⟩
    by_cases ht : isTrue r = true
    · rw [if_pos ht, hai]
      have hne : va ≠ .inactive := hright.2 (by
        intro e' he'
        rw [hc] at he'
        cases he'
        rw [hr, (isTrue_iff r).1 ht])
      rcases hmask with h | h
      · exact absurd h hne
      · exact h.symm
    · rw [if_neg ht, hai]
      congr 1
      apply Classical.byContradiction
      intro hne
      have := hright.1 hne e hc
      rw [hr] at this
      cases this
      simp [isTrue] at ht

/-- The loop finds exactly the solution, whatever the order. -/
theorem setActives_iff {s : Space} {l : List Nat} (ho : EvalOrder (Spec.conditions s) l) {raw a : List Value}
    (hlen : raw.length = s.params.length) :
    setActives ops jen little s l raw = .ok a ↔ Solves ops jen little s raw a :=
  ⟨setActives_solves ho hlen, setActives_complete ho hlen⟩

/-! ## Spaces with the same parameters -/

theorem SameSpace.evalOn {s s' : Space} (h : SameSpace s s') (vals : List Value) (e : Expr) :
    Spec.evalOn ops jen little s' vals e = Spec.evalOn ops jen little s vals e := by
  unfold Spec.evalOn
  rw [h.handles]

theorem SameSpace.solves {s s' : Space} (h : SameSpace s s') {raw a : List Value} :
    Solves ops jen little s' raw a ↔ Solves ops jen little s raw a := by
  have aux : ∀ {s s' : Space}, SameSpace s s' → Solves ops jen little s raw a → Solves ops jen little s' raw a := by
    intro s s' h hs
    refine ⟨hs.1, fun i w' hw' => ?_⟩
    obtain ⟨w, hw, hc⟩ := core_some h.params hw'
    have hcond := (core_fields hc).2.2.2.2
    obtain ⟨h1, h2⟩ := hs.2 i w hw
    refine ⟨fun hn => h1 (by rw [← hcond]; exact hn), fun e he => ?_⟩
    obtain ⟨r, hr, hv⟩ := h2 e (by rw [← hcond]; exact he)
    exact ⟨r, by rw [h.evalOn]; exact hr, hv⟩
  exact ⟨aux ⟨h.params.symm, h.entries.symm, h.dists.symm, h.nextId.symm, h.clauses.symm⟩, aux h⟩

theorem SameSpace.valid {s s' : Space} (h : SameSpace s s') {vals : List Value} :
    Valid ops jen little s' vals ↔ Valid ops jen little s vals := by
  have aux : ∀ {s s' : Space}, SameSpace s s' → Valid ops jen little s vals → Valid ops jen little s' vals := by
    intro s s' h ⟨h1, h2, h3, h4⟩
    refine ⟨by rw [h.length]; exact h1, ?_, ?_, ?_⟩
    · intro i hd c v hc hv
      rw [h.conditions] at hc
      rw [h2 i hd c v hc hv]
      unfold ShouldBeActive
      constructor
      · intro hh e he; rw [h.evalOn]; exact hh e he
      · intro hh e he; have := hh e he; rwa [h.evalOn] at this
    · intro i w' v hw' hv hne
      obtain ⟨w, hw, hc⟩ := core_some h.params hw'
      rw [(core_fields hc).2.1]
      exact h3 i w v hw hv hne
    · intro c hc
      rw [h.clauses] at hc
      rw [h.evalOn]
      exact h4 c hc
  exact ⟨aux ⟨h.params.symm, h.entries.symm, h.dists.symm, h.nextId.symm, h.clauses.symm⟩, aux h⟩

end

end CCS
