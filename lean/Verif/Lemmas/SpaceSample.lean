import Verif.Lemmas.Activity
import Verif.Props.Joint

/-!
# Checking and sampling configurations
-/

namespace CCS

open Spec

section
variable {ops : FloatOps} {jen : Bytes → BitVec 32} {little : Bool}

/-! ## Checking -/

theorem testForbidden_spec {s : Space} {vals : List Value} : ∀ (cs : List Expr),
    (testForbidden ops jen little s vals cs = .ok true ↔
      ∀ c ∈ cs, ∃ r, evalOn ops jen little s vals c = .ok r ∧ r ≠ .bool 1#64) ∧
    (testForbidden ops jen little s vals cs = .ok false → ∃ c ∈ cs, evalOn ops jen little s vals c = .ok (.bool 1#64)) ∧
    (∀ e, testForbidden ops jen little s vals cs = .err e → ∃ c ∈ cs, evalOn ops jen little s vals c = .err e) ∧
    (testForbidden ops jen little s vals cs = .ub → ∃ c ∈ cs, evalOn ops jen little s vals c = .ub)
  | [] => by simp [testForbidden]
  | c :: cs => by
    obtain ⟨h1, h2, h3, h4⟩ := testForbidden_spec (s := s) (vals := vals) cs
    unfold testForbidden
    cases hr : eval ops jen little (s.env vals) c with
    | err e =>
      have hr' : evalOn ops jen little s vals c = .err e := hr
      refine ⟨⟨by simp, fun h => ?_⟩, by simp, ?_, by simp⟩
      · obtain ⟨r, he, -⟩ := h c (by simp)
        rw [hr'] at he; cases he
      · intro e' he'
        cases he'
        exact ⟨c, by simp, hr'⟩
    | ub =>
      have hr' : evalOn ops jen little s vals c = .ub := hr
      refine ⟨⟨by simp, fun h => ?_⟩, by simp, by simp, ?_⟩
      · obtain ⟨r, he, -⟩ := h c (by simp)
        rw [hr'] at he; cases he
      · intro _
        exact ⟨c, by simp, hr'⟩
    | ok r =>
      have hr' : evalOn ops jen little s vals c = .ok r := hr
      rw [Out.bind_ok]
      by_cases ht : isTrue r = true
      · rw [if_pos ht]
        have := (isTrue_iff r).1 ht
        subst this
        refine ⟨⟨by simp, fun h => ?_⟩, fun _ => ⟨c, by simp, hr'⟩, by simp, by simp⟩
        obtain ⟨r, he, hne⟩ := h c (by simp)
        rw [hr'] at he; cases he; exact absurd rfl hne
      · rw [if_neg ht]
        have hne : r ≠ .bool 1#64 := fun h => ht ((isTrue_iff r).2 h)
        refine ⟨?_, fun h => ?_, fun e h => ?_, fun h => ?_⟩
        · rw [h1]
          constructor
          · intro h x hx
            rcases List.mem_cons.1 hx with rfl | hx
            · exact ⟨r, hr', hne⟩
            · exact h x hx
          · intro h x hx
            exact h x (by simp [hx])
        · obtain ⟨x, hx, he⟩ := h2 h; exact ⟨x, by simp [hx], he⟩
        · obtain ⟨x, hx, he⟩ := h3 e h; exact ⟨x, by simp [hx], he⟩
        · obtain ⟨x, hx, he⟩ := h4 h; exact ⟨x, by simp [hx], he⟩

/-- Parameter `i` of a configuration is as it should be. -/
def Fine (ops : FloatOps) (jen : Bytes → BitVec 32) (little : Bool) (s : Space) (vals : List Value) (i : Nat) : Prop :=
  ∃ w v, s.params[i]? = some w ∧ vals[i]? = some v ∧
    conditionHolds ops jen little s vals w.condition = .ok (decide (v ≠ .inactive)) ∧
    (v ≠ .inactive → Legal w.param v)

/-- Parameter `i` of a configuration is not as it should be. -/
def Wrong (ops : FloatOps) (jen : Bytes → BitVec 32) (little : Bool) (s : Space) (vals : List Value) (i : Nat) : Prop :=
  ∃ w v b, s.params[i]? = some w ∧ vals[i]? = some v ∧
    conditionHolds ops jen little s vals w.condition = .ok b ∧
    (b ≠ decide (v ≠ .inactive) ∨ v ≠ .inactive ∧ ¬ Legal w.param v)

theorem checkLoop_spec {s : Space} {vals : List Value} (hlen : vals.length = s.params.length) :
    ∀ (l : List Nat), (∀ i ∈ l, i < s.params.length) →
    (checkLoop ops jen little s vals l = .ok true ↔
      (∀ i ∈ l, Fine ops jen little s vals i) ∧ testForbidden ops jen little s vals s.clauses = .ok true) ∧
    (checkLoop ops jen little s vals l = .ok false →
      (∃ i ∈ l, Wrong ops jen little s vals i) ∨ testForbidden ops jen little s vals s.clauses = .ok false) ∧
    (∀ e, checkLoop ops jen little s vals l = .err e →
      (∃ i ∈ l, ∃ w, s.params[i]? = some w ∧ conditionHolds ops jen little s vals w.condition = .err e) ∨
      testForbidden ops jen little s vals s.clauses = .err e) ∧
    (checkLoop ops jen little s vals l = .ub →
      (∃ i ∈ l, ∃ w, s.params[i]? = some w ∧ conditionHolds ops jen little s vals w.condition = .ub) ∨
      testForbidden ops jen little s vals s.clauses = .ub)
  | [], _ => by simp [checkLoop]
  | i :: l, hb => by
    obtain ⟨h1, h2, h3, h4⟩ := checkLoop_spec hlen l (fun x hx => hb x (by simp [hx]))
    have hi : i < s.params.length := hb i (by simp)
    have hw : s.params[i]? = some s.params[i] := List.getElem?_eq_getElem hi
    have hv : vals[i]? = some (vals[i]'(by omega)) := List.getElem?_eq_getElem _
    generalize vals[i]'(by omega) = v at hv
    generalize s.params[i] = w at hw
    unfold checkLoop
    rw [hw, hv]
    simp only
    have huniq : ∀ {w' v'}, s.params[i]? = some w' → vals[i]? = some v' → w' = w ∧ v' = v := by
      intro w' v' hw' hv'
      rw [hw] at hw'; rw [hv] at hv'
      exact ⟨(Option.some.inj hw').symm, (Option.some.inj hv').symm⟩
    cases hc : conditionHolds ops jen little s vals w.condition with
    | err e =>
      refine ⟨⟨by simp, fun h => ?_⟩, by simp, ?_, by simp⟩
      · obtain ⟨w', v', hw', hv', h, -⟩ := h.1 i (by simp)
        obtain ⟨rfl, rfl⟩ := huniq hw' hv'
        rw [hc] at h; cases h
      · intro e' he'
        cases he'
        exact .inl ⟨i, by simp, w, hw, hc⟩
    | ub =>
      refine ⟨⟨by simp, fun h => ?_⟩, by simp, by simp, ?_⟩
      · obtain ⟨w', v', hw', hv', h, -⟩ := h.1 i (by simp)
        obtain ⟨rfl, rfl⟩ := huniq hw' hv'
        rw [hc] at h; cases h
      · intro _
        exact .inl ⟨i, by simp, w, hw, hc⟩
    | ok b =>
      rw [Out.bind_ok]
      by_cases hact : b = decide (v ≠ .inactive)
      · rw [if_neg (by rw [hact]; simp)]
        by_cases hbad : (b && !checkValue jen little w.param v) = true
        · rw [if_pos hbad]
          rw [Bool.and_eq_true, Bool.not_eq_true', Bool.eq_false_iff, Ne, checkValue_iff] at hbad
          have hne : v ≠ .inactive := by simpa using hact.symm.trans hbad.1
          refine ⟨⟨by simp, fun h => ?_⟩, fun _ => .inl ⟨i, by simp, w, v, b, hw, hv, hc, .inr ⟨hne, hbad.2⟩⟩,
            by simp, by simp⟩
          obtain ⟨w', v', hw', hv', -, h⟩ := h.1 i (by simp)
          obtain ⟨rfl, rfl⟩ := huniq hw' hv'
          exact absurd (h hne) hbad.2
        · rw [if_neg hbad]
          have hleg : v ≠ .inactive → Legal w.param v := by
            intro hne
            have hbt : b = true := by rw [hact]; simpa using hne
            rw [hbt] at hbad
            exact (checkValue_iff (jen := jen) (little := little) _ _).1 (by simpa using hbad)
          refine ⟨?_, fun h => ?_, fun e h => ?_, fun h => ?_⟩
          · rw [h1]
            constructor
            · rintro ⟨h, ht⟩
              refine ⟨fun x hx => ?_, ht⟩
              rcases List.mem_cons.1 hx with rfl | hx
              · exact ⟨w, v, hw, hv, by rw [hc, hact], hleg⟩
              · exact h x hx
            · rintro ⟨h, ht⟩
              exact ⟨fun x hx => h x (by simp [hx]), ht⟩
          · rcases h2 h with ⟨x, hx, hxw⟩ | h
            · exact .inl ⟨x, by simp [hx], hxw⟩
            · exact .inr h
          · rcases h3 e h with ⟨x, hx, hxw⟩ | h
            · exact .inl ⟨x, by simp [hx], hxw⟩
            · exact .inr h
          · rcases h4 h with ⟨x, hx, hxw⟩ | h
            · exact .inl ⟨x, by simp [hx], hxw⟩
            · exact .inr h
      · rw [if_pos (by simpa using hact)]
        refine ⟨⟨by simp, fun h => ?_⟩, fun _ => .inl ⟨i, by simp, w, v, b, hw, hv, hc, .inl hact⟩, by simp, by simp⟩
        obtain ⟨w', v', hw', hv', h, -⟩ := h.1 i (by simp)
        obtain ⟨rfl, rfl⟩ := huniq hw' hv'
        rw [hc] at h
        exact absurd (Out.ok.inj h) hact

theorem conditionHolds_ok {s : Space} {vals : List Value} {c : Option Expr} {b : Bool}
    (h : conditionHolds ops jen little s vals c = .ok b) :
    (b = true ↔ ShouldBeActive ops jen little s vals c) ∧
    (∀ e, c = some e → ∃ r, evalOn ops jen little s vals e = .ok r) := by
  unfold conditionHolds at h
  cases c with
  | none =>
    cases h
    exact ⟨⟨fun _ e he => (by cases he), fun _ => rfl⟩, fun e he => (by cases he)⟩
  | some e =>
    simp only at h
    obtain ⟨r, hr, h⟩ := bind_eq_ok h
    cases h
    have hr' : evalOn ops jen little s vals e = .ok r := hr
    refine ⟨⟨fun ht e' he' => ?_, fun hs => ?_⟩, fun e' he' => ?_⟩
    · cases he'
      rw [hr', (isTrue_iff r).1 ht]
    · have := hs e rfl
      rw [hr'] at this
      cases this
      rfl
    · cases he'
      exact ⟨r, hr'⟩

theorem conditionHolds_of {s : Space} {vals : List Value} {c : Option Expr}
    (h : ∀ e, c = some e → ∃ r, evalOn ops jen little s vals e = .ok r) :
    ∃ b, conditionHolds ops jen little s vals c = .ok b := by
  cases c with
  | none => exact ⟨true, rfl⟩
  | some e =>
    obtain ⟨r, hr⟩ := h e rfl
    have hr' : eval ops jen little (s.env vals) e = .ok r := hr
    exact ⟨isTrue r, by simp only [conditionHolds]; rw [hr']; rfl⟩

/-- The check on a complete order. -/
theorem checkBody_spec {s : Space} (ho : EvalOrder (Spec.conditions s) s.sorted) (vals : List Value) :
    (checkBody ops jen little s vals = .ok true ↔ Valid ops jen little s vals ∧ AllEvaluate ops jen little s vals) ∧
    (checkBody ops jen little s vals = .ok false → ¬ Valid ops jen little s vals) ∧
    (∀ e, checkBody ops jen little s vals = .err e → vals.length ≠ s.params.length ∧ e = .invalidConfiguration ∨
      (∃ w ∈ s.params, ∃ c, w.condition = some c ∧ evalOn ops jen little s vals c = .err e) ∨
      (∃ c ∈ s.clauses, evalOn ops jen little s vals c = .err e)) ∧
    (checkBody ops jen little s vals = .ub →
      (∃ w ∈ s.params, ∃ c, w.condition = some c ∧ evalOn ops jen little s vals c = .ub) ∨
      (∃ c ∈ s.clauses, evalOn ops jen little s vals c = .ub)) := by
  unfold checkBody
  by_cases hlen : vals.length = s.params.length
  · rw [if_neg (by simpa using hlen)]
    have hb : ∀ i ∈ s.sorted, i < s.params.length := fun i hi => by
      have := List.mem_range.1 (ho.1.mem_iff.1 hi)
      rwa [conditions_length] at this
    have hall : ∀ i, i < s.params.length → i ∈ s.sorted := fun i hi =>
      ho.1.mem_iff.2 (List.mem_range.2 (by rw [conditions_length]; exact hi))
    obtain ⟨h1, h2, h3, h4⟩ := checkLoop_spec (ops := ops) (jen := jen) (little := little) hlen s.sorted hb
    obtain ⟨f1, f2, f3, f4⟩ := testForbidden_spec (ops := ops) (jen := jen) (little := little) (s := s) (vals := vals) s.clauses
    refine ⟨?_, ?_, ?_, ?_⟩
    · rw [h1, f1]
      constructor
      · rintro ⟨hf, hc⟩
        refine ⟨⟨hlen, ?_, ?_, ?_⟩, ?_, ?_⟩
        · intro i hd c v hcd hv
          obtain ⟨w, hw, -, rfl⟩ := conditions_some hcd
          obtain ⟨w', v', hw', hv', hcc, -⟩ := hf i (hall i (List.getElem?_eq_some_iff.1 hw).1)
          rw [hw] at hw'; cases hw'
          rw [hv] at hv'; cases hv'
          rw [← (conditionHolds_ok hcc).1]
          simp
        · intro i w v hw hv hne
          obtain ⟨w', v', hw', hv', -, hl⟩ := hf i (hall i (List.getElem?_eq_some_iff.1 hw).1)
          rw [hw] at hw'; cases hw'
          rw [hv] at hv'; cases hv'
          exact hl hne
        · intro c hcm he
          obtain ⟨r, hr, hne⟩ := hc c hcm
          rw [he] at hr
          cases hr
          exact hne rfl
        · intro i w e hw he
          obtain ⟨w', v', hw', hv', hcc, -⟩ := hf i (hall i (List.getElem?_eq_some_iff.1 hw).1)
          rw [hw] at hw'; cases hw'
          exact (conditionHolds_ok hcc).2 e he
        · intro c hcm
          obtain ⟨r, hr, -⟩ := hc c hcm
          exact ⟨r, hr⟩
      · rintro ⟨⟨-, ha, hl, hc⟩, he, hce⟩
        refine ⟨fun i hi => ?_, fun c hcm => ?_⟩
        · have hil := hb i hi
          have hw : s.params[i]? = some s.params[i] := List.getElem?_eq_getElem hil
          have hv : vals[i]? = some (vals[i]'(by rw [hlen]; exact hb i hi)) := List.getElem?_eq_getElem _
          obtain ⟨b, hbb⟩ := conditionHolds_of (fun e => he i _ e hw)
          refine ⟨_, _, hw, hv, ?_, hl i _ _ hw hv⟩
          rw [hbb]
          congr 1
          rw [Bool.eq_iff_iff, (conditionHolds_ok hbb).1, ← ha i _ _ _ (conditions_get hw) hv]
          simp
        · obtain ⟨r, hr⟩ := hce c hcm
          refine ⟨r, hr, fun hrt => hc c hcm (by rw [hr, hrt])⟩
    · rintro h ⟨-, ha, hl, hc⟩
      rcases h2 h with ⟨i, hi, w, v, b, hw, hv, hcc, hbad⟩ | h
      · rcases hbad with hbad | ⟨hne, hill⟩
        · apply hbad
          rw [Bool.eq_iff_iff, (conditionHolds_ok hcc).1, ← ha i _ _ _ (conditions_get hw) hv]
          simp
        · exact hill (hl i w v hw hv hne)
      · obtain ⟨c, hcm, he⟩ := f2 h
        exact hc c hcm he
    · intro e h
      refine .inr ?_
      rcases h3 e h with ⟨i, hi, w, hw, hce⟩ | h
      · refine .inl ⟨w, List.mem_of_getElem? hw, ?_⟩
        cases hcond : w.condition with
        | none => rw [hcond] at hce; cases hce
        | some c =>
          rw [hcond] at hce
          simp only [conditionHolds] at hce
          refine ⟨c, rfl, ?_⟩
          cases hev : eval ops jen little (s.env vals) c with
          | ok r => rw [hev] at hce; cases hce
          | err x => rw [hev] at hce; cases hce; exact hev
          | ub => rw [hev] at hce; cases hce
      · exact .inr (f3 e h)
    · intro h
      rcases h4 h with ⟨i, hi, w, hw, hce⟩ | h
      · refine .inl ⟨w, List.mem_of_getElem? hw, ?_⟩
        cases hcond : w.condition with
        | none => rw [hcond] at hce; cases hce
        | some c =>
          rw [hcond] at hce
          simp only [conditionHolds] at hce
          refine ⟨c, rfl, ?_⟩
          cases hev : eval ops jen little (s.env vals) c with
          | ok r => rw [hev] at hce; cases hce
          | err x => rw [hev] at hce; cases hce
          | ub => exact hev
      · exact .inr (f4 h)
  · rw [if_pos (by simpa using hlen)]
    refine ⟨⟨by simp, fun h => absurd h.1.1 hlen⟩, by simp, fun e he => ?_, by simp⟩
    cases he
    exact .inl ⟨hlen, rfl⟩

theorem SameSpace.allEvaluate {s s' : Space} (h : SameSpace s s') {vals : List Value} :
    AllEvaluate ops jen little s' vals ↔ AllEvaluate ops jen little s vals := by
  have aux : ∀ {s s' : Space}, SameSpace s s' → AllEvaluate ops jen little s vals → AllEvaluate ops jen little s' vals := by
    intro s s' h ⟨h1, h2⟩
    refine ⟨fun i w' e hw' he => ?_, fun c hc => ?_⟩
    · obtain ⟨w, hw, hcore⟩ := core_some h.params hw'
      rw [h.evalOn]
      exact h1 i w e hw (by rw [← (core_fields hcore).2.2.2.2]; exact he)
    · rw [h.evalOn]
      exact h2 c (by rw [← h.clauses]; exact hc)
  exact ⟨aux ⟨h.params.symm, h.entries.symm, h.dists.symm, h.nextId.symm, h.clauses.symm⟩, aux h⟩

/-! ## Drawing -/

theorem paramsAt_spec {ws : List PWrap} : ∀ (is : List Nat), (∀ i ∈ is, i < ws.length) →
    ∃ ps, paramsAt ws is = .ok ps ∧ ps.length = is.length ∧
      ∀ (k i : Nat) w, is[k]? = some i → ws[i]? = some w → ps[k]? = some w.param
  | [], _ => ⟨[], rfl, rfl, by simp⟩
  | i :: is, hb => by
    have hi : i < ws.length := hb i (by simp)
    have hw : ws[i]? = some ws[i] := List.getElem?_eq_getElem hi
    obtain ⟨ps, h1, h2, h3⟩ := paramsAt_spec is (fun x hx => hb x (by simp [hx]))
    unfold paramsAt
    rw [hw]
    simp only
    rw [h1, Out.bind_ok]
    refine ⟨_, rfl, by simp [h2], ?_⟩
    intro k j w hk hj
    cases k with
    | zero =>
      simp at hk
      subst hk
      rw [hw] at hj
      cases hj
      rfl
    | succ k => exact h3 k j w (by simpa using hk) hj

theorem paramsAt_congr {ws ws' : List PWrap} (h : ws'.map (·.param) = ws.map (·.param)) : ∀ (is : List Nat),
    paramsAt ws' is = paramsAt ws is
  | [] => rfl
  | i :: is => by
    unfold paramsAt
    rw [paramsAt_congr h is]
    have hi : (ws'[i]?).map (·.param) = (ws[i]?).map (·.param) := by
      rw [← List.getElem?_map, ← List.getElem?_map, h]
    cases h1 : ws'[i]? with
    | none =>
      rw [h1] at hi
      cases h2 : ws[i]? with
      | none => rfl
      | some w => rw [h2] at hi; cases hi
    | some w' =>
      rw [h1] at hi
      cases h2 : ws[i]? with
      | none => rw [h2] at hi; cases hi
      | some w =>
        rw [h2] at hi
        simp at hi
        simp [hi]

theorem writeBack_spec : ∀ (is : List Nat) (vs vals : List Value), is.Nodup → (∀ i ∈ is, i < vals.length) →
    vs.length = is.length → ∃ out, writeBack is vs vals = .ok out ∧ out.length = vals.length ∧
      (∀ j, j ∉ is → out[j]? = vals[j]?) ∧ (∀ (k i : Nat), is[k]? = some i → out[i]? = vs[k]?)
  | [], vs, vals, _, _, _ => ⟨vals, rfl, rfl, by simp, by simp⟩
  | i :: is, [], vals, _, _, hl => by simp at hl
  | i :: is, v :: vs, vals, hn, hb, hl => by
    rw [List.nodup_cons] at hn
    have hi := hb i (by simp)
    obtain ⟨out, h1, h2, h3, h4⟩ := writeBack_spec is vs (vals.set i v) hn.2
      (fun x hx => by rw [List.length_set]; exact hb x (by simp [hx])) (by simpa using hl)
    unfold writeBack
    rw [if_pos hi]
    refine ⟨out, h1, by rw [h2, List.length_set], ?_, ?_⟩
    · intro j hj
      simp only [List.mem_cons, not_or] at hj
      rw [h3 j hj.2, List.getElem?_set_ne (fun h => hj.1 h.symm)]
    · intro k j hk
      cases k with
      | zero =>
        simp at hk
        subst hk
        rw [h3 i hn.1]
        simp [hi]
      | succ k => exact h4 k j (by simpa using hk)

theorem writeBack_congr : ∀ (is : List Nat) (vs vals vals' : List Value), vals'.length = vals.length →
    (∃ out out', writeBack is vs vals = .ok out ∧ writeBack is vs vals' = .ok out' ∧ out.length = vals.length ∧
      out'.length = vals.length ∧ ∀ j, (j ∈ is ∨ vals'[j]? = vals[j]?) → out'[j]? = out[j]?) ∨
    (writeBack is vs vals = .ub ∧ writeBack is vs vals' = .ub)
  | [], vs, vals, vals', hl => .inl ⟨vals, vals', rfl, rfl, rfl, hl, by simp⟩
  | i :: is, [], vals, vals', hl => .inr ⟨rfl, rfl⟩
  | i :: is, v :: vs, vals, vals', hl => by
    unfold writeBack
    by_cases hi : i < vals.length
    · rw [if_pos hi, if_pos (by omega)]
      rcases writeBack_congr is vs (vals.set i v) (vals'.set i v) (by simp [hl]) with
        ⟨out, out', h1, h2, h3, h4, h5⟩ | h
      · refine .inl ⟨out, out', h1, h2, by simpa using h3, by simpa using h4, ?_⟩
        intro j hj
        apply h5
        by_cases hji : i = j
        · subst hji
          exact .inr (by simp [hi, hl])
        · rcases hj with hj | hj
          · rcases List.mem_cons.1 hj with rfl | hj
            · exact absurd rfl hji
            · exact .inl hj
          · exact .inr (by rw [List.getElem?_set_ne hji, List.getElem?_set_ne hji]; exact hj)
      · exact .inr h
    · rw [if_neg hi, if_neg (by omega)]
      exact .inr ⟨rfl, rfl⟩

theorem drawAll_spec {s : Space} (hp : Parts s) (hu : ∀ w ∈ s.params, Props.Usable ops jen little w.param)
    (hd : ∀ d ∈ s.dists, WellBehaved d.dist) (t : Nat) : ∀ (ds : List DWrap) (k : Nat) (vals out : List Value),
    (∀ d ∈ ds, d ∈ s.dists) → (ds.flatMap (·.indexes)).Nodup → vals.length = s.params.length →
    drawAll s t k ds vals = .ok out → out.length = s.params.length ∧
      (∀ j, j ∉ ds.flatMap (·.indexes) → out[j]? = vals[j]?) ∧
      ∀ j ∈ ds.flatMap (·.indexes), ∀ w, s.params[j]? = some w → ∃ v, out[j]? = some v ∧ Legal w.param v
  | [], k, vals, out, _, _, hl, h => by
    simp only [drawAll, Out.ok.injEq] at h
    subst h
    simp [hl]
  | d :: ds, k, vals, out, hm, hn, hl, h => by
    rw [List.flatMap_cons, List.nodup_append] at hn
    have hdm : d ∈ s.dists := hm d (by simp)
    have hbnd : ∀ i ∈ d.indexes, i < s.params.length := fun i hi => hp.bound hdm hi
    unfold drawAll at h
    split at h
    · cases h
    obtain ⟨ps, hps, h⟩ := bind_eq_ok h
    obtain ⟨vs, hvs, h⟩ := bind_eq_ok h
    obtain ⟨vals', hwb, h⟩ := bind_eq_ok h
    obtain ⟨ps', hps', hpl, hpget⟩ := paramsAt_spec d.indexes hbnd
    rw [hps] at hps'
    cases hps'
    have hdim := hp.dim d hdm
    have hus : ∀ p ∈ ps, Props.Usable ops jen little p := by
      intro p hpm
      obtain ⟨q, hq, hpq⟩ := List.mem_iff_getElem.1 hpm
      have hq2 : q < d.indexes.length := by omega
      have hi := hbnd d.indexes[q] (List.getElem_mem hq2)
      have := hpget q _ _ (List.getElem?_eq_getElem hq2) (List.getElem?_eq_getElem hi)
      rw [List.getElem?_eq_getElem hq, hpq] at this
      rw [Option.some.inj this]
      exact hu _ (List.getElem_mem hi)
    obtain ⟨hlen, hleg⟩ := Props.C78_cells_legal ops jen little d.dist _ ps 1 _ vs (hd d hdm).1 (hd d hdm).2
      (by omega) hus (by simp [hdim]) hvs
    have hvl : vs.length = d.indexes.length := by omega
    obtain ⟨o1, w1, w2, w3, w4⟩ := writeBack_spec d.indexes vs vals hn.1 (fun i hi => by rw [hl]; exact hbnd i hi) hvl
    rw [w1] at hwb
    cases hwb
    obtain ⟨r1, r2, r3⟩ := drawAll_spec hp hu hd t ds (k + 1) vals' out (fun x hx => hm x (by simp [hx])) hn.2.1
      (w2.trans hl) h
    refine ⟨r1, ?_, ?_⟩
    · intro j hj
      rw [List.flatMap_cons, List.mem_append, not_or] at hj
      rw [r2 j hj.2, w3 j hj.1]
    · intro j hj w hw
      by_cases hj2 : j ∈ ds.flatMap (·.indexes)
      · exact r3 j hj2 w hw
      · rw [List.flatMap_cons, List.mem_append] at hj
        rcases hj with hj | hj
        · obtain ⟨q, hq, hjq⟩ := List.mem_iff_getElem.1 hj
          have hq' : d.indexes[q]? = some j := List.getElem?_eq_some_iff.2 ⟨hq, hjq⟩
          have hv : vs[q]? = some (vs[q]'(by omega)) := List.getElem?_eq_getElem _
          refine ⟨_, by rw [r2 j hj2, w4 q j hq', hv], ?_⟩
          rw [← checkValue_iff (jen := jen) (little := little)]
          exact hleg 0 q w.param _ (by omega) (hpget q j w hq' hw) (by simpa using hv)
        · exact absurd hj hj2

/-- The values drawn do not depend on what the array contained. -/
theorem drawAll_congr {s : Space} (t : Nat) : ∀ (ds : List DWrap) (k : Nat) (vals vals' : List Value),
    vals'.length = vals.length → (∀ j, j ∉ ds.flatMap (·.indexes) → vals'[j]? = vals[j]?) →
    drawAll s t k ds vals' = drawAll s t k ds vals
  | [], k, vals, vals', hl, h => by
    have : vals' = vals := List.ext_getElem? fun j => h j (by simp)
    rw [this]
  | d :: ds, k, vals, vals', hl, h => by
    unfold drawAll
    split
    · rfl
    cases paramsAt s.params d.indexes with
    | err e => rfl
    | ub => rfl
    | ok ps =>
      rw [Out.bind_ok, Out.bind_ok]
      cases jointSample d.dist (t * s.dists.length + k) ps (List.replicate d.indexes.length .none) with
      | err e => rfl
      | ub => rfl
      | ok vs =>
        rw [Out.bind_ok, Out.bind_ok]
        rcases writeBack_congr d.indexes vs vals vals' hl with ⟨o, o', h1, h2, h3, h4, h5⟩ | ⟨h1, h2⟩
        · rw [h1, h2, Out.bind_ok, Out.bind_ok]
          refine drawAll_congr t ds (k + 1) o o' (by omega) ?_
          intro j hj
          apply h5
          by_cases hjd : j ∈ d.indexes
          · exact .inl hjd
          · exact .inr (h j (by simp [hjd]; simpa using hj))
        · rw [h1, h2]

theorem drawAll_length {s : Space} (t : Nat) : ∀ (ds : List DWrap) (k : Nat) (vals out : List Value),
    drawAll s t k ds vals = .ok out → out.length = vals.length
  | [], k, vals, out, h => by simp only [drawAll, Out.ok.injEq] at h; rw [h]
  | d :: ds, k, vals, out, h => by
    unfold drawAll at h
    split at h
    · cases h
    obtain ⟨ps, hps, h⟩ := bind_eq_ok h
    obtain ⟨vs, hvs, h⟩ := bind_eq_ok h
    obtain ⟨vals', hwb, h⟩ := bind_eq_ok h
    rw [drawAll_length t ds (k + 1) vals' out h]
    rcases writeBack_congr d.indexes vs vals vals rfl with ⟨o, o', h1, -, h3, -⟩ | ⟨h1, -⟩
    · rw [h1] at hwb; cases hwb; exact h3
    · rw [h1] at hwb; cases hwb

theorem setActives_length {s : Space} : ∀ (l : List Nat) (vals out : List Value),
    setActives ops jen little s l vals = .ok out → out.length = vals.length
  | [], vals, out, h => by simp only [setActives, Out.ok.injEq] at h; rw [h]
  | i :: l, vals, out, h => by
    unfold setActives at h
    split at h
    · cases h
    · split at h
      · exact setActives_length l vals out h
      · obtain ⟨r, -, h⟩ := bind_eq_ok h
        rw [setActives_length l _ out h]
        split <;> simp

theorem attempt_length {s : Space} {t : Nat} {vals : List Value} {r : Bool × List Value}
    (h : attempt ops jen little s t vals = .ok r) : r.2.length = vals.length := by
  unfold attempt at h
  obtain ⟨drawn, h1, h⟩ := bind_eq_ok h
  obtain ⟨act, h2, h⟩ := bind_eq_ok h
  obtain ⟨f, h3, h⟩ := bind_eq_ok h
  cases h
  rw [setActives_length _ _ _ h2, drawAll_length t _ _ _ _ h1]

/-- An attempt does not depend on what the configuration contained. -/
theorem attempt_congr {s : Space} (hp : Parts s) (t : Nat) {vals : List Value} (hl : vals.length = s.params.length) :
    attempt ops jen little s t vals = attempt ops jen little s t s.blank := by
  unfold attempt
  rw [drawAll_congr t s.dists 0 s.blank vals (by simp [Space.blank, hl])]
  intro j hj
  have : ¬ j < s.params.length := fun h => hj (hp.cover.mem_iff.2 (List.mem_range.2 h))
  rw [List.getElem?_eq_none (by omega), List.getElem?_eq_none (by simp [Space.blank]; omega)]

theorem legal_active {p : Param} (hc : Created ops jen little p) {v : Value} (h : Legal p v) : v ≠ .inactive := by
  intro hv
  subst hv
  cases hc with
  | numerical h' =>
    rw [createNumerical_ok h'] at h
    rename_i t _ _ _ _
    cases t <;> (obtain ⟨x, hx, -⟩ := h; cases hx)
  | categorical h' =>
    obtain ⟨d, -, rfl, -, -, hL⟩ := createCategorical_ok h'
    have := hL _ h
    rename_i kind _ _ _
    cases kind <;> simp [Listable] at this
  | string n => obtain ⟨x, hx⟩ := h; cases hx

/-- What a successful attempt gives. -/
theorem attempt_valid {s : Space} (hp : Parts s) (ho : EvalOrder (Spec.conditions s) s.sorted)
    (hu : ∀ w ∈ s.params, Props.Usable ops jen little w.param) (hd : ∀ d ∈ s.dists, WellBehaved d.dist)
    {t : Nat} {vals : List Value} (hl : vals.length = s.params.length) {b : Bool} {out : List Value}
    (h : attempt ops jen little s t vals = .ok (b, out)) :
    ∃ raw, drawAll s t 0 s.dists s.blank = .ok raw ∧ raw.length = s.params.length ∧
      (∀ (i : Nat) w, s.params[i]? = some w → ∃ v, raw[i]? = some v ∧ Legal w.param v) ∧
      Masks raw out ∧ ActivityRight ops jen little s out ∧
      (b = true → Valid ops jen little s out ∧ AllEvaluate ops jen little s out) := by
  rw [attempt_congr hp t hl] at h
  unfold attempt at h
  obtain ⟨raw, h1, h⟩ := bind_eq_ok h
  obtain ⟨act, h2, h⟩ := bind_eq_ok h
  obtain ⟨f, h3, h⟩ := bind_eq_ok h
  cases h
  obtain ⟨r1, -, r3⟩ := drawAll_spec hp hu hd t s.dists 0 s.blank raw (fun _ h => h) hp.nodup (by simp [Space.blank]) h1
  have hleg : ∀ (i : Nat) w, s.params[i]? = some w → ∃ v, raw[i]? = some v ∧ Legal w.param v := fun i w hw =>
    r3 i (hp.cover.mem_iff.2 (List.mem_range.2 (List.getElem?_eq_some_iff.1 hw).1)) w hw
  have hact : ∀ v ∈ raw, v ≠ .inactive := by
    intro v hv
    obtain ⟨i, hi, hvi⟩ := List.mem_iff_getElem.1 hv
    have hw : s.params[i]? = some (s.params[i]'(by omega)) := List.getElem?_eq_getElem _
    obtain ⟨v', hv', hl'⟩ := hleg i _ hw
    rw [List.getElem?_eq_getElem hi, hvi] at hv'
    cases hv'
    exact legal_active (hu _ (List.mem_of_getElem? hw)).1 hl'
  obtain ⟨a1, a2, a3⟩ := setActives_right ho r1 hact h2
  refine ⟨raw, h1, r1, hleg, a2, a1, fun hb => ?_⟩
  subst hb
  have hf := (testForbidden_spec (ops := ops) (jen := jen) (little := little) (s := s) (vals := out) s.clauses).1.1 h3
  refine ⟨⟨by rw [a2.1, r1], a1, ?_, ?_⟩, a3, ?_⟩
  · intro i w v hw hv hne
    obtain ⟨v', hv', hl'⟩ := hleg i w hw
    rcases a2.2 i v hv with h | h
    · exact absurd h hne
    · rw [hv'] at h
      cases h
      exact hl'
  · intro c hc he
    obtain ⟨r, hr, hne⟩ := hf c hc
    rw [he] at hr
    cases hr
    exact hne rfl
  · intro c hc
    obtain ⟨r, hr, -⟩ := hf c hc
    exact ⟨r, hr⟩

/-! ## Repeated attempts -/

theorem sampleLoop_unfold (s : Space) (left t : Nat) (vals : List Value) :
    sampleLoop ops jen little s left t vals =
      match attempt ops jen little s t vals with
      | .err e => .err e
      | .ub => .ub
      | .ok r =>
        if r.1 then .ok r.2
        else match left with
          | 0 => .err .samplingUnsuccessful
          | left + 1 => sampleLoop ops jen little s left (t + 1) r.2 := by
  conv => lhs; unfold sampleLoop
  cases attempt ops jen little s t vals <;> cases left <;> rfl

theorem sampleLoop_first {s : Space} (hp : Parts s) : ∀ (left t : Nat) (vals : List Value),
    vals.length = s.params.length →
    ((∀ k ≤ left, ∃ x, attempt ops jen little s (t + k) s.blank = .ok (false, x)) ∧
      sampleLoop ops jen little s left t vals = .err .samplingUnsuccessful) ∨
    (∃ k ≤ left, (∀ j < k, ∃ x, attempt ops jen little s (t + j) s.blank = .ok (false, x)) ∧
      ((∃ v, attempt ops jen little s (t + k) s.blank = .ok (true, v) ∧
          sampleLoop ops jen little s left t vals = .ok v) ∨
       (∃ e, attempt ops jen little s (t + k) s.blank = .err e ∧
          sampleLoop ops jen little s left t vals = .err e) ∨
       (attempt ops jen little s (t + k) s.blank = .ub ∧ sampleLoop ops jen little s left t vals = .ub))) := by
  intro left
  induction left with
  | zero =>
    intro t vals hl
    rw [sampleLoop_unfold, attempt_congr hp t hl]
    cases ha : attempt ops jen little s t s.blank with
    | err e => exact .inr ⟨0, by omega, by simp, .inr (.inl ⟨e, ha, rfl⟩)⟩
    | ub => exact .inr ⟨0, by omega, by simp, .inr (.inr ⟨ha, rfl⟩)⟩
    | ok r =>
      obtain ⟨b, v⟩ := r
      cases b with
      | true => exact .inr ⟨0, by omega, by simp, .inl ⟨v, ha, rfl⟩⟩
      | false =>
        refine .inl ⟨fun k hk => ?_, rfl⟩
        have : k = 0 := by omega
        subst this
        exact ⟨v, ha⟩
  | succ left ih =>
    intro t vals hl
    rw [sampleLoop_unfold, attempt_congr hp t hl]
    cases ha : attempt ops jen little s t s.blank with
    | err e => exact .inr ⟨0, by omega, by simp, .inr (.inl ⟨e, ha, rfl⟩)⟩
    | ub => exact .inr ⟨0, by omega, by simp, .inr (.inr ⟨ha, rfl⟩)⟩
    | ok r =>
      obtain ⟨b, v⟩ := r
      cases b with
      | true => exact .inr ⟨0, by omega, by simp, .inl ⟨v, ha, rfl⟩⟩
      | false =>
        have hvl : v.length = s.params.length := by
          rw [attempt_length ha]; simp [Space.blank]
        simp only [Bool.false_eq_true, if_false]
        rcases ih (t + 1) v hvl with ⟨h1, h2⟩ | ⟨k, hk, h1, h2⟩
        · refine .inl ⟨fun k hk => ?_, h2⟩
          cases k with
          | zero => exact ⟨v, ha⟩
          | succ k =>
            have := h1 k (by omega)
            rwa [show t + 1 + k = t + (k + 1) by omega] at this
        · rw [show t + 1 + k = t + (k + 1) by omega] at h2
          refine .inr ⟨k + 1, by omega, fun j hj => ?_, h2⟩
          cases j with
          | zero => exact ⟨v, ha⟩
          | succ j =>
            have := h1 j (by omega)
            rwa [show t + 1 + j = t + (j + 1) by omega] at this

theorem samplesLoop_unfold (s : Space) (n left t : Nat) (cur : List Value) (found : List (List Value)) :
    samplesLoop ops jen little s n left t cur found =
      if n ≤ found.length then (found, .ok ())
      else match left with
        | 0 => (found, .err .samplingUnsuccessful)
        | left + 1 =>
          match attempt ops jen little s t cur with
          | .err e => (found, .err e)
          | .ub => (found, .ub)
          | .ok r =>
            if r.1 then samplesLoop ops jen little s n left (t + 1) s.blank (found ++ [r.2])
            else samplesLoop ops jen little s n left (t + 1) r.2 found := by
  conv => lhs; unfold samplesLoop
  cases left <;> cases attempt ops jen little s t cur <;> rfl

/-- What the loop of attempts gives: `m` attempts are made, all of them answering; then enough configurations
are found, or the allowance is exhausted, or the next attempt fails. -/
theorem samplesLoop_first {s : Space} (hp : Parts s) (n : Nat) : ∀ (left t : Nat) (cur : List Value)
    (found : List (List Value)), cur.length = s.params.length → found.length ≤ n →
    ∃ m ≤ left, (∀ k < m, ∃ r, attempt ops jen little s (t + k) s.blank = .ok r) ∧
      (samplesLoop ops jen little s n left t cur found).1 =
        found ++ hits (fun k => attempt ops jen little s k s.blank) t m ∧
      (((samplesLoop ops jen little s n left t cur found).2 = .ok () ∧
          (samplesLoop ops jen little s n left t cur found).1.length = n) ∨
       ((samplesLoop ops jen little s n left t cur found).1.length < n ∧ m = left ∧
          (samplesLoop ops jen little s n left t cur found).2 = .err .samplingUnsuccessful) ∨
       ((samplesLoop ops jen little s n left t cur found).1.length < n ∧ m < left ∧
          ((∃ e, attempt ops jen little s (t + m) s.blank = .err e ∧
              (samplesLoop ops jen little s n left t cur found).2 = .err e) ∨
           (attempt ops jen little s (t + m) s.blank = .ub ∧
              (samplesLoop ops jen little s n left t cur found).2 = .ub)))) := by
  intro left
  induction left with
  | zero =>
    intro t cur found hc hf
    rw [samplesLoop_unfold]
    by_cases hn : n ≤ found.length
    · rw [if_pos hn]
      exact ⟨0, by omega, by simp, by simp [hits], .inl ⟨rfl, by simp; omega⟩⟩
    · rw [if_neg hn]
      exact ⟨0, by omega, by simp, by simp [hits], .inr (.inl ⟨by simp; omega, rfl, rfl⟩)⟩
  | succ left ih =>
    intro t cur found hc hf
    rw [samplesLoop_unfold]
    by_cases hn : n ≤ found.length
    · rw [if_pos hn]
      exact ⟨0, by omega, by simp, by simp [hits], .inl ⟨rfl, by simp; omega⟩⟩
    · rw [if_neg hn, attempt_congr hp t hc]
      have shift : ∀ k, t + 1 + k = t + (k + 1) := fun k => by omega
      cases ha : attempt ops jen little s t s.blank with
      | err e =>
        exact ⟨0, by omega, by simp, by simp [hits],
          .inr (.inr ⟨by simp; omega, by omega, .inl ⟨e, ha, rfl⟩⟩)⟩
      | ub =>
        exact ⟨0, by omega, by simp, by simp [hits],
          .inr (.inr ⟨by simp; omega, by omega, .inr ⟨ha, rfl⟩⟩)⟩
      | ok r =>
        obtain ⟨b, v⟩ := r
        have step : ∀ (cur' : List Value) (found' : List (List Value)), cur'.length = s.params.length →
            found'.length ≤ n →
            (∀ m, found' ++ hits (fun k => attempt ops jen little s k s.blank) (t + 1) m =
              found ++ hits (fun k => attempt ops jen little s k s.blank) t (m + 1)) →
            ∃ m ≤ left + 1, (∀ k < m, ∃ r, attempt ops jen little s (t + k) s.blank = .ok r) ∧
              (samplesLoop ops jen little s n left (t + 1) cur' found').1 =
                found ++ hits (fun k => attempt ops jen little s k s.blank) t m ∧
              (((samplesLoop ops jen little s n left (t + 1) cur' found').2 = .ok () ∧
                  (samplesLoop ops jen little s n left (t + 1) cur' found').1.length = n) ∨
               ((samplesLoop ops jen little s n left (t + 1) cur' found').1.length < n ∧ m = left + 1 ∧
                  (samplesLoop ops jen little s n left (t + 1) cur' found').2 = .err .samplingUnsuccessful) ∨
               ((samplesLoop ops jen little s n left (t + 1) cur' found').1.length < n ∧ m < left + 1 ∧
                  ((∃ e, attempt ops jen little s (t + m) s.blank = .err e ∧
                      (samplesLoop ops jen little s n left (t + 1) cur' found').2 = .err e) ∨
                   (attempt ops jen little s (t + m) s.blank = .ub ∧
                      (samplesLoop ops jen little s n left (t + 1) cur' found').2 = .ub)))) := by
          intro cur' found' hc' hf' hhits
          obtain ⟨m, hm, h1, h2, h3⟩ := ih (t + 1) cur' found' hc' hf'
          refine ⟨m + 1, by omega, ?_, by rw [h2, hhits], ?_⟩
          · intro k hk
            cases k with
            | zero => exact ⟨_, ha⟩
            | succ k =>
              have := h1 k (by omega)
              rwa [shift] at this
          · rw [shift] at h3
            rcases h3 with h | ⟨a, b, c⟩ | ⟨a, b, c⟩
            · exact .inl h
            · exact .inr (.inl ⟨a, by omega, c⟩)
            · exact .inr (.inr ⟨a, by omega, c⟩)
        cases b with
        | true =>
          simp only [if_true]
          refine step s.blank (found ++ [v]) (by simp [Space.blank]) (by simp; omega) ?_
          intro m
          conv => rhs; unfold hits
          rw [ha]
          simp
        | false =>
          simp only [Bool.false_eq_true, if_false]
          refine step v found (by rw [attempt_length ha]; simp [Space.blank]) hf ?_
          intro m
          conv => rhs; unfold hits
          rw [ha]

theorem mem_hits {f : Nat → Out (Bool × List Value)} {v : List Value} : ∀ {m t : Nat}, v ∈ hits f t m →
    ∃ k, t ≤ k ∧ k < t + m ∧ f k = .ok (true, v)
  | 0, t, h => by simp [hits] at h
  | m + 1, t, h => by
    unfold hits at h
    split at h
    · rename_i x hx
      rcases List.mem_cons.1 h with rfl | h
      · exact ⟨t, Nat.le_refl _, by omega, hx⟩
      · obtain ⟨k, h1, h2, h3⟩ := mem_hits h
        exact ⟨k, by omega, by omega, h3⟩
    · obtain ⟨k, h1, h2, h3⟩ := mem_hits h
      exact ⟨k, by omega, by omega, h3⟩

end

end CCS
