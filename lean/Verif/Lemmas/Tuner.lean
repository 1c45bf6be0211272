import Verif.Spec.Tuner
import Verif.Lemmas.Evaluation

/-! # Lemmas on tuners -/

namespace CCS

open Spec

abbrev Compare := BitVec 64 → BitVec 64 → Out Comparison

theorem keepLoop_true (cmp : Compare) (e : BitVec 64) : ∀ os, keepLoop cmp e true os = .ok (true, os)
  | [] => rfl
  | o :: os => by unfold keepLoop; rw [keepLoop_true cmp e os]; rfl

theorem keepLoop_all (cmp : Compare) (e : BitVec 64) : ∀ os,
    (∀ o ∈ os, ∃ r, cmp e o = .ok r ∧ r ≠ .better) →
    (∃ o ∈ os, cmp e o = .ok .equivalent ∨ cmp e o = .ok .worse) → keepLoop cmp e false os = .ok (true, os)
  | [], _, ⟨_, h, _⟩ => by cases h
  | o :: os, h, hx => by
    obtain ⟨r, hr, hb⟩ := h o List.mem_cons_self
    unfold keepLoop
    rw [hr]
    cases r with
    | better => exact absurd rfl hb
    | equivalent => simp only; rw [keepLoop_true]; rfl
    | worse => simp only; rw [keepLoop_true]; rfl
    | notComparable =>
      simp only
      rw [keepLoop_all cmp e os (fun o' ho => h o' (List.mem_cons_of_mem _ ho)) ?_]
      · rfl
      · obtain ⟨o', ho, hc⟩ := hx
        rcases List.mem_cons.1 ho with rfl | ho
        · rw [hr] at hc; rcases hc with hc | hc <;> cases hc
        · exact ⟨o', ho, hc⟩

theorem keepLoop_filter (cmp : Compare) (e : BitVec 64) (p : BitVec 64 → Bool) : ∀ os,
    (∀ o ∈ os, (cmp e o = .ok .better ∧ p o = false) ∨ (cmp e o = .ok .notComparable ∧ p o = true)) →
    keepLoop cmp e false os = .ok (false, os.filter p)
  | [], _ => rfl
  | o :: os, h => by
    unfold keepLoop
    have ih := keepLoop_filter cmp e p os fun o' ho => h o' (List.mem_cons_of_mem _ ho)
    rcases h o List.mem_cons_self with ⟨hc, hp⟩ | ⟨hc, hp⟩
    · rw [hc]; simp only; rw [ih]; simp [hp]
    · rw [hc]; simp only; rw [ih]; simp [hp]

/-- What happens to each optimum, whatever the comparison answers. -/
theorem keepLoop_fate (cmp : Compare) (e : BitVec 64) : ∀ (d : Bool) (os : List (BitVec 64)) (d' : Bool) ks,
    keepLoop cmp e d os = .ok (d', ks) →
    ks.Sublist os ∧ (∀ o ∈ os, o ∈ ks ∨ cmp e o = .ok .better ∨ ∃ x, cmp e o = .err x) ∧
    (d' = true → d = true ∨ ∃ o ∈ os, cmp e o = .ok .equivalent ∨ cmp e o = .ok .worse ∨ ∃ x, cmp e o = .err x)
  | d, [], d', ks, h => by
    unfold keepLoop at h
    cases h
    exact ⟨List.Sublist.refl _, by simp, .inl⟩
  | true, os, d', ks, h => by
    rw [keepLoop_true] at h; cases h
    exact ⟨List.Sublist.refl _, fun o ho => .inl ho, fun _ => .inl rfl⟩
  | false, o :: os, d', ks, h => by
    unfold keepLoop at h
    cases hc : cmp e o with
    | ub => rw [hc] at h; cases h
    | err x =>
      rw [hc] at h
      simp only [keepLoop_true] at h
      cases h
      refine ⟨List.sublist_cons_self _ _, fun o' ho => ?_, fun _ => .inr ⟨o, List.mem_cons_self, .inr (.inr ⟨x, hc⟩)⟩⟩
      rcases List.mem_cons.1 ho with rfl | ho
      · exact .inr (.inr ⟨x, hc⟩)
      · exact .inl ho
    | ok r =>
      rw [hc] at h
      cases r with
      | better =>
        simp only at h
        obtain ⟨h1, h2, h3⟩ := keepLoop_fate cmp e false os d' ks h
        refine ⟨h1.cons _, fun o' ho => ?_, fun hd => ?_⟩
        · rcases List.mem_cons.1 ho with rfl | ho
          · exact .inr (.inl hc)
          · exact h2 o' ho
        · rcases h3 hd with h | ⟨o', ho, h⟩
          · cases h
          · exact .inr ⟨o', List.mem_cons_of_mem _ ho, h⟩
      | equivalent =>
        simp only [keepLoop_true] at h
        cases h
        exact ⟨List.Sublist.refl _, fun o ho => .inl ho, fun _ => .inr ⟨o, List.mem_cons_self, .inl hc⟩⟩
      | worse =>
        simp only [keepLoop_true] at h
        cases h
        exact ⟨List.Sublist.refl _, fun o ho => .inl ho, fun _ => .inr ⟨o, List.mem_cons_self, .inr (.inl hc)⟩⟩
      | notComparable =>
        simp only at h
        cases hk : keepLoop cmp e false os with
        | ub => rw [hk] at h; cases h
        | err x => rw [hk] at h; cases h
        | ok r =>
          rw [hk, Out.bind_ok] at h
          cases h
          obtain ⟨h1, h2, h3⟩ := keepLoop_fate cmp e false os _ _ hk
          refine ⟨h1.cons₂ _, fun o' ho => ?_, fun hd => ?_⟩
          · rcases List.mem_cons.1 ho with rfl | ho
            · exact .inl List.mem_cons_self
            · exact (h2 o' ho).imp_left (List.mem_cons_of_mem _)
          · rcases h3 hd with h | ⟨o', ho, h⟩
            · cases h
            · exact .inr ⟨o', List.mem_cons_of_mem _ ho, h⟩

theorem keepLoop_no_err (cmp : Compare) (e : BitVec 64) : ∀ (d : Bool) os, ∀ x, keepLoop cmp e d os ≠ .err x
  | d, [], x => by simp [keepLoop]
  | true, os, x => by rw [keepLoop_true]; simp
  | false, o :: os, x => by
    unfold keepLoop
    have ih := keepLoop_no_err cmp e false os
    cases hc : cmp e o with
    | ub => simp
    | err y => simp [keepLoop_true]
    | ok r =>
      cases r with
      | better => exact ih x
      | equivalent => simp [keepLoop_true]
      | worse => simp [keepLoop_true]
      | notComparable =>
        simp only
        cases hk : keepLoop cmp e false os with
        | ub => simp
        | err y => exact absurd hk (ih y)
        | ok r => simp

theorem keepLoop_defined (cmp : Compare) (e : BitVec 64) : ∀ (d : Bool) os, (∀ o ∈ os, cmp e o ≠ .ub) →
    ∃ r, keepLoop cmp e d os = .ok r
  | d, [], _ => ⟨_, rfl⟩
  | true, os, _ => ⟨_, keepLoop_true cmp e os⟩
  | false, o :: os, h => by
    unfold keepLoop
    obtain ⟨r', ih⟩ := keepLoop_defined cmp e false os fun o' ho => h o' (List.mem_cons_of_mem _ ho)
    cases hc : cmp e o with
    | ub => exact absurd hc (h o List.mem_cons_self)
    | err y => exact ⟨_, keepLoop_true cmp e os⟩
    | ok r =>
      cases r with
      | better => exact ⟨_, ih⟩
      | equivalent => simp only; rw [keepLoop_true]; exact ⟨_, rfl⟩
      | worse => simp only; rw [keepLoop_true]; exact ⟨_, rfl⟩
      | notComparable => simp only; rw [ih]; exact ⟨_, rfl⟩

/-- `cmp` answers according to the relations `dom` and `tie` between the elements of `S`. -/
structure Ranks (cmp : Compare) (S : BitVec 64 → Prop) (dom tie : BitVec 64 → BitVec 64 → Prop) : Prop where
  answers : ∀ x y, S x → S y → ∃ r, cmp x y = .ok r ∧ (r = .better ↔ dom x y) ∧ (r = .worse ↔ dom y x) ∧
    (r = .equivalent ↔ tie x y)
  tie_refl : ∀ x, S x → tie x x
  tie_symm : ∀ x y, S x → S y → tie x y → tie y x
  dom_dom : ∀ x y z, S x → S y → S z → dom x y → dom y z → dom x z
  dom_tie : ∀ x y z, S x → S y → S z → dom x y → tie y z → dom x z
  tie_dom : ∀ x y z, S x → S y → S z → tie x y → dom y z → dom x z
  tie_tie : ∀ x y z, S x → S y → S z → tie x y → tie y z → tie x z

/-- What holds between calls: the optima are the front, and every entry is matched by an optimum. -/
structure Ranked (S : BitVec 64 → Prop) (dom tie : BitVec 64 → BitVec 64 → Prop) (t : Tuner) : Prop where
  told : ∀ e ∈ t.history, S e
  front : IsFront dom tie t.history t.optima
  cover : ∀ e ∈ t.history, ∃ o ∈ t.optima, dom o e ∨ tie o e

theorem front_mem {dom tie : BitVec 64 → BitVec 64 → Prop} {h o : List (BitVec 64)} (hf : IsFront dom tie h o)
    {x : BitVec 64} (hx : x ∈ o) : x ∈ h ∧ ∀ y ∈ h, ¬ dom y x := by
  obtain ⟨idx, -, h2, h3⟩ := hf
  have : some x ∈ idx.map (h[·]?) := by rw [← h3]; exact List.mem_map_of_mem hx
  obtain ⟨i, hi, hix⟩ := List.mem_map.1 this
  obtain ⟨e, he, hd, -⟩ := (h2 i).1 hi
  rw [he] at hix
  cases hix
  refine ⟨List.mem_of_getElem? he, fun y hy => ?_⟩
  obtain ⟨j, hj⟩ := List.mem_iff_getElem?.1 hy
  exact hd j y hj

theorem filter_index (p : BitVec 64 → Bool) (h : List (BitVec 64)) : ∀ (o : List (BitVec 64)) (idx : List Nat),
    o.map some = idx.map (h[·]?) →
    (o.filter p).map some = (idx.filter fun i => (h[i]?.map p).getD false).map (h[·]?)
  | [], [], _ => rfl
  | x :: o, i :: idx, hm => by
    simp only [List.map_cons, List.cons.injEq] at hm
    have ih := filter_index p h o idx hm.2
    rw [List.filter_cons, List.filter_cons, ← hm.1]
    simp only [Option.map_some, Option.getD_some]
    by_cases hp : p x = true
    · rw [if_pos hp, if_pos hp, List.map_cons, List.map_cons, ih, hm.1]
    · rw [if_neg hp, if_neg hp, ih]
  | [], i :: idx, hm => by simp at hm
  | x :: o, [], hm => by simp at hm

theorem ranked_learn {cmp : Compare} {S : BitVec 64 → Prop} {dom tie : BitVec 64 → BitVec 64 → Prop}
    (hr : Ranks cmp S dom tie) (res : BitVec 64 → BitVec 32) {t : Tuner} (ht : Ranked S dom tie t) {e : BitVec 64}
    (he : S e) : ∃ t', t.learn ⟨res, cmp⟩ e = .ok t' ∧ t'.history = t.history ++ [e] ∧ Ranked S dom tie t' := by
  have hS : ∀ o ∈ t.optima, S o := fun o ho => ht.told o (front_mem ht.front ho).1
  have htold : ∀ e' ∈ t.history ++ [e], S e' := fun e' he' => by
    rcases List.mem_append.1 he' with h | h
    · exact ht.told e' h
    · rw [List.mem_singleton.1 h]; exact he
  by_cases hx : ∃ o ∈ t.optima, dom o e ∨ tie o e
  · -- discarded
    obtain ⟨o, ho, hoe⟩ := hx
    have hnone : ∀ o' ∈ t.history, (∀ y ∈ t.history, ¬ dom y o') → ¬ dom e o' := by
      intro o' ho' hun hd
      refine hun o (front_mem ht.front ho).1 ?_
      rcases hoe with h | h
      · exact hr.dom_dom o e o' (hS o ho) he (ht.told o' ho') h hd
      · exact hr.tie_dom o e o' (hS o ho) he (ht.told o' ho') h hd
    have hk := keepLoop_all cmp e t.optima (fun o' ho' => by
        obtain ⟨r, h1, h2, -⟩ := hr.answers e o' he (hS o' ho')
        exact ⟨r, h1, fun hb => hnone o' (front_mem ht.front ho').1 (front_mem ht.front ho').2 (h2.1 hb)⟩)
      ⟨o, ho, by
        obtain ⟨r, h1, h2, h3, h4⟩ := hr.answers e o he (hS o ho)
        rcases hoe with h | h
        · rw [h3.2 h] at h1; exact .inr h1
        · rw [h4.2 (hr.tie_symm o e (hS o ho) he h)] at h1; exact .inl h1⟩
    refine ⟨⟨t.history ++ [e], t.optima⟩, ?_, rfl, htold, ?_, ?_⟩
    · unfold Tuner.learn
      rw [hk]; rfl
    · obtain ⟨idx, h1, h2, h3⟩ := ht.front
      have hlt : ∀ i ∈ idx, i < t.history.length := fun i hi => by
        obtain ⟨e, he, -⟩ := (h2 i).1 hi
        exact (List.getElem?_eq_some_iff.1 he).1
      refine ⟨idx, h1, fun i => ?_, ?_⟩
      · rw [h2 i]
        constructor
        · rintro ⟨f, hf, hd, hs⟩
          have hi := (List.getElem?_eq_some_iff.1 hf).1
          refine ⟨f, by simp only; rw [List.getElem?_append_left hi]; exact hf, fun j g hg => ?_, fun j g hj hg => ?_⟩
          · simp only at hg
            by_cases hjl : j < t.history.length
            · rw [List.getElem?_append_left hjl] at hg; exact hd j g hg
            · rw [List.getElem?_append_right (by omega)] at hg
              obtain ⟨rfl⟩ := List.mem_singleton.1 (List.mem_of_getElem? hg)
              refine hnone f (List.mem_of_getElem? hf) fun y hy => ?_
              obtain ⟨j, hj⟩ := List.mem_iff_getElem?.1 hy
              exact hd j y hj
          · simp only at hg
            rw [List.getElem?_append_left (by omega)] at hg; exact hs j g hj hg
        · rintro ⟨f, hf, hd, hs⟩
          simp only at hf
          obtain ⟨jo, hjo⟩ := List.mem_iff_getElem?.1 (front_mem ht.front ho).1
          have hjol := (List.getElem?_eq_some_iff.1 hjo).1
          by_cases hi : i < t.history.length
          · rw [List.getElem?_append_left hi] at hf
            refine ⟨f, hf, fun j g hg => hd j g ?_, fun j g hj hg => hs j g hj ?_⟩
            · simp only; rw [List.getElem?_append_left (List.getElem?_eq_some_iff.1 hg).1]; exact hg
            · simp only; rw [List.getElem?_append_left (List.getElem?_eq_some_iff.1 hg).1]; exact hg
          · exfalso
            rw [List.getElem?_append_right (by omega)] at hf
            obtain ⟨rfl⟩ := List.mem_singleton.1 (List.mem_of_getElem? hf)
            have hg : (t.history ++ [e])[jo]? = some o := by rw [List.getElem?_append_left hjol]; exact hjo
            rcases hoe with h | h
            · exact hd jo o hg h
            · exact hs jo o (by omega) hg h
      · rw [h3]
        refine List.map_congr_left fun i hi => ?_
        rw [List.getElem?_append_left (hlt i hi)]
    · intro e' he'
      rcases List.mem_append.1 he' with h | h
      · exact ht.cover e' h
      · rw [List.mem_singleton.1 h]; exact ⟨o, ho, hoe⟩
  · -- kept
    have hx' : ∀ o ∈ t.optima, ¬ dom o e ∧ ¬ tie o e := fun o ho =>
      ⟨fun h => hx ⟨o, ho, .inl h⟩, fun h => hx ⟨o, ho, .inr h⟩⟩
    have hnew : ∀ f ∈ t.history, ¬ dom f e ∧ ¬ tie f e := by
      intro f hf
      obtain ⟨o, ho, hof⟩ := ht.cover f hf
      have h1 := hx' o ho
      have sf := ht.told f hf
      refine ⟨fun hd => h1.1 ?_, fun htie => ?_⟩
      · rcases hof with h | h
        · exact hr.dom_dom o f e (hS o ho) sf he h hd
        · exact hr.tie_dom o f e (hS o ho) sf he h hd
      · rcases hof with h | h
        · exact h1.1 (hr.dom_tie o f e (hS o ho) sf he h htie)
        · exact h1.2 (hr.tie_tie o f e (hS o ho) sf he h htie)
    let p : BitVec 64 → Bool := fun o => @decide (¬ dom e o) (Classical.propDecidable _)
    have hp : ∀ o, p o = true ↔ ¬ dom e o := fun o => by simp [p]
    have hk := keepLoop_filter cmp e p t.optima fun o ho => by
      obtain ⟨r, h1, h2, h3, h4⟩ := hr.answers e o he (hS o ho)
      cases r with
      | better =>
        refine .inl ⟨h1, ?_⟩
        have := h2.1 rfl
        simp [p, this]
      | worse => exact absurd (h3.1 rfl) (hx' o ho).1
      | equivalent => exact absurd (hr.tie_symm e o he (hS o ho) (h4.1 rfl)) (hx' o ho).2
      | notComparable =>
        refine .inr ⟨h1, (hp o).2 fun hd => ?_⟩
        exact absurd (h2.2 hd) (by decide)
    refine ⟨⟨t.history ++ [e], t.optima.filter p ++ [e]⟩, ?_, rfl, htold, ?_, ?_⟩
    · unfold Tuner.learn
      rw [hk]; rfl
    · obtain ⟨idx, h1, h2, h3⟩ := ht.front
      have hlt : ∀ i ∈ idx, i < t.history.length := fun i hi => by
        obtain ⟨e, he, -⟩ := (h2 i).1 hi
        exact (List.getElem?_eq_some_iff.1 he).1
      refine ⟨(idx.filter fun i => (t.history[i]?.map p).getD false) ++ [t.history.length], ?_, fun i => ?_, ?_⟩
      · rw [List.pairwise_append]
        refine ⟨h1.filter _, List.pairwise_singleton _ _, fun i hi j hj => ?_⟩
        rw [List.mem_singleton.1 hj]
        exact hlt i (List.mem_filter.1 hi).1
      · constructor
        · intro hi
          rcases List.mem_append.1 hi with hi | hi
          · obtain ⟨hi, hpi⟩ := List.mem_filter.1 hi
            obtain ⟨f, hf, hd, hs⟩ := (h2 i).1 hi
            rw [hf] at hpi
            have hil := hlt i hi
            refine ⟨f, by simp only; rw [List.getElem?_append_left hil]; exact hf, fun j g hg => ?_, fun j g hj hg => ?_⟩
            · simp only at hg
              by_cases hjl : j < t.history.length
              · rw [List.getElem?_append_left hjl] at hg; exact hd j g hg
              · rw [List.getElem?_append_right (by omega)] at hg
                obtain ⟨rfl⟩ := List.mem_singleton.1 (List.mem_of_getElem? hg)
                exact (hp f).1 (by simpa using hpi)
            · simp only at hg
              rw [List.getElem?_append_left (by omega)] at hg; exact hs j g hj hg
          · rw [List.mem_singleton.1 hi]
            refine ⟨e, by simp, fun j g hg => ?_, fun j g hj hg => ?_⟩
            · simp only at hg
              by_cases hjl : j < t.history.length
              · rw [List.getElem?_append_left hjl] at hg
                exact (hnew g (List.mem_of_getElem? hg)).1
              · rw [List.getElem?_append_right (by omega)] at hg
                obtain ⟨rfl⟩ := List.mem_singleton.1 (List.mem_of_getElem? hg)
                intro hd
                obtain ⟨r, -, q1, -, q2⟩ := hr.answers e e he he
                have := (q2.2 (hr.tie_refl e he)).symm.trans (q1.2 hd)
                cases this
            · simp only at hg
              rw [List.getElem?_append_left hj] at hg
              exact (hnew g (List.mem_of_getElem? hg)).2
        · rintro ⟨f, hf, hd, hs⟩
          simp only at hf
          by_cases hi : i < t.history.length
          · rw [List.getElem?_append_left hi] at hf
            refine List.mem_append_left _ (List.mem_filter.2 ⟨(h2 i).2 ⟨f, hf, fun j g hg => hd j g ?_, fun j g hj hg => hs j g hj ?_⟩, ?_⟩)
            · simp only; rw [List.getElem?_append_left (List.getElem?_eq_some_iff.1 hg).1]; exact hg
            · simp only; rw [List.getElem?_append_left (List.getElem?_eq_some_iff.1 hg).1]; exact hg
            · rw [hf]
              simp only [Option.map_some, Option.getD_some]
              exact (hp f).2 (hd t.history.length e (by simp))
          · have := (List.getElem?_eq_some_iff.1 hf).1
            simp only [List.length_append, List.length_singleton] at this
            exact List.mem_append_right _ (List.mem_singleton.2 (by omega))
      · rw [List.map_append, List.map_append, filter_index p t.history t.optima idx h3]
        congr 1
        · refine List.map_congr_left fun i hi => ?_
          rw [List.getElem?_append_left (hlt i (List.mem_filter.1 hi).1)]
        · simp
    · intro e' he'
      rcases List.mem_append.1 he' with h | h
      · obtain ⟨o, ho, hoe⟩ := ht.cover e' h
        by_cases hd : dom e o
        · refine ⟨e, List.mem_append_right _ (List.mem_singleton.2 rfl), .inl ?_⟩
          rcases hoe with h' | h'
          · exact hr.dom_dom e o e' he (hS o ho) (ht.told e' h) hd h'
          · exact hr.dom_tie e o e' he (hS o ho) (ht.told e' h) hd h'
        · exact ⟨o, List.mem_append_left _ (List.mem_filter.2 ⟨ho, (hp o).2 hd⟩), hoe⟩
      · rw [List.mem_singleton.1 h]
        exact ⟨e, List.mem_append_right _ (List.mem_singleton.2 rfl), .inr (hr.tie_refl e he)⟩

theorem ranked_tell {cmp : Compare} {S : BitVec 64 → Prop} {dom tie : BitVec 64 → BitVec 64 → Prop}
    (hr : Ranks cmp S dom tie) (res : BitVec 64 → BitVec 32) : ∀ (es : List (BitVec 64)) {t : Tuner},
    Ranked S dom tie t → (∀ e ∈ es, e ≠ 0#64 ∧ (res e = 0#32 → S e)) →
    (t.tell ⟨res, cmp⟩ es).2 = .ok () ∧ (t.tell ⟨res, cmp⟩ es).1.history = t.history ++ es.filter (res · == 0#32) ∧
      Ranked S dom tie (t.tell ⟨res, cmp⟩ es).1
  | [], t, ht, _ => ⟨rfl, by simp [Tuner.tell], ht⟩
  | e :: es, t, ht, h => by
    obtain ⟨h0, hs⟩ := h e List.mem_cons_self
    have htail := fun x hx => h x (List.mem_cons_of_mem _ hx)
    unfold Tuner.tell
    rw [if_neg h0]
    by_cases hres : res e = 0#32
    · rw [if_neg (by simpa using hres)]
      obtain ⟨t', h1, h2, h3⟩ := ranked_learn hr res ht (hs hres)
      rw [h1]
      simp only
      obtain ⟨q1, q2, q3⟩ := ranked_tell hr res es h3 htail
      refine ⟨q1, ?_, q3⟩
      rw [q2, h2, List.filter_cons, if_pos (by simp [hres])]
      simp
    · rw [if_pos (by simpa using hres)]
      obtain ⟨q1, q2, q3⟩ := ranked_tell hr res es ht htail
      refine ⟨q1, ?_, q3⟩
      rw [q2, List.filter_cons, if_neg (by simpa using hres)]

theorem ranked_empty (S : BitVec 64 → Prop) (dom tie : BitVec 64 → BitVec 64 → Prop) : Ranked S dom tie Tuner.empty :=
  ⟨by simp [Tuner.empty], ⟨[], List.Pairwise.nil, by simp [Tuner.empty, InFront], rfl⟩, by simp [Tuner.empty]⟩

theorem ranked_tells {cmp : Compare} {S : BitVec 64 → Prop} {dom tie : BitVec 64 → BitVec 64 → Prop}
    (hr : Ranks cmp S dom tie) (res : BitVec 64 → BitVec 32) : ∀ (cs : List (List (BitVec 64))) {t : Tuner},
    Ranked S dom tie t → (∀ e ∈ cs.flatten, e ≠ 0#64 ∧ (res e = 0#32 → S e)) →
    (t.tells (cs.map fun es => (⟨res, cmp⟩, es))).history = t.history ++ cs.flatten.filter (res · == 0#32) ∧
      Ranked S dom tie (t.tells (cs.map fun es => (⟨res, cmp⟩, es)))
  | [], t, ht, _ => ⟨by simp [Tuner.tells], ht⟩
  | es :: cs, t, ht, h => by
    simp only [List.flatten_cons, List.mem_append] at h
    obtain ⟨-, h2, h3⟩ := ranked_tell hr res es ht fun e he => h e (.inl he)
    obtain ⟨q1, q2⟩ := ranked_tells hr res cs h3 fun e he => h e (.inr he)
    simp only [List.map_cons, Tuner.tells]
    exact ⟨by rw [q1, h2]; simp [List.filter_append], q2⟩

/-! ## Independence -/

theorem keepLoop_class (cmp : Compare) (p : BitVec 64 → Bool) (e : BitVec 64) : ∀ (d : Bool) (os : List (BitVec 64)) d' ks,
    (∀ o ∈ os, p o ≠ p e → cmp e o = .ok .notComparable) → keepLoop cmp e d os = .ok (d', ks) →
    (p e = true → keepLoop cmp e d (os.filter p) = .ok (d', ks.filter p)) ∧ (p e = false → ks.filter p = os.filter p)
  | d, [], d', ks, _, h => by
    unfold keepLoop at h; cases h; exact ⟨fun _ => rfl, fun _ => rfl⟩
  | true, os, d', ks, _, h => by
    rw [keepLoop_true] at h; cases h
    exact ⟨fun _ => keepLoop_true _ _ _, fun _ => rfl⟩
  | false, o :: os, d', ks, hc, h => by
    have hc' := fun x hx => hc x (List.mem_cons_of_mem _ hx)
    have hco := hc o List.mem_cons_self
    unfold keepLoop at h
    by_cases hpo : p o = p e
    · have hf : p e = true → (o :: os).filter p = o :: os.filter p := fun hpe => by simp [hpo, hpe]
      have hf' : p e = false → (o :: os).filter p = os.filter p := fun hpe => by simp [hpo, hpe]
      cases hcmp : cmp e o with
      | ub => rw [hcmp] at h; cases h
      | err x =>
        rw [hcmp] at h
        simp only [keepLoop_true] at h
        cases h
        refine ⟨fun hpe => ?_, fun hpe => (hf' hpe).symm⟩
        rw [hf hpe]; unfold keepLoop; rw [hcmp]; simp only [keepLoop_true]
      | ok r =>
        rw [hcmp] at h
        cases r with
        | better =>
          simp only at h
          obtain ⟨h1, h2⟩ := keepLoop_class cmp p e false os d' ks hc' h
          refine ⟨fun hpe => ?_, fun hpe => by rw [hf' hpe]; exact h2 hpe⟩
          rw [hf hpe]; unfold keepLoop; rw [hcmp]; exact h1 hpe
        | equivalent =>
          simp only [keepLoop_true] at h
          cases h
          refine ⟨fun hpe => ?_, fun hpe => rfl⟩
          rw [hf hpe]; unfold keepLoop; rw [hcmp]; simp [keepLoop_true]
        | worse =>
          simp only [keepLoop_true] at h
          cases h
          refine ⟨fun hpe => ?_, fun hpe => rfl⟩
          rw [hf hpe]; unfold keepLoop; rw [hcmp]; simp [keepLoop_true]
        | notComparable =>
          simp only at h
          cases hk : keepLoop cmp e false os with
          | ub => rw [hk] at h; cases h
          | err x => rw [hk] at h; cases h
          | ok r =>
            rw [hk, Out.bind_ok] at h
            cases h
            obtain ⟨h1, h2⟩ := keepLoop_class cmp p e false os _ _ hc' hk
            refine ⟨fun hpe => ?_, fun hpe => ?_⟩
            · rw [hf hpe]; unfold keepLoop; rw [hcmp]; simp only
              rw [h1 hpe, Out.bind_ok]; simp [hpo, hpe]
            · rw [hf' hpe, ← h2 hpe]; simp [hpo, hpe]
    · rw [hco hpo] at h
      simp only at h
      cases hk : keepLoop cmp e false os with
      | ub => rw [hk] at h; cases h
      | err x => rw [hk] at h; cases h
      | ok r =>
        rw [hk, Out.bind_ok] at h
        cases h
        obtain ⟨h1, h2⟩ := keepLoop_class cmp p e false os _ _ hc' hk
        refine ⟨fun hpe => ?_, fun hpe => ?_⟩
        · have : p o = false := by cases hp : p o; rfl; exact absurd (hp.trans hpe.symm) hpo
          simp only [List.filter_cons, this]
          simpa using h1 hpe
        · have : p o = true := by cases hp : p o; exact absurd (hp.trans hpe.symm) hpo; rfl
          simp only [List.filter_cons, this, if_true]
          rw [h2 hpe]

/-- The part of a tuner with property `p`. -/
def Tuner.only (p : BitVec 64 → Bool) (t : Tuner) : Tuner := ⟨t.history.filter p, t.optima.filter p⟩

theorem tell_class (env : TunerEnv) (p : BitVec 64 → Bool) (S : BitVec 64 → Prop)
    (hc : ∀ e o, S e → S o → env.compare e o ≠ .ub ∧ (p o ≠ p e → env.compare e o = .ok .notComparable)) :
    ∀ (es : List (BitVec 64)) (t : Tuner), (∀ o ∈ t.optima, S o) → (∀ e ∈ es, e ≠ 0#64 ∧ (env.result e = 0#32 → S e)) →
    ((t.tell env es).1.only p = ((t.only p).tell env (es.filter p)).1 ∧ ∀ o ∈ (t.tell env es).1.optima, S o)
  | [], t, ht, _ => ⟨rfl, ht⟩
  | e :: es, t, ht, h => by
    obtain ⟨h0, hs⟩ := h e List.mem_cons_self
    have htail := fun x hx => h x (List.mem_cons_of_mem _ hx)
    by_cases hres : env.result e = 0#32
    · obtain ⟨r, hk⟩ := keepLoop_defined env.compare e false t.optima fun o ho => (hc e o (hs hres) (ht o ho)).1
      obtain ⟨d', ks⟩ := r
      obtain ⟨h1, h2⟩ := keepLoop_class env.compare p e false t.optima d' ks
        (fun o ho => (hc e o (hs hres) (ht o ho)).2) hk
      have hl : t.learn env e = .ok ⟨t.history ++ [e], if d' then ks else ks ++ [e]⟩ := by
        unfold Tuner.learn; rw [hk]; rfl
      have hsub := (keepLoop_fate env.compare e false t.optima d' ks hk).1
      have hS' : ∀ o ∈ (if d' then ks else ks ++ [e]), S o := fun o ho => by
        have hks : ∀ o ∈ ks, S o := fun o ho => ht o (hsub.subset ho)
        cases d'
        · rcases List.mem_append.1 ho with h | h
          · exact hks o h
          · rw [List.mem_singleton.1 h]; exact hs hres
        · exact hks o ho
      obtain ⟨i1, i2⟩ := tell_class env p S hc es ⟨t.history ++ [e], if d' then ks else ks ++ [e]⟩ hS' htail
      have step : t.tell env (e :: es) = (⟨t.history ++ [e], if d' then ks else ks ++ [e]⟩ : Tuner).tell env es := by
        conv => lhs; unfold Tuner.tell
        rw [if_neg h0, if_neg (by simpa using hres), hl]
      rw [step]
      refine ⟨?_, i2⟩
      rw [i1]
      cases hpe : p e with
      | true =>
        have hl' : (t.only p).learn env e =
            .ok (Tuner.only p ⟨t.history ++ [e], if d' then ks else ks ++ [e]⟩) := by
          unfold Tuner.learn Tuner.only
          simp only
          rw [h1 hpe, Out.bind_ok]
          cases d' <;> simp [hpe]
        rw [show (e :: es).filter p = e :: es.filter p by simp [hpe]]
        conv => rhs; unfold Tuner.tell
        rw [if_neg h0, if_neg (c := env.result e ≠ 0#32) (by simpa using hres), hl']
      | false =>
        rw [show (e :: es).filter p = es.filter p by simp [hpe]]
        congr 2
        unfold Tuner.only
        have := h2 hpe
        cases d' <;> simp [hpe, this]
    · have step : t.tell env (e :: es) = t.tell env es := by
        conv => lhs; unfold Tuner.tell
        rw [if_neg h0, if_pos (by simpa using hres)]
      rw [step]
      obtain ⟨i1, i2⟩ := tell_class env p S hc es t ht htail
      refine ⟨?_, i2⟩
      rw [i1]
      cases hpe : p e with
      | true =>
        rw [show (e :: es).filter p = e :: es.filter p by simp [hpe]]
        conv => rhs; unfold Tuner.tell
        rw [if_neg h0, if_pos (by simpa using hres)]
      | false => rw [show (e :: es).filter p = es.filter p by simp [hpe]]

theorem tells_class (env : TunerEnv) (p : BitVec 64 → Bool) (S : BitVec 64 → Prop)
    (hc : ∀ e o, S e → S o → env.compare e o ≠ .ub ∧ (p o ≠ p e → env.compare e o = .ok .notComparable)) :
    ∀ (cs : List (List (BitVec 64))) (t : Tuner), (∀ o ∈ t.optima, S o) →
    (∀ e ∈ cs.flatten, e ≠ 0#64 ∧ (env.result e = 0#32 → S e)) →
    (t.tells (cs.map fun es => (env, es))).only p = (t.only p).tells ((cs.map (·.filter p)).map fun es => (env, es))
  | [], t, _, _ => rfl
  | es :: cs, t, ht, h => by
    simp only [List.flatten_cons, List.mem_append] at h
    obtain ⟨h1, h2⟩ := tell_class env p S hc es t ht fun e he => h e (.inl he)
    simp only [List.map_cons, Tuner.tells]
    rw [tells_class env p S hc cs _ h2 fun e he => h e (.inr he), h1]

theorem pickLoop_filter (p : BitVec 64 → Bool) : ∀ (n : Nat) (l : List (BitVec 64)), pickLoop p n l = (l.filter p)[n]?
  | n, [] => by simp [pickLoop]
  | n, e :: es => by
    unfold pickLoop
    cases hp : p e with
    | false => simpa [hp] using pickLoop_filter p n es
    | true =>
      cases n with
      | zero => simp [hp]
      | succ n => simpa [hp] using pickLoop_filter p n es

end CCS
