import Verif.Lemmas.SpaceInv

/-!
# Invariants of configuration spaces: distributions
-/

namespace CCS

open Spec

/-- The distribution wrappers share out the parameters, and every parameter points at its wrapper. -/
structure Parts (s : Space) : Prop where
  ids : (s.dists.map (·.id)).Nodup
  fresh : ∀ d ∈ s.dists, d.id < s.nextId
  cover : (s.dists.flatMap (·.indexes)).Perm (List.range s.params.length)
  link : ∀ d ∈ s.dists, ∀ (j : Nat) i, d.indexes[j]? = some i →
    ∃ w, s.params[i]? = some w ∧ w.dist = d.id ∧ w.distIndex = j
  dim : ∀ d ∈ s.dists, d.dist.dim = d.indexes.length

theorem Parts.nodup {s : Space} (h : Parts s) : (s.dists.flatMap (·.indexes)).Nodup :=
  h.cover.nodup_iff.2 List.nodup_range

theorem Parts.bound {s : Space} (h : Parts s) {d : DWrap} (hd : d ∈ s.dists) {i : Nat} (hi : i ∈ d.indexes) :
    i < s.params.length :=
  List.mem_range.1 (h.cover.mem_iff.1 (List.mem_flatMap.2 ⟨d, hd, hi⟩))

/-- Every parameter is in the wrapper it points at. -/
theorem Parts.owner {s : Space} (h : Parts s) {i : Nat} {w : PWrap} (hw : s.params[i]? = some w) :
    ∃ d ∈ s.dists, d.id = w.dist ∧ d.indexes[w.distIndex]? = some i := by
  have hi : i ∈ s.dists.flatMap (·.indexes) :=
    h.cover.mem_iff.2 (List.mem_range.2 (List.getElem?_eq_some_iff.1 hw).1)
  obtain ⟨d, hd, hid⟩ := List.mem_flatMap.1 hi
  obtain ⟨j, hlt, hj⟩ := List.mem_iff_getElem.1 hid
  have hj' : d.indexes[j]? = some i := List.getElem?_eq_some_iff.2 ⟨hlt, hj⟩
  obtain ⟨w', hw', h1, h2⟩ := h.link d hd j i hj'
  rw [hw] at hw'
  have := Option.some.inj hw'
  subst this
  exact ⟨d, hd, h1.symm, by rw [h2]; exact hj'⟩

/-! ## Steps of a redistribution -/

theorem badIndexes_false {n : Nat} : ∀ {is : List Nat}, badIndexes n is = false ↔
    (∀ i ∈ is, i < n) ∧ is.Nodup
  | [] => by simp [badIndexes]
  | i :: is => by
    have ih := @badIndexes_false n is
    unfold badIndexes
    simp only [Bool.or_eq_false_iff, decide_eq_false_iff_not, ih, List.mem_cons, List.nodup_cons]
    constructor
    · rintro ⟨⟨h1, h2⟩, h3, h4⟩
      refine ⟨?_, by simpa using h2, h4⟩
      rintro x (rfl | hx)
      · omega
      · exact h3 x hx
    · rintro ⟨h1, h2, h3⟩
      exact ⟨⟨by have := h1 i (.inl rfl); omega, by simpa using h2⟩, fun x hx => h1 x (.inr hx), h3⟩

theorem toDelete_spec {ws : List PWrap} : ∀ (is acc : List Nat), (∀ i ∈ is, i < ws.length) → acc.Nodup →
    ∃ del, toDelete ws is acc = .ok del ∧ del.Nodup ∧ del.length ≤ acc.length + is.length ∧
      ∀ id, id ∈ del ↔ id ∈ acc ∨ ∃ i ∈ is, ∃ w, ws[i]? = some w ∧ w.dist = id
  | [], acc, _, hn => ⟨acc, rfl, hn, by simp, by simp⟩
  | i :: is, acc, hb, hn => by
    have hi := hb i (by simp)
    have hw : ws[i]? = some ws[i] := List.getElem?_eq_getElem hi
    unfold toDelete
    rw [hw]
    simp only
    have hn' : (if acc.contains ws[i].dist then acc else acc ++ [ws[i].dist]).Nodup := by
      split
      · exact hn
      · rename_i hc
        rw [List.nodup_append]
        refine ⟨hn, by simp, ?_⟩
        intro a ha b hb' hab
        simp at hb'
        subst hb'
        subst hab
        simp at hc
        exact hc ha
    obtain ⟨del, h1, h2, h3, h4⟩ := toDelete_spec is _ (fun x hx => hb x (by simp [hx])) hn'
    refine ⟨del, h1, h2, ?_, ?_⟩
    · have : (if acc.contains ws[i].dist then acc else acc ++ [ws[i].dist]).length ≤ acc.length + 1 := by
        split <;> simp
      simp only [List.length_cons]
      omega
    · intro id
      rw [h4]
      have hacc : id ∈ (if acc.contains ws[i].dist then acc else acc ++ [ws[i].dist]) ↔
          id ∈ acc ∨ ws[i].dist = id := by
        split
        · rename_i hc
          simp at hc
          constructor
          · exact .inl
          · rintro (h | rfl)
            · exact h
            · exact hc
        · simp [eq_comm]
      rw [hacc]
      constructor
      · rintro ((h | h) | ⟨x, hx, w, hw', hd⟩)
        · exact .inl h
        · exact .inr ⟨i, by simp, _, hw, h⟩
        · exact .inr ⟨x, by simp [hx], w, hw', hd⟩
      · rintro (h | ⟨x, hx, w, hw', hd⟩)
        · exact .inl (.inl h)
        · rcases List.mem_cons.1 hx with rfl | hx
          · rw [hw] at hw'
            exact .inl (.inr (by rw [Option.some.inj hw']; exact hd))
          · exact .inr ⟨x, hx, w, hw', hd⟩

/-- Taking one wrapper out of a filtered list. -/
theorem filter_split : ∀ {ds : List DWrap} {d : DWrap} {ids : List Nat}, (ds.map (·.id)).Nodup → d ∈ ds →
    d.id ∉ ids →
    (ds.filter fun w => !ids.contains w.id).Perm (d :: ds.filter fun w => !(d.id :: ids).contains w.id)
  | [], _, _, _, hd, _ => absurd hd (by simp)
  | x :: ds, d, ids, hn, hd, hni => by
    rw [List.map_cons, List.nodup_cons] at hn
    rcases List.mem_cons.1 hd with rfl | hd'
    · have h1 : (!ids.contains d.id) = true := by simpa using hni
      have h2 : (!(d.id :: ids).contains d.id) = false := by simp
      rw [List.filter_cons, List.filter_cons, h1, h2, if_pos rfl]
      simp only [Bool.false_eq_true, if_false]
      have : ds.filter (fun w => !ids.contains w.id) = ds.filter (fun w => !(d.id :: ids).contains w.id) := by
        apply List.filter_congr
        intro w hw
        have : w.id ≠ d.id := fun h => hn.1 (List.mem_map.2 ⟨w, hw, h⟩)
        simp [this]
      rw [this]
    · have hxd : x.id ≠ d.id := fun h => hn.1 (List.mem_map.2 ⟨d, hd', h.symm⟩)
      have ih := filter_split hn.2 hd' hni
      have hc : (d.id :: ids).contains x.id = ids.contains x.id := by simp [hxd]
      rw [List.filter_cons, List.filter_cons, hc]
      split
      · exact (ih.cons x).trans (.swap d x _)
      · exact ih

theorem orphans_spec {ds : List DWrap} (hn : (ds.map (·.id)).Nodup) : ∀ (del : List Nat), del.Nodup →
    (∀ id ∈ del, ∃ d ∈ ds, d.id = id) →
    ∃ all, orphans ds del = .ok all ∧
      (all ++ (ds.filter fun w => !del.contains w.id).flatMap (·.indexes)).Perm (ds.flatMap (·.indexes))
  | [], _, _ => by
    refine ⟨[], rfl, ?_⟩
    have : ds.filter (fun w => !([] : List Nat).contains w.id) = ds := List.filter_eq_self.2 (by simp)
    rw [this]
    exact List.Perm.refl _
  | id :: ids, hnd, hex => by
    rw [List.nodup_cons] at hnd
    obtain ⟨all, hall, hperm⟩ := orphans_spec hn ids hnd.2 (fun x hx => hex x (by simp [hx]))
    obtain ⟨d0, hd0, hid0⟩ := hex id (by simp)
    unfold orphans
    cases hf : ds.find? (fun d => decide (d.id = id)) with
    | none =>
      have := List.find?_eq_none.1 hf d0 hd0
      simp [hid0] at this
    | some d =>
      have hd := List.mem_of_find?_eq_some hf
      have hid : d.id = id := by simpa using List.find?_some hf
      simp only
      rw [hall, Out.bind_ok]
      refine ⟨d.indexes ++ all, rfl, ?_⟩
      have hsplit := filter_split hn hd (by rw [hid]; exact hnd.1)
      rw [hid] at hsplit
      have hfm := hsplit.flatMap_right (fun w : DWrap => w.indexes)
      rw [List.flatMap_cons] at hfm
      refine List.Perm.trans ?_ hperm
      refine List.Perm.trans ?_ (hfm.symm.append_left all)
      rw [List.append_assoc, ← List.append_assoc all]
      refine (List.perm_append_comm_assoc _ _ _).trans ?_
      rw [List.append_assoc]

theorem dropIndexes_spec : ∀ (is all : List Nat), is.Nodup → (∀ i ∈ is, i ∈ all) →
    ∃ left, dropIndexes is all = .ok left ∧ (is ++ left).Perm all
  | [], all, _, _ => ⟨all, rfl, .refl _⟩
  | i :: is, all, hn, hs => by
    rw [List.nodup_cons] at hn
    have hi := hs i (by simp)
    have hd : dropIndex i all = .ok (all.erase i) := by
      unfold dropIndex
      split
      · simp at hi
      · rw [if_pos (by simpa using hi)]
    have hs' : ∀ x ∈ is, x ∈ all.erase i := by
      intro x hx
      have hne : x ≠ i := fun h => hn.1 (h ▸ hx)
      exact (List.mem_erase_of_ne hne).2 (hs x (by simp [hx]))
    obtain ⟨left, h1, h2⟩ := dropIndexes_spec is (all.erase i) hn.2 hs'
    refine ⟨left, ?_, ?_⟩
    · unfold dropIndexes
      rw [hd, Out.bind_ok]
      exact h1
    · exact (h2.cons i).trans (List.perm_cons_erase hi).symm

theorem defaultWrappers_spec {mk : Nat → Param → Out Dist} (hmk : OneDimensional mk) {ws : List PWrap} :
    ∀ (is : List Nat) (id : Nat) (added : List DWrap), defaultWrappers mk ws id is = .ok added →
      added.length = is.length ∧ added.flatMap (·.indexes) = is ∧
      (∀ d ∈ added, id ≤ d.id ∧ d.id < id + is.length ∧ d.dist.dim = d.indexes.length) ∧
      (added.map (·.id)).Nodup ∧
      (∀ d ∈ added, ∃ i w, d.indexes = [i] ∧ ws[i]? = some w ∧ mk d.id w.param = .ok d.dist)
  | [], id, added, h => by
    unfold defaultWrappers at h
    have := (Out.ok.inj h).symm
    subst this
    simp
  | i :: is, id, added, h => by
    unfold defaultWrappers at h
    cases hw : ws[i]? with
    | none => rw [hw] at h; simp at h
    | some w =>
      rw [hw] at h
      simp only at h
      cases hd : mk id w.param with
      | err e => rw [hd] at h; simp at h
      | ub => rw [hd] at h; simp at h
      | ok d =>
        rw [hd, Out.bind_ok] at h
        cases hr : defaultWrappers mk ws (id + 1) is with
        | err e => rw [hr] at h; simp at h
        | ub => rw [hr] at h; simp at h
        | ok rest =>
          rw [hr, Out.bind_ok] at h
          have := (Out.ok.inj h).symm
          subst this
          obtain ⟨h1, h2, h3, h4, h5⟩ := defaultWrappers_spec hmk is (id + 1) rest hr
          refine ⟨by simp [h1], by simp [h2], ?_, ?_, ?_⟩
          · intro x hx
            rcases List.mem_cons.1 hx with rfl | hx
            · exact ⟨Nat.le_refl _, by simp, by simpa using hmk id w.param d hd⟩
            · obtain ⟨a, b, c⟩ := h3 x hx
              exact ⟨by omega, by simp; omega, c⟩
          · rw [List.map_cons, List.nodup_cons]
            refine ⟨fun hm => ?_, h4⟩
            obtain ⟨x, hx, hxid⟩ := List.mem_map.1 hm
            have := (h3 x hx).1
            simp at hxid
            omega
          · intro x hx
            rcases List.mem_cons.1 hx with rfl | hx
            · exact ⟨i, w, rfl, hw, hd⟩
            · exact h5 x hx

theorem defaultWrappers_defined {mk : Nat → Param → Out Dist} (hmk : ∀ id p, mk id p ≠ .ub) {ws : List PWrap} :
    ∀ (is : List Nat) (id : Nat), (∀ i ∈ is, i < ws.length) → defaultWrappers mk ws id is ≠ .ub
  | [], id, _ => by simp [defaultWrappers]
  | i :: is, id, hb => by
    have hi : i < ws.length := hb i (by simp)
    have hw : ws[i]? = some ws[i] := List.getElem?_eq_getElem hi
    have ih := defaultWrappers_defined hmk is (id + 1) (fun x hx => hb x (by simp [hx]))
    unfold defaultWrappers
    rw [hw]
    simp only
    cases hd : mk id ws[i].param with
    | err e => simp
    | ub => exact absurd hd (hmk id _)
    | ok d =>
      rw [Out.bind_ok]
      cases hr : defaultWrappers mk ws (id + 1) is with
      | err e => simp
      | ub => exact absurd hr ih
      | ok r => simp

/-! ## Linking -/

/-- The same wrapper, except for the distribution it points at. -/
def SameParam (w w' : PWrap) : Prop :=
  w'.handle = w.handle ∧ w'.param = w.param ∧ w'.condition = w.condition ∧ w'.parents = w.parents ∧
  w'.children = w.children

theorem linkWrapper_spec (id : Nat) : ∀ (is : List Nat) (j0 : Nat) (ws : List PWrap), is.Nodup →
    (linkWrapper id j0 is ws).length = ws.length ∧
    ∀ (i : Nat) w, ws[i]? = some w → ∃ w', (linkWrapper id j0 is ws)[i]? = some w' ∧ SameParam w w' ∧
      (i ∉ is → w' = w) ∧ (∀ j, is[j]? = some i → w'.dist = id ∧ w'.distIndex = j0 + j)
  | [], j0, ws, _ => ⟨rfl, fun i w hw => ⟨w, hw, ⟨rfl, rfl, rfl, rfl, rfl⟩, fun _ => rfl, by simp⟩⟩
  | x :: is, j0, ws, hn => by
    rw [List.nodup_cons] at hn
    obtain ⟨hl, hget⟩ := linkWrapper_spec id is (j0 + 1)
      (ws.modify x fun w => { w with dist := id, distIndex := j0 }) hn.2
    unfold linkWrapper
    refine ⟨by rw [hl]; simp, fun i w hw => ?_⟩
    by_cases hix : x = i
    · subst hix
      obtain ⟨w', hw', hs, hno, -⟩ := hget x { w with dist := id, distIndex := j0 } (by
        rw [List.getElem?_modify, hw]; simp)
      have := hno hn.1
      subst this
      refine ⟨_, hw', ⟨rfl, rfl, rfl, rfl, rfl⟩, fun h => absurd (by simp) h, ?_⟩
      intro j hj
      cases j with
      | zero => exact ⟨rfl, rfl⟩
      | succ j =>
        simp at hj
        exact absurd (List.mem_of_getElem? hj) hn.1
    · obtain ⟨w', hw', hs, hno, hyes⟩ := hget i w (by rw [List.getElem?_modify, hw]; simp [hix])
      refine ⟨w', hw', hs, fun h => hno (fun hm => h (by simp [hm])), ?_⟩
      intro j hj
      cases j with
      | zero => simp at hj; exact absurd hj hix
      | succ j =>
        simp at hj
        obtain ⟨a, b⟩ := hyes j hj
        exact ⟨a, by omega⟩

theorem SameParam.trans {a b c : PWrap} (h : SameParam a b) (h' : SameParam b c) : SameParam a c :=
  ⟨h'.1.trans h.1, h'.2.1.trans h.2.1, h'.2.2.1.trans h.2.2.1, h'.2.2.2.1.trans h.2.2.2.1,
   h'.2.2.2.2.trans h.2.2.2.2⟩

theorem linkWrappers_spec : ∀ (ds : List DWrap) (ws : List PWrap), (ds.flatMap (·.indexes)).Nodup →
    (linkWrappers ds ws).length = ws.length ∧
    ∀ (i : Nat) w, ws[i]? = some w → ∃ w', (linkWrappers ds ws)[i]? = some w' ∧ SameParam w w' ∧
      (i ∉ ds.flatMap (·.indexes) → w' = w) ∧
      (∀ d ∈ ds, ∀ j, d.indexes[j]? = some i → w'.dist = d.id ∧ w'.distIndex = j)
  | [], ws, _ => ⟨rfl, fun i w hw => ⟨w, hw, ⟨rfl, rfl, rfl, rfl, rfl⟩, fun _ => rfl, by simp⟩⟩
  | d :: ds, ws, hn => by
    rw [List.flatMap_cons, List.nodup_append] at hn
    obtain ⟨hl1, hget1⟩ := linkWrapper_spec d.id d.indexes 0 ws hn.1
    obtain ⟨hl2, hget2⟩ := linkWrappers_spec ds (linkWrapper d.id 0 d.indexes ws) hn.2.1
    unfold linkWrappers
    refine ⟨hl2.trans hl1, fun i w hw => ?_⟩
    obtain ⟨w1, hw1, hs1, hno1, hyes1⟩ := hget1 i w hw
    obtain ⟨w2, hw2, hs2, hno2, hyes2⟩ := hget2 i w1 hw1
    refine ⟨w2, hw2, hs1.trans hs2, ?_, ?_⟩
    · intro h
      rw [List.flatMap_cons, List.mem_append, not_or] at h
      rw [hno2 h.2, hno1 h.1]
    · intro d' hd' j hj
      rcases List.mem_cons.1 hd' with rfl | hd'
      · have hni : i ∉ ds.flatMap (·.indexes) := fun hm =>
          hn.2.2 i (List.mem_of_getElem? hj) i hm rfl
        rw [hno2 hni]
        have := hyes1 j hj
        exact ⟨this.1, by omega⟩
      · exact hyes2 d' hd' j hj

/-! ## The whole redistribution -/

/-- Changing only where parameters find their distribution keeps the tables and the graph. -/
theorem redistributed_tables {mem : BitVec 64 → Param} {s s' : Space} (ht : Tables mem s)
    (hlen : s'.params.length = s.params.length) (he : s'.entries = s.entries)
    (hp : ∀ (i : Nat) w, s.params[i]? = some w → ∃ w', s'.params[i]? = some w' ∧ SameParam w w') :
    Tables mem s' ∧ Spec.conditions s' = Spec.conditions s := by
  have hp' : ∀ (i : Nat) w', s'.params[i]? = some w' → ∃ w, s.params[i]? = some w ∧ SameParam w w' := by
    intro i w' hw'
    have hlt : i < s.params.length := by rw [← hlen]; exact (List.getElem?_eq_some_iff.1 hw').1
    obtain ⟨w2, hw2, hs⟩ := hp i _ (List.getElem?_eq_getElem hlt)
    rw [hw'] at hw2
    exact ⟨_, List.getElem?_eq_getElem hlt, Option.some.inj hw2 ▸ hs⟩
  have hmap : ∀ {β : Type} (f : PWrap → β), (∀ w w', SameParam w w' → f w' = f w) →
      s'.params.map f = s.params.map f := by
    intro β f hf
    apply List.ext_getElem?
    intro i
    rw [List.getElem?_map, List.getElem?_map]
    cases hw' : s'.params[i]? with
    | none =>
      have : s.params[i]? = none := by
        rw [List.getElem?_eq_none_iff] at hw' ⊢
        omega
      rw [this]
    | some w' =>
      obtain ⟨w, hw, hs⟩ := hp' i w' hw'
      rw [hw]
      simp [hf w w' hs]
  refine ⟨⟨⟨by rw [he, hlen]; exact ht.indexed.1, ?_⟩, ?_, ?_⟩, ?_⟩
  · intro i e hi
    rw [he] at hi
    obtain ⟨w, hw, rfl⟩ := ht.indexed.2 i e hi
    obtain ⟨w', hw', hs⟩ := hp i w hw
    exact ⟨w', hw', by rw [hs.1, hs.2.1]⟩
  · rw [hmap (fun w => w.param.name) (fun w w' h => by rw [h.2.1])]
    exact ht.names
  · intro w' hw'
    obtain ⟨i, hlt, hwi⟩ := List.mem_iff_getElem.1 hw'
    obtain ⟨w, hw, hs⟩ := hp' i w' (List.getElem?_eq_some_iff.2 ⟨hlt, hwi⟩)
    rw [hs.2.1, hs.1]
    exact ht.mem w (List.mem_of_getElem? hw)
  · exact hmap (fun w => (w.handle, w.condition)) (fun w w' h => by rw [h.1, h.2.2.1])

theorem condBuilt_iff (s : Space) : CondBuilt s ↔ ∀ x ∈ Spec.conditions s, ∀ e, x.2 = some e → Built e := by
  constructor
  · intro h x hx e he
    obtain ⟨w, hw, rfl⟩ := List.mem_map.1 hx
    exact h w hw e he
  · intro h w hw e he
    exact h (w.handle, w.condition) (List.mem_map.2 ⟨w, hw, rfl⟩) e he

theorem condKnown_iff (s : Space) :
    CondKnown s ↔ ∀ x ∈ Spec.conditions s, ∀ e, x.2 = some e → Known (Spec.conditions s) e := by
  constructor
  · intro h x hx e he
    obtain ⟨w, hw, rfl⟩ := List.mem_map.1 hx
    exact h w hw e he
  · intro h w hw e he
    exact h (w.handle, w.condition) (List.mem_map.2 ⟨w, hw, rfl⟩) e he

theorem Graph.congr {s s' : Space} (hg : Graph s) (hc : Spec.conditions s' = Spec.conditions s)
    (hs : s'.sorted = s.sorted) (ho : s'.graphOk = s.graphOk) : Graph s' :=
  ⟨(condBuilt_iff s').2 (by rw [hc]; exact (condBuilt_iff s).1 hg.built),
   (condKnown_iff s').2 (by rw [hc]; exact (condKnown_iff s).1 hg.known),
   by rw [hc]; exact hg.acyclic, by rw [hc, hs]; exact hg.order, by rw [hc, hs, ho]; exact hg.full⟩

/-- Outcomes of a redistribution on good indexes. -/
theorem plan_spec {mk : Nat → Param → Out Dist} (hmk : OneDimensional mk) {s : Space} (hp : Parts s) {d : Dist}
    {idx : List Nat} (hb : ∀ i ∈ idx, i < s.params.length) (hn : idx.Nodup) (h0 : 0 < idx.length)
    (hd : d.dim = idx.length) :
    (∃ del added left, planDistribution mk s d idx = .ok (del, ⟨s.nextId, d, idx⟩ :: added) ∧
      defaultWrappers mk s.params (s.nextId + 1) left = .ok added ∧
      (∀ id, id ∈ del ↔ ∃ i ∈ idx, ∃ w, s.params[i]? = some w ∧ w.dist = id) ∧
      ((idx ++ left) ++ (s.dists.filter fun w => !del.contains w.id).flatMap (·.indexes)).Perm
        (s.dists.flatMap (·.indexes))) ∨
    (∃ e, planDistribution mk s d idx = .err e ∧ ∃ left, defaultWrappers mk s.params (s.nextId + 1) left = .err e) ∨
    (planDistribution mk s d idx = .ub ∧ ∃ left, (∀ i ∈ left, i < s.params.length) ∧
      defaultWrappers mk s.params (s.nextId + 1) left = .ub) := by
  obtain ⟨del, h1, hdn, hdl, hdm⟩ := toDelete_spec (ws := s.params) idx [] hb List.nodup_nil
  have hdm' : ∀ id, id ∈ del ↔ ∃ i ∈ idx, ∃ w, s.params[i]? = some w ∧ w.dist = id := by
    intro id; rw [hdm]; simp
  have hex : ∀ id ∈ del, ∃ d ∈ s.dists, d.id = id := by
    intro id hid
    obtain ⟨i, -, w, hw, rfl⟩ := (hdm' id).1 hid
    obtain ⟨d, hd, hid, -⟩ := hp.owner hw
    exact ⟨d, hd, hid⟩
  obtain ⟨all, h2, hall⟩ := orphans_spec hp.ids del hdn hex
  have hmemall : ∀ i ∈ idx, i ∈ all := by
    intro i hi
    have hlt : i < s.params.length := hb i hi
    have hw : s.params[i]? = some s.params[i] := List.getElem?_eq_getElem hlt
    obtain ⟨d', hd', hid', hgi⟩ := hp.owner hw
    have hin : d'.id ∈ del := (hdm' _).2 ⟨i, hi, _, hw, hid'.symm⟩
    have : i ∈ all ++ (s.dists.filter fun w => !del.contains w.id).flatMap (·.indexes) :=
      hall.mem_iff.2 (List.mem_flatMap.2 ⟨d', hd', List.mem_of_getElem? hgi⟩)
    rcases List.mem_append.1 this with h | h
    · exact h
    · exfalso
      obtain ⟨d2, hd2, hi2⟩ := List.mem_flatMap.1 h
      obtain ⟨hd2, hnot⟩ := List.mem_filter.1 hd2
      obtain ⟨j, hlt, hj⟩ := List.mem_iff_getElem.1 hi2
      obtain ⟨w2, hw2, hdist, -⟩ := hp.link d2 hd2 j i (List.getElem?_eq_some_iff.2 ⟨hlt, hj⟩)
      rw [hw] at hw2
      have := Option.some.inj hw2
      subst this
      rw [← hdist, ← hid'] at hnot
      simp [hin] at hnot
  obtain ⟨left, h3, hleft⟩ := dropIndexes_spec idx all hn hmemall
  have hperm : ((idx ++ left) ++ (s.dists.filter fun w => !del.contains w.id).flatMap (·.indexes)).Perm
      (s.dists.flatMap (·.indexes)) := (hleft.append_right _).trans hall
  have hlen := (hperm.trans hp.cover).length_eq
  simp only [List.length_append, List.length_range] at hlen
  have halllen := hleft.length_eq
  simp only [List.length_append] at halllen
  have hleftb : ∀ i ∈ left, i < s.params.length := by
    intro i hi
    exact List.mem_range.1 ((hperm.trans hp.cover).mem_iff.1 (by simp [hi]))
  have hplan : planDistribution mk s d idx = (do
      let added ← defaultWrappers mk s.params (s.nextId + 1) left
      if s.params.length < del.length ∨ s.params.length < all.length ∨ s.params.length < added.length + 1
      then .ub
      else .ok (del, ⟨s.nextId, d, idx⟩ :: added)) := by
    unfold planDistribution
    rw [h1, Out.bind_ok, h2, Out.bind_ok, h3, Out.bind_ok]
  rw [hplan]
  cases hdw : defaultWrappers mk s.params (s.nextId + 1) left with
  | err e => exact .inr (.inl ⟨e, rfl, left, hdw⟩)
  | ub => exact .inr (.inr ⟨rfl, left, hleftb, hdw⟩)
  | ok added =>
    have hal := (defaultWrappers_spec hmk left _ added hdw).1
    have hil := nodup_bounded hn hb
    simp at hdl
    rw [Out.bind_ok, if_neg (by omega)]
    exact .inl ⟨del, added, left, rfl, hdw, hdm', hperm⟩

/-- A successful redistribution keeps the partition; nothing else of the parameters changes. -/
theorem setDistribution_spec {mk : Nat → Param → Out Dist} (hmk : OneDimensional mk) {s : Space} (hp : Parts s)
    {d : Dist} {indexes : List Nat} (h0 : 0 < d.dim) (hlen : d.dim ≤ indexes.length) :
    (∃ s', setDistribution mk s d indexes = (s', .ok ()) ∧ Parts s' ∧
      (∀ i ∈ indexes.take d.dim, i < s.params.length) ∧ (indexes.take d.dim).Nodup ∧
      s'.params.length = s.params.length ∧ s'.entries = s.entries ∧ s'.clauses = s.clauses ∧
      s'.graphOk = s.graphOk ∧ s'.sorted = s.sorted ∧
      (∀ (i : Nat) w, s.params[i]? = some w → ∃ w', s'.params[i]? = some w' ∧ SameParam w w') ∧
      (∃ dw ∈ s'.dists, dw.dist = d ∧ dw.indexes = indexes.take d.dim) ∧
      (∀ dw ∈ s'.dists, dw ∈ s.dists ∨ dw.dist = d ∧ dw.indexes = indexes.take d.dim ∨
        ∃ i w, dw.indexes = [i] ∧ s.params[i]? = some w ∧ mk dw.id w.param = .ok dw.dist)) ∨
    (setDistribution mk s d indexes = (s, .err .invalidValue) ∧
      ((∃ i ∈ indexes.take d.dim, s.params.length ≤ i) ∨ ¬ (indexes.take d.dim).Nodup)) ∨
    (∃ e is, setDistribution mk s d indexes = (s, .err e) ∧ defaultWrappers mk s.params (s.nextId + 1) is = .err e) ∨
    (∃ is, setDistribution mk s d indexes = (s, .ub) ∧ (∀ i ∈ is, i < s.params.length) ∧
      defaultWrappers mk s.params (s.nextId + 1) is = .ub) := by
  unfold setDistribution
  rw [if_neg (by omega)]
  by_cases hbad : badIndexes s.params.length (indexes.take d.dim) = true
  · rw [if_pos hbad]
    refine .inr (.inl ⟨rfl, ?_⟩)
    apply Classical.byContradiction
    intro hno
    rw [not_or] at hno
    have : badIndexes s.params.length (indexes.take d.dim) = false := badIndexes_false.2
      ⟨fun i hi => Classical.byContradiction fun h => hno.1 ⟨i, hi, by omega⟩, Classical.not_not.1 hno.2⟩
    rw [hbad] at this
    exact absurd this (by simp)
  · rw [if_neg hbad]
    have hgood := badIndexes_false.1 (by simpa using hbad)
    have hl : (indexes.take d.dim).length = d.dim := by simp; omega
    rcases plan_spec hmk hp hgood.1 hgood.2 (by omega) hl.symm with
      ⟨del, added, left, hplan, hdw, hdel, hperm⟩ | ⟨e, he, left, hle⟩ | ⟨hub, left, hlb, hle⟩
    · rw [hplan]
      simp only
      obtain ⟨ha1, ha2, ha3, ha4, ha5⟩ := defaultWrappers_spec hmk left _ added hdw
      generalize hidx : indexes.take d.dim = idx at *
      have hfm : ((⟨s.nextId, d, idx⟩ : DWrap) :: added).flatMap (·.indexes) = idx ++ left := by
        rw [List.flatMap_cons, ha2]
      have hnodup2 : ((idx ++ left) ++ (s.dists.filter fun w => !del.contains w.id).flatMap (·.indexes)).Nodup :=
        hperm.nodup_iff.2 hp.nodup
      have hn2 := List.nodup_append.1 hnodup2
      obtain ⟨hll, hlget⟩ := linkWrappers_spec (⟨s.nextId, d, idx⟩ :: added) s.params (by rw [hfm]; exact hn2.1)
      refine .inl ⟨_, rfl, ⟨?_, ?_, ?_, ?_, ?_⟩, hgood.1, hgood.2, hll, rfl, rfl, rfl, rfl, ?_, ?_, ?_⟩
      · -- ids
        simp only [List.map_append]
        rw [List.nodup_append]
        refine ⟨hp.ids.sublist (List.filter_sublist.map _), ?_, ?_⟩
        · rw [List.map_cons, List.nodup_cons]
          refine ⟨fun hm => ?_, ha4⟩
          obtain ⟨x, hx, hxid⟩ := List.mem_map.1 hm
          have := (ha3 x hx).1
          simp at hxid
          omega
        · intro a ha b hb hab
          obtain ⟨x, hx, rfl⟩ := List.mem_map.1 ha
          have := hp.fresh x (List.mem_filter.1 hx).1
          obtain ⟨y, hy, rfl⟩ := List.mem_map.1 hb
          rcases List.mem_cons.1 hy with rfl | hy
          · simp at hab; omega
          · have := (ha3 y hy).1
            omega
      · -- fresh
        intro x hx
        simp only [List.length_cons]
        rcases List.mem_append.1 hx with hx | hx
        · have := hp.fresh x (List.mem_filter.1 hx).1
          omega
        · rcases List.mem_cons.1 hx with rfl | hx
          · simp
          · have := (ha3 x hx).2.1
            omega
      · -- cover
        simp only [List.flatMap_append]
        rw [hfm, hll]
        refine List.Perm.trans ?_ hp.cover
        exact List.perm_append_comm.trans hperm
      · -- link
        intro x hx j i hij
        simp only at hx ⊢
        rcases List.mem_append.1 hx with hx | hx
        · obtain ⟨hxs, hnot⟩ := List.mem_filter.1 hx
          obtain ⟨w, hw, h1, h2⟩ := hp.link x hxs j i hij
          obtain ⟨w', hw', hsame, hno, -⟩ := hlget i w hw
          have : w' = w := hno (by
            rw [hfm]
            intro hm
            exact hn2.2.2 i hm i (List.mem_flatMap.2 ⟨x, hx, List.mem_of_getElem? hij⟩) rfl)
          subst this
          exact ⟨w', hw', h1, h2⟩
        · have hilt : i < s.params.length := by
            have hmem : i ∈ idx ++ left := by
              rw [← hfm]
              exact List.mem_flatMap.2 ⟨x, hx, List.mem_of_getElem? hij⟩
            exact List.mem_range.1 ((hperm.trans hp.cover).mem_iff.1 (List.mem_append.2 (.inl hmem)))
          obtain ⟨w', hw', -, -, hyes⟩ := hlget i _ (List.getElem?_eq_getElem hilt)
          exact ⟨w', hw', hyes x hx j hij⟩
      · -- dim
        intro x hx
        rcases List.mem_append.1 hx with hx | hx
        · exact hp.dim x (List.mem_filter.1 hx).1
        · rcases List.mem_cons.1 hx with rfl | hx
          · exact hl.symm
          · exact (ha3 x hx).2.2
      · intro i w hw
        obtain ⟨w', hw', hs, -⟩ := hlget i w hw
        exact ⟨w', hw', hs⟩
      · exact ⟨⟨s.nextId, d, idx⟩, by simp, rfl, rfl⟩
      · intro dw hdw'
        rcases List.mem_append.1 hdw' with h | h
        · exact .inl (List.mem_filter.1 h).1
        · rcases List.mem_cons.1 h with rfl | h
          · exact .inr (.inl ⟨rfl, rfl⟩)
          · exact .inr (.inr (ha5 dw h))
    · rw [he]
      exact .inr (.inr (.inl ⟨e, left, rfl, hle⟩))
    · rw [hub]
      exact .inr (.inr (.inr ⟨left, rfl, hlb, hle⟩))

theorem push_parts {s : Space} (hp : Parts s) {h : BitVec 64} {p : Param} {d : Dist} (hd : d.dim = 1) :
    Parts (s.pushParameter h p d) := by
  refine ⟨?_, ?_, ?_, ?_, ?_⟩
  · simp only [Space.pushParameter, List.map_append, List.map_cons, List.map_nil]
    rw [List.nodup_append]
    refine ⟨hp.ids, by simp, ?_⟩
    intro a ha b hb hab
    obtain ⟨x, hx, rfl⟩ := List.mem_map.1 ha
    have := hp.fresh x hx
    simp at hb
    omega
  · intro x hx
    simp only [Space.pushParameter, List.mem_append, List.mem_cons, List.not_mem_nil, or_false] at hx ⊢
    rcases hx with hx | rfl
    · have := hp.fresh x hx; omega
    · simp
  · simp only [Space.pushParameter, List.flatMap_append, List.length_append, List.length_cons, List.length_nil]
    rw [List.range_succ]
    exact hp.cover.append_right _
  · intro x hx j i hij
    simp only [Space.pushParameter, List.mem_append, List.mem_cons, List.not_mem_nil, or_false] at hx ⊢
    rcases hx with hx | rfl
    · obtain ⟨w, hw, h1, h2⟩ := hp.link x hx j i hij
      exact ⟨w, by rw [List.getElem?_append_left (List.getElem?_eq_some_iff.1 hw).1]; exact hw, h1, h2⟩
    · obtain ⟨hlt, he⟩ := List.getElem?_eq_some_iff.1 hij
      simp at hlt
      subst hlt
      simp at he
      subst he
      exact ⟨_, List.getElem?_concat_length, rfl, rfl⟩
  · intro x hx
    simp only [Space.pushParameter, List.mem_append, List.mem_cons, List.not_mem_nil, or_false] at hx
    rcases hx with hx | rfl
    · exact hp.dim x hx
    · simpa using hd

theorem SameSpace.parts {s s' : Space} (h : SameSpace s s') (hp : Parts s) : Parts s' := by
  refine ⟨by rw [h.dists]; exact hp.ids, by rw [h.dists, h.nextId]; exact hp.fresh,
    by rw [h.dists, h.length]; exact hp.cover, ?_, by rw [h.dists]; exact hp.dim⟩
  intro d hd j i hij
  rw [h.dists] at hd
  obtain ⟨w, hw, h1, h2⟩ := hp.link d hd j i hij
  obtain ⟨w', hw', hc⟩ := core_some h.params.symm hw
  have hf := core_fields hc
  exact ⟨w', hw', hf.2.2.1.symm.trans h1, hf.2.2.2.1.symm.trans h2⟩

theorem withCondition_parts {s : Space} (hp : Parts s) (i : Nat) (c : Option Expr) :
    Parts (s.withCondition i c) := by
  refine ⟨hp.ids, hp.fresh, ?_, ?_, hp.dim⟩
  · have : (s.withCondition i c).params.length = s.params.length := by simp [Space.withCondition]
    rw [this]
    exact hp.cover
  · intro d hd j k hjk
    obtain ⟨w, hw, h1, h2⟩ := hp.link d hd j k hjk
    refine ⟨if i = k then { w with condition := c } else w, by rw [withCondition_get, hw]; rfl, ?_, ?_⟩
    · split <;> exact h1
    · split <;> exact h2

end CCS
