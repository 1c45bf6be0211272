import Verif.Spec.Binding
import Verif.Lemmas.Datum
import Verif.Lemmas.Param
import Verif.Lemmas.SpaceRun

namespace CCS

open Spec

/-! ## Orders -/

/-- Compare with `c1`, and with `c2` what `c1` finds equal. -/
def thenCmp {α : Type} (c1 c2 : α → α → Ordering) (a b : α) : Ordering :=
  match c1 a b with
  | .eq => c2 a b
  | r => r

theorem thenCmp_total {α : Type} {c1 c2 : α → α → Ordering} {s1 s2 : α → α → Prop} (h1 : TotalOrder α c1 s1)
    (eq2 : ∀ a b, s1 a b → (c2 a b = .eq ↔ s2 a b)) (swap2 : ∀ a b, s1 a b → c2 b a = (c2 a b).swap)
    (lt2 : ∀ a b c, s1 a b → s1 b c → c2 a b = .lt → c2 b c = .lt → c2 a c = .lt)
    (congr2 : ∀ a b c, s1 a b → s1 b c → s2 a b → c2 a c = c2 b c) :
    TotalOrder α (thenCmp c1 c2) (fun a b => s1 a b ∧ s2 a b) := by
  have cl : ∀ a b c, s1 a b → c1 a c = c1 b c := by
    intro a b c h
    have hab := (h1.eq_iff a b).2 h
    have hba : c1 b a = .eq := by rw [h1.swap a b, hab]; rfl
    have t1 := h1.trans a b c (by rw [hab]; decide)
    have t2 := h1.trans b a c (by rw [hba]; decide)
    have t3 := fun h => h1.trans c a b h (by rw [hab]; decide)
    have t4 := fun h => h1.trans c b a h (by rw [hba]; decide)
    rw [h1.swap a c, h1.swap b c] at *
    cases ha : c1 a c <;> cases hb : c1 b c <;> simp_all
  apply totalOrder_of_lt
  · intro a b
    unfold thenCmp
    cases h : c1 a b with
    | eq => have hs := (h1.eq_iff a b).1 h; simp only [eq2 a b hs]; exact ⟨fun x => ⟨hs, x⟩, fun x => x.2⟩
    | lt => simp only [reduceCtorEq, false_iff]; rintro ⟨hs, -⟩; rw [(h1.eq_iff a b).2 hs] at h; cases h
    | gt => simp only [reduceCtorEq, false_iff]; rintro ⟨hs, -⟩; rw [(h1.eq_iff a b).2 hs] at h; cases h
  · intro a b
    unfold thenCmp
    rw [h1.swap a b]
    cases h : c1 a b with
    | eq => exact swap2 a b ((h1.eq_iff a b).1 h)
    | lt => rfl
    | gt => rfl
  · intro a b c hab hbc
    unfold thenCmp at *
    cases h : c1 a b with
    | gt => rw [h] at hab; cases hab
    | eq =>
      have hs := (h1.eq_iff a b).1 h
      rw [cl a b c hs]
      rw [h] at hab
      cases h' : c1 b c with
      | gt => rw [h'] at hbc; cases hbc
      | lt => rfl
      | eq => rw [h'] at hbc; exact lt2 a b c hs ((h1.eq_iff b c).1 h') hab hbc
    | lt =>
      cases h' : c1 b c with
      | gt => rw [h'] at hbc; cases hbc
      | lt => rw [h1.trans_lt a b c h h']
      | eq =>
        have hcb : s1 c b := (h1.eq_iff c b).1 (by rw [h1.swap b c, h']; rfl)
        rw [h1.swap c a, cl c b a hcb, h1.swap a b, h]; rfl
  · rintro a b c ⟨hs, h2⟩
    unfold thenCmp
    rw [cl a b c hs]
    cases h : c1 b c with
    | eq => exact congr2 a b c hs ((h1.eq_iff b c).1 h) h2
    | lt => rfl
    | gt => rfl

/-- The unconditional form. -/
theorem thenCmp_both {α : Type} {c1 c2 : α → α → Ordering} {s1 s2 : α → α → Prop} (h1 : TotalOrder α c1 s1)
    (h2 : TotalOrder α c2 s2) : TotalOrder α (thenCmp c1 c2) (fun a b => s1 a b ∧ s2 a b) := by
  refine thenCmp_total h1 (fun a b _ => h2.eq_iff a b) (fun a b _ => h2.swap a b)
    (fun a b c _ _ => h2.trans_lt a b c) (fun a b c _ _ h => ?_)
  have hab := (h2.eq_iff a b).2 h
  have hba : c2 b a = .eq := by rw [h2.swap a b, hab]; rfl
  have t1 := h2.trans a b c (by rw [hab]; decide)
  have t2 := h2.trans b a c (by rw [hba]; decide)
  have t3 := fun h => h2.trans c a b h (by rw [hab]; decide)
  have t4 := fun h => h2.trans c b a h (by rw [hba]; decide)
  rw [h2.swap a c, h2.swap b c] at *
  cases ha : c2 a c <;> cases hb : c2 b c <;> simp_all

theorem _root_.CCS.Spec.TotalOrder.comap {α β : Type} {cmp : β → β → Ordering} {same : β → β → Prop} (h : TotalOrder β cmp same)
    (f : α → β) : TotalOrder α (fun a b => cmp (f a) (f b)) (fun a b => same (f a) (f b)) :=
  ⟨fun a b => h.eq_iff _ _, fun a b => h.swap _ _, fun a b c => h.trans _ _ _, fun a b c => h.trans_lt _ _ _⟩

theorem natCmp_total : TotalOrder Nat natCmp (· = ·) := by
  apply totalOrder_of_lt
  · intro a b; unfold natCmp; repeat' split
    all_goals simp
    all_goals omega
  · intro a b; unfold natCmp; split <;> split <;> simp <;> omega
  · intro a b c; unfold natCmp; repeat' split
    all_goals simp
    all_goals omega
  · rintro a b c rfl; rfl

/-- `result` fields are compared as signed numbers. -/
def resultCmp (a b : BitVec 32) : Ordering :=
  if a.toInt < b.toInt then .lt else if b.toInt < a.toInt then .gt else .eq

theorem resultCmp_total : TotalOrder (BitVec 32) resultCmp (· = ·) := by
  apply totalOrder_of_lt
  · intro a b
    unfold resultCmp
    rw [← BitVec.toInt_inj]
    repeat' split
    all_goals simp
    all_goals omega
  · intro a b; unfold resultCmp; split <;> split <;> simp <;> omega
  · intro a b c; unfold resultCmp; repeat' split
    all_goals simp
    all_goals omega
  · rintro a b c rfl; rfl

section
variable (little : Bool)

theorem valuesCmp_eq_iff : ∀ (a b : List Datum), a.length = b.length →
    (valuesCmp little a b = .eq ↔ a.map (·.v) = b.map (·.v))
  | [], [], _ => by simp [valuesCmp]
  | x :: a, y :: b, h => by
    have ih := valuesCmp_eq_iff a b (by simpa using h)
    unfold valuesCmp
    cases hc : datumCmp little x.v y.v with
    | eq => have := (datumCmp_eq_iff little _ _).1 hc; simp [ih, this]
    | lt => have : x.v ≠ y.v := fun e => by rw [(datumCmp_eq_iff little _ _).2 e] at hc; cases hc
            simp [this]
    | gt => have : x.v ≠ y.v := fun e => by rw [(datumCmp_eq_iff little _ _).2 e] at hc; cases hc
            simp [this]

theorem valuesCmp_swap : ∀ (a b : List Datum), valuesCmp little b a = (valuesCmp little a b).swap
  | [], [] => rfl
  | [], _ :: _ => rfl
  | _ :: _, [] => rfl
  | x :: a, y :: b => by
    unfold valuesCmp
    rw [(datumCmp_total little).swap x.v y.v]
    cases datumCmp little x.v y.v with
    | eq => exact valuesCmp_swap a b
    | lt => rfl
    | gt => rfl

theorem valuesCmp_lt : ∀ (a b c : List Datum), a.length = b.length → b.length = c.length →
    valuesCmp little a b = .lt → valuesCmp little b c = .lt → valuesCmp little a c = .lt
  | [], [], [], _, _, h, _ => by simp [valuesCmp] at h
  | x :: a, y :: b, z :: c, h1, h2, h3, h4 => by
    unfold valuesCmp at *
    have hd := datumCmp_total little
    cases hxy : datumCmp little x.v y.v with
    | gt => rw [hxy] at h3; cases h3
    | eq =>
      rw [(datumCmp_eq_iff little _ _).1 hxy]
      rw [hxy] at h3
      cases hyz : datumCmp little y.v z.v with
      | gt => rw [hyz] at h4; cases h4
      | lt => rfl
      | eq => rw [hyz] at h4
              exact valuesCmp_lt a b c (by simpa using h1) (by simpa using h2) h3 h4
    | lt =>
      cases hyz : datumCmp little y.v z.v with
      | gt => rw [hyz] at h4; cases h4
      | lt => rw [hd.trans_lt _ _ _ hxy hyz]
      | eq => rw [← (datumCmp_eq_iff little _ _).1 hyz, hxy]

theorem valuesCmp_congr : ∀ (a b c : List Datum), a.map (·.v) = b.map (·.v) →
    valuesCmp little a c = valuesCmp little b c
  | [], [], _, _ => rfl
  | [], _ :: _, _, h => by simp at h
  | _ :: _, [], _, h => by simp at h
  | x :: a, y :: b, [], _ => rfl
  | x :: a, y :: b, z :: c, h => by
    unfold valuesCmp
    simp only [List.map_cons, List.cons.injEq] at h
    rw [h.1, valuesCmp_congr a b c h.2]

/-- Comparison of the bindings themselves, without the shortcut on addresses. -/
def contentCmp : Binding → Binding → Ordering :=
  thenCmp (fun a b => natCmp a.context.toNat b.context.toNat)
    (thenCmp (fun a b => natCmp a.values.length b.values.length) (fun a b => valuesCmp little a.values b.values))

theorem contentCmp_total : TotalOrder Binding (contentCmp little) SameBinding := by
  have hl := (natCmp_total.comap fun b : Binding => b.values.length)
  have hv : TotalOrder Binding _ _ := thenCmp_total (c2 := fun a b => valuesCmp little a.values b.values)
    (s2 := fun a b => a.values.map (·.v) = b.values.map (·.v)) hl
    (fun a b h => valuesCmp_eq_iff little _ _ h) (fun a b _ => valuesCmp_swap little _ _)
    (fun a b c h1 h2 => valuesCmp_lt little _ _ _ h1 h2) (fun a b c _ _ h => valuesCmp_congr little _ _ _ h)
  have := thenCmp_both (natCmp_total.comap fun b : Binding => b.context.toNat) hv
  refine ⟨fun a b => (this.eq_iff a b).trans ?_, this.swap, this.trans, this.trans_lt⟩
  unfold SameBinding
  rw [BitVec.toNat_inj]
  refine and_congr_right fun _ => ⟨fun h => h.2, fun h => ⟨?_, h⟩⟩
  simpa using congrArg List.length h

theorem bindingCmp_content (heap : BitVec 64 → Binding) (x y : BitVec 64) :
    bindingCmp little heap x y = contentCmp little (heap x) (heap y) := by
  unfold bindingCmp
  by_cases h : x = y
  · rw [if_pos h, h]
    exact (((contentCmp_total little).eq_iff _ _).2 ⟨rfl, rfl⟩).symm
  · rw [if_neg h]; rfl

theorem bindingCmp_total (heap : BitVec 64 → Binding) :
    TotalOrder (BitVec 64) (bindingCmp little heap) (fun x y => SameBinding (heap x) (heap y)) := by
  rw [show bindingCmp little heap = fun x y => contentCmp little (heap x) (heap y) from
    funext fun x => funext fun y => bindingCmp_content little heap x y]
  exact (contentCmp_total little).comap heap

theorem SameBinding.refl (a : Binding) : SameBinding a a := ⟨rfl, rfl⟩

theorem evaluationCmp_total (evals : BitVec 64 → Evaluation) (configs : BitVec 64 → Binding) :
    TotalOrder (BitVec 64) (evaluationCmp little evals configs) (fun x y =>
      SameBinding (evals x).binding (evals y).binding ∧ (evals x).result = (evals y).result ∧
      SameBinding (configs (evals x).configuration) (configs (evals y).configuration)) := by
  have h := thenCmp_both (bindingCmp_total little fun a => (evals a).binding)
    (thenCmp_both (resultCmp_total.comap fun a => (evals a).result)
      ((bindingCmp_total little configs).comap fun a => (evals a).configuration))
  rw [show evaluationCmp little evals configs = _ from ?_]
  · exact h
  · funext x y
    unfold evaluationCmp
    by_cases hxy : x = y
    · rw [if_pos hxy, hxy]
      exact ((h.eq_iff y y).2 ⟨⟨rfl, rfl⟩, rfl, ⟨rfl, rfl⟩⟩).symm
    · rw [if_neg hxy]; rfl

theorem featuresEvaluationCmp_total (evals : BitVec 64 → FeaturesEvaluation) (configs feats : BitVec 64 → Binding) :
    TotalOrder (BitVec 64) (featuresEvaluationCmp little evals configs feats) (fun x y =>
      (SameBinding (evals x).evaluation.binding (evals y).evaluation.binding ∧
        (evals x).evaluation.result = (evals y).evaluation.result ∧
        SameBinding (configs (evals x).evaluation.configuration) (configs (evals y).evaluation.configuration)) ∧
      SameBinding (feats (evals x).features) (feats (evals y).features)) := by
  have h := thenCmp_both (evaluationCmp_total little (fun a => (evals a).evaluation) configs)
    ((bindingCmp_total little feats).comap fun a => (evals a).features)
  rw [show featuresEvaluationCmp little evals configs feats = _ from ?_]
  · exact h
  · funext x y
    unfold featuresEvaluationCmp
    by_cases hxy : x = y
    · rw [if_pos hxy, hxy]
      exact ((h.eq_iff y y).2 ⟨⟨⟨rfl, rfl⟩, rfl, ⟨rfl, rfl⟩⟩, ⟨rfl, rfl⟩⟩).symm
    · rw [if_neg hxy]; rfl

theorem hashValues_congr (jen : Bytes → BitVec 32) : ∀ (a b : List Datum) (h : BitVec 32),
    a.map (·.v) = b.map (·.v) → hashValues jen little h a = hashValues jen little h b
  | [], [], _, _ => rfl
  | [], _ :: _, _, h => by simp at h
  | _ :: _, [], _, h => by simp at h
  | x :: a, y :: b, _, h => by
    simp only [List.map_cons, List.cons.injEq] at h
    unfold hashValues
    rw [h.1]
    exact hashValues_congr jen a b _ h.2

theorem bindingHash_congr (jen : Bytes → BitVec 32) {a b : Binding} (h : SameBinding a b) :
    bindingHash jen little a = bindingHash jen little b := by
  unfold bindingHash
  have : a.values.length = b.values.length := by simpa using congrArg List.length h.2
  rw [h.1, this]
  exact hashValues_congr little jen _ _ _ h.2

end

/-! ## Contexts -/

/-- The hash tables of a context describe its parameters, which have distinct names and handles. -/
structure Table (c : Ctx) : Prop where
  length : c.entries.length = c.params.length
  entry : ∀ (i : Nat) h p, Holds c i h p → c.entries[i]? = some ⟨h, p.name, i⟩
  names : (c.params.map (·.2.name)).Nodup
  handles : (c.params.map (·.1)).Nodup

theorem Table.of_entry {c : Ctx} (ht : Table c) {i : Nat} {e : HashEntry} (he : c.entries[i]? = some e) :
    ∃ h p, Holds c i h p ∧ e = ⟨h, p.name, i⟩ := by
  have hi : i < c.params.length := by rw [← ht.length]; exact (List.getElem?_eq_some_iff.1 he).1
  have hp : Holds c i c.params[i].1 c.params[i].2 := List.getElem?_eq_getElem hi
  exact ⟨_, _, hp, Option.some.inj (he.symm.trans (ht.entry i _ _ hp))⟩

theorem grown_table {mem : BitVec 64 → Param} {c : Ctx} (hg : Grown mem c) :
    Table c ∧ ∀ q ∈ c.params, q.2 = mem q.1 := by
  induction hg with
  | empty => exact ⟨⟨rfl, fun i h p hp => by simp [Holds, Ctx.empty] at hp, List.nodup_nil, List.nodup_nil⟩,
      fun q hq => by simp [Ctx.empty] at hq⟩
  | @add c h hg ih =>
    obtain ⟨ht, hm⟩ := ih
    unfold Ctx.add
    split
    · exact ⟨ht, hm⟩
    · rename_i hno
      have hfree : ∀ q ∈ c.params, q.2.name ≠ (mem h).name := by
        intro q hq heq
        obtain ⟨i, hi, rfl⟩ := List.mem_iff_getElem.1 hq
        have he := ht.entry i _ _ (List.getElem?_eq_getElem hi)
        refine hno (List.any_eq_true.2 ⟨_, List.mem_of_getElem? he, ?_⟩)
        simpa using heq
      refine ⟨⟨by simp [ht.length], fun i h' p hp => ?_, ?_, ?_⟩, fun q hq => ?_⟩
      · unfold Holds at hp
        simp only at hp ⊢
        rw [List.getElem?_append] at hp ⊢
        rw [ht.length]
        split at hp
        · rename_i hi
          rw [if_pos hi]; exact ht.entry i _ _ hp
        · rename_i hi
          rw [if_neg hi]
          have h0 : i - c.params.length = 0 := by
            have := (List.getElem?_eq_some_iff.1 hp).1
            simp at this; omega
          rw [h0] at hp ⊢
          simp only [List.getElem?_cons_zero, Option.some.injEq, Prod.mk.injEq] at hp ⊢
          obtain ⟨rfl, rfl⟩ := hp
          congr 1; omega
      · simp only [List.map_append, List.map_cons, List.map_nil]
        rw [List.nodup_append]
        refine ⟨ht.names, by simp, ?_⟩
        intro a ha b hb
        simp only [List.mem_singleton] at hb
        obtain ⟨q, hq, rfl⟩ := List.mem_map.1 ha
        rw [hb]; exact hfree q hq
      · simp only [List.map_append, List.map_cons, List.map_nil]
        rw [List.nodup_append]
        refine ⟨ht.handles, by simp, ?_⟩
        intro a ha b hb
        simp only [List.mem_singleton] at hb
        obtain ⟨q, hq, rfl⟩ := List.mem_map.1 ha
        rw [hb]
        intro heq
        exact hfree q hq (by rw [hm q hq, heq])
      · simp only [List.mem_append, List.mem_singleton] at hq
        rcases hq with hq | rfl
        · exact hm q hq
        · rfl

theorem good_ctx {mem : BitVec 64 → Param} {s : Space} (hg : Good mem s) : Table s.ctx := by
  have ht := hg.tables
  refine ⟨by simp [Space.ctx, ht.indexed.1], fun i h p hp => ?_, ?_, ?_⟩
  · unfold Holds Space.ctx at hp
    simp only [List.getElem?_map, Option.map_eq_some_iff, Prod.mk.injEq] at hp
    obtain ⟨w, hw, rfl, rfl⟩ := hp
    exact ht.indexed.entry hw
  · have := ht.names
    simpa [Space.ctx, List.map_map, Function.comp_def] using this
  · have := ht.handles
    simpa [Space.ctx, Space.handles, List.map_map, Function.comp_def] using this

theorem Table.indexByName {c : Ctx} (ht : Table c) (n : Bytes) :
    (∃ i h p, Holds c i h p ∧ p.name = n ∧ c.indexByName n = .ok i) ∨
    ((∀ i h p, Holds c i h p → p.name ≠ n) ∧ c.indexByName n = .err .invalidName) := by
  unfold Ctx.indexByName
  cases hf : c.entries.find? (fun e => decide (e.name = n)) with
  | some e =>
    have he := List.find?_some hf
    obtain ⟨i, hlt, hei⟩ := List.mem_iff_getElem.1 (List.mem_of_find?_eq_some hf)
    obtain ⟨h, p, hp, hee⟩ := ht.of_entry (List.getElem?_eq_some_iff.2 ⟨hlt, hei⟩)
    exact .inl ⟨i, h, p, hp, by rw [hee] at he; simpa using he, by rw [hee]⟩
  | none =>
    refine .inr ⟨fun i h p hp heq => ?_, rfl⟩
    have := List.find?_eq_none.1 hf _ (List.mem_of_getElem? (ht.entry i h p hp))
    simp [heq] at this

theorem Table.index {c : Ctx} (ht : Table c) (h : BitVec 64) :
    (∃ i p, Holds c i h p ∧ c.index h = .ok i) ∨
    ((∀ i p, ¬ Holds c i h p) ∧ c.index h = .err .invalidParameter) := by
  unfold Ctx.index entryIndex
  cases hf : c.entries.find? (fun e => decide (e.handle = h)) with
  | some e =>
    have he := List.find?_some hf
    obtain ⟨i, hlt, hei⟩ := List.mem_iff_getElem.1 (List.mem_of_find?_eq_some hf)
    obtain ⟨h', p, hp, hee⟩ := ht.of_entry (List.getElem?_eq_some_iff.2 ⟨hlt, hei⟩)
    have : h' = h := by rw [hee] at he; simpa using he
    exact .inl ⟨i, p, this ▸ hp, by rw [hee]⟩
  | none =>
    refine .inr ⟨fun i p hp => ?_, rfl⟩
    have := List.find?_eq_none.1 hf _ (List.mem_of_getElem? (ht.entry i h p hp))
    simp at this

theorem Table.name_inj {c : Ctx} (ht : Table c) {i j : Nat} {h h' : BitVec 64} {p p' : Param}
    (hi : Holds c i h p) (hj : Holds c j h' p') (hn : p.name = p'.name) : i = j := by
  unfold Holds at hi hj
  refine nodup_get ht.names (x := p.name) ?_ ?_
  · simp [hi]
  · simp [hj, hn]

theorem Table.handle_inj {c : Ctx} (ht : Table c) {i j : Nat} {h : BitVec 64} {p p' : Param}
    (hi : Holds c i h p) (hj : Holds c j h p') : i = j := by
  unfold Holds at hi hj
  refine nodup_get ht.handles (x := h) ?_ ?_
  · simp [hi]
  · simp [hj]

/-! ## Writing -/

section
variable (jen : Bytes → BitVec 32) (little : Bool)

theorem admit_cases (c : Ctx) {i : Nat} (d : Datum) (hi : i < c.params.length) (hl : c.params.length < 4294967296) :
    (Accepts c i d ∧ ∃ d', c.admit jen little i d = .ok d' ∧ d'.v = d.v ∧ (d.transient = false → d' = d)) ∨
    (¬ Accepts c i d ∧ d.transient = true ∧ c.admit jen little i d = .err .invalidValue) := by
  unfold Ctx.admit
  cases ht : d.transient with
  | false => exact .inl ⟨fun h => (by rw [ht] at h; cases h), d, by simp, rfl, fun _ => rfl⟩
  | true =>
    have hu : toUint i = i := by unfold toUint; omega
    have hp : Holds c i c.params[i].1 c.params[i].2 := List.getElem?_eq_getElem hi
    rw [if_pos rfl]
    unfold Ctx.validate
    rw [hu, List.getElem?_eq_getElem hi]
    simp only
    rcases validateValue_cases (jen := jen) (little := little) c.params[i].2 d with ⟨hleg, h1, h2⟩ | ⟨hno, h1⟩
    · refine .inl ⟨fun _ => ⟨_, _, hp, hleg⟩, (validateValue jen little c.params[i].2 d).2, ?_, h2, fun h => by cases h⟩
      rcases hv : validateValue jen little c.params[i].2 d with ⟨b, d'⟩
      rw [hv] at h1
      cases h1; rfl
    · refine .inr ⟨fun h => ?_, trivial, by rw [h1]⟩
      obtain ⟨h', p', hp', hleg⟩ := h ht
      unfold Holds at hp hp'
      rw [hp] at hp'
      cases hp'
      exact hno hleg

/-- The loop of a bulk write: everything, or the values up to the first that is not accepted. -/
theorem setLoop_spec (c : Ctx) (hl : c.params.length < 4294967296) : ∀ (ds vs : List Datum) (i : Nat),
    i + ds.length = vs.length → vs.length ≤ c.params.length →
    ∃ vs' r, setLoop jen little c i ds vs = (vs', r) ∧ vs'.length = vs.length ∧
      (∀ j, j < i → vs'[j]? = vs[j]?) ∧
      ((r = .ok () ∧ ∀ (j : Nat) d, ds[j]? = some d → Accepts c (i + j) d ∧ ∃ d', vs'[i + j]? = some d' ∧ d'.v = d.v ∧
          (d.transient = false → d' = d)) ∨
       (r = .err .invalidValue ∧ ∃ (k : Nat) (dk : Datum), ds[k]? = some dk ∧ ¬ Accepts c (i + k) dk ∧
          (∀ (j : Nat) d, j < k → ds[j]? = some d → Accepts c (i + j) d ∧ ∃ d', vs'[i + j]? = some d' ∧ d'.v = d.v ∧
            (d.transient = false → d' = d)) ∧
          ∀ j, i + k ≤ j → vs'[j]? = vs[j]?))
  | [], vs, i, _, _ => ⟨vs, .ok (), rfl, rfl, fun _ _ => rfl, .inl ⟨rfl, by simp⟩⟩
  | d :: ds, vs, i, h, hle => by
    simp only [List.length_cons] at h
    unfold setLoop
    rcases admit_cases jen little c d (i := i) (by omega) hl with ⟨ha, d', hd, hv, hnt⟩ | ⟨hna, -, hd⟩
    · rw [hd]
      simp only
      obtain ⟨vs', r, he, hlen, hlow, hrest⟩ := setLoop_spec c hl ds (vs.set i d') (i + 1)
        (by rw [List.length_set]; omega) (by rw [List.length_set]; omega)
      rw [List.length_set] at hlen
      have hi' : vs'[i]? = some d' := by
        rw [hlow i (by omega), List.getElem?_set_self (by omega)]
      refine ⟨vs', r, he, hlen, fun j hj => ?_, ?_⟩
      · rw [hlow j (by omega), List.getElem?_set_ne (by omega)]
      · rcases hrest with ⟨hr, hall⟩ | ⟨hr, k, dk, hk, hnk, hbefore, hafter⟩
        · refine .inl ⟨hr, fun j e hj => ?_⟩
          cases j with
          | zero => simp only [List.getElem?_cons_zero, Option.some.injEq] at hj; subst hj
                    exact ⟨ha, d', hi', hv, hnt⟩
          | succ j => simp only [List.getElem?_cons_succ] at hj
                      have := hall j e hj
                      rw [show i + 1 + j = i + (j + 1) by omega] at this
                      exact this
        · refine .inr ⟨hr, k + 1, dk, by simpa using hk, by rw [show i + (k + 1) = i + 1 + k by omega]; exact hnk,
            fun j e hjk hj => ?_, fun j hj => ?_⟩
          · cases j with
            | zero => simp only [List.getElem?_cons_zero, Option.some.injEq] at hj; subst hj
                      exact ⟨ha, d', hi', hv, hnt⟩
            | succ j => simp only [List.getElem?_cons_succ] at hj
                        have := hbefore j e (by omega) hj
                        rw [show i + 1 + j = i + (j + 1) by omega] at this
                        exact this
          · rw [hafter j (by omega), List.getElem?_set_ne (by omega)]
    · rw [hd]
      exact ⟨vs, _, rfl, rfl, fun _ _ => rfl, .inr ⟨rfl, 0, d, rfl, hna, fun j _ hj => by omega, fun _ _ => rfl⟩⟩

theorem legalLoop_iff : ∀ (ps : List (BitVec 64 × Param)) (vs : List Datum), vs.length = ps.length →
    (legalLoop jen little ps vs = true ↔
      ∀ (i : Nat) h p d, ps[i]? = some (h, p) → vs[i]? = some d → Legal p d.v)
  | [], [], _ => by simp [legalLoop]
  | p :: ps, d :: vs, hl => by
    have ih := legalLoop_iff ps vs (by simpa using hl)
    unfold legalLoop
    have hc := checkValue_iff (jen := jen) (little := little) p.2 d.v
    by_cases h : checkValue jen little p.2 d.v = true
    · rw [if_pos h, ih]
      refine ⟨fun hall i h' q e hq he => ?_, fun hall i h' q e hq he => hall (i + 1) h' q e (by simpa using hq) (by simpa using he)⟩
      cases i with
      | zero =>
        simp only [List.getElem?_cons_zero, Option.some.injEq] at hq he
        subst hq he
        exact hc.1 h
      | succ i => exact hall i h' q e (by simpa using hq) (by simpa using he)
    · rw [if_neg h]
      simp only [Bool.false_eq_true, false_iff]
      intro hall
      exact h (hc.2 (hall 0 p.1 p.2 d (by simp) (by simp)))

end

end CCS
