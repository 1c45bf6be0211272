import Verif.Lemmas.Binding
import Verif.Props.SpaceConfig

/-!
# C57–C59, C67: configurations, features and the values of evaluations

`Spec.SameBinding`, `Spec.Stores`, `Spec.LastStored` and `Spec.AllLegal` are in `Verif/Spec/Binding.lean`,
`Spec.TotalOrder` in `Verif/Spec/Order.lean`, `Spec.Legal` in `Verif/Spec/Param.lean`.
-/

namespace CCS.Props

open CCS Spec

/-! ## C57: comparing and hashing -/

/-- **C57** Comparing configurations, or features, is a total order; two compare equal exactly when they belong to the
same space and hold the same values. -/
theorem C57_binding_total_order (little : Bool) (heap : BitVec 64 → Binding) :
    TotalOrder (BitVec 64) (bindingCmp little heap) (fun x y => SameBinding (heap x) (heap y)) :=
  bindingCmp_total little heap

/-- **C57** Configurations, or features, that compare equal have equal hashes. -/
theorem C57_binding_hash (jen : Bytes → BitVec 32) (little : Bool) (heap : BitVec 64 → Binding) (x y : BitVec 64)
    (h : bindingCmp little heap x y = .eq) : bindingHash jen little (heap x) = bindingHash jen little (heap y) :=
  bindingHash_congr little jen (((bindingCmp_total little heap).eq_iff x y).1 h)

/-- **C57** Comparing evaluations is a total order; two compare equal exactly when they have the same values, result
code and configuration values. -/
theorem C57_evaluation_total_order (little : Bool) (evals : BitVec 64 → Evaluation) (configs : BitVec 64 → Binding) :
    TotalOrder (BitVec 64) (evaluationCmp little evals configs) (fun x y =>
      SameBinding (evals x).binding (evals y).binding ∧ (evals x).result = (evals y).result ∧
      SameBinding (configs (evals x).configuration) (configs (evals y).configuration)) :=
  evaluationCmp_total little evals configs

/-- **C57** Evaluations that compare equal have equal hashes. -/
theorem C57_evaluation_hash (jen : Bytes → BitVec 32) (little : Bool) (evals : BitVec 64 → Evaluation)
    (configs : BitVec 64 → Binding) (x y : BitVec 64) (h : evaluationCmp little evals configs x y = .eq) :
    evaluationHash jen little configs (evals x) = evaluationHash jen little configs (evals y) := by
  obtain ⟨h1, h2, h3⟩ := ((evaluationCmp_total little evals configs).eq_iff x y).1 h
  unfold evaluationHash
  rw [bindingHash_congr little jen h1, bindingHash_congr little jen h3, h2]

/-- **C57** The same for evaluations with features. -/
theorem C57_features_evaluation_total_order (little : Bool) (evals : BitVec 64 → FeaturesEvaluation)
    (configs feats : BitVec 64 → Binding) :
    TotalOrder (BitVec 64) (featuresEvaluationCmp little evals configs feats) (fun x y =>
      (SameBinding (evals x).evaluation.binding (evals y).evaluation.binding ∧
        (evals x).evaluation.result = (evals y).evaluation.result ∧
        SameBinding (configs (evals x).evaluation.configuration) (configs (evals y).evaluation.configuration)) ∧
      SameBinding (feats (evals x).features) (feats (evals y).features)) :=
  featuresEvaluationCmp_total little evals configs feats

/-- **C57** And their hashes. -/
theorem C57_features_evaluation_hash (jen : Bytes → BitVec 32) (little : Bool) (evals : BitVec 64 → FeaturesEvaluation)
    (configs feats : BitVec 64 → Binding) (x y : BitVec 64)
    (h : featuresEvaluationCmp little evals configs feats x y = .eq) :
    featuresEvaluationHash jen little configs feats (evals x) =
      featuresEvaluationHash jen little configs feats (evals y) := by
  obtain ⟨⟨h1, h2, h3⟩, h4⟩ := ((featuresEvaluationCmp_total little evals configs feats).eq_iff x y).1 h
  unfold featuresEvaluationHash
  rw [bindingHash_congr little jen h1, bindingHash_congr little jen h3, bindingHash_congr little jen h4, h2]

/-- Two distinct configurations with the same values, the flags apart, and a third one. -/
def exHeap : BitVec 64 → Binding := fun x =>
  if x = 0#64 then ⟨9#64, [⟨.int 1#64, true, false, false⟩, ⟨.none, false, false, false⟩]⟩
  else if x = 1#64 then ⟨9#64, [⟨.int 1#64, false, false, false⟩, ⟨.none, false, false, false⟩]⟩
  else ⟨9#64, [⟨.int 1#64, false, false, false⟩, ⟨.inactive, false, false, false⟩]⟩

example : bindingCmp true exHeap 0#64 1#64 = .eq ∧ bindingCmp true exHeap 1#64 2#64 ≠ .eq := by decide +kernel

/-- Evaluations of the same configuration values that differ by their result, compared as signed numbers. -/
example : evaluationCmp true (fun x => ⟨exHeap 0#64, x, if x = 2#64 then -1#32 else 0#32⟩) exHeap 2#64 0#64 = .lt ∧
    evaluationCmp true (fun x => ⟨exHeap 0#64, x, 0#32⟩) exHeap 0#64 1#64 = .eq := by decide +kernel

/-! ## C58: reading and writing -/

theorem context_table {c : Ctx} (h : Context c) : Table c := by
  cases h with
  | grown h => exact (grown_table h).1
  | space hmk h => exact good_ctx (reachable_good hmk h)

section
variable (jen : Bytes → BitVec 32) (little : Bool)

/-- **C58** Writing by index succeeds exactly on existing positions and accepted values; refusals change nothing. -/
theorem C58_set_outcome (c : Ctx) (b : Binding) (i : Nat) (d : Datum) (hf : FitsIn b.values.length c) :
    ((b.set jen little c i d).2 = .ok () ∧ i < b.values.length ∧ Accepts c i d) ∨
    (b.set jen little c i d = (b, .err .outOfBounds) ∧ b.values.length ≤ i) ∨
    (b.set jen little c i d = (b, .err .invalidValue) ∧ i < b.values.length ∧ ¬ Accepts c i d) := by
  unfold Binding.set
  by_cases hi : b.values.length ≤ i
  · rw [if_pos hi]; exact .inr (.inl ⟨rfl, hi⟩)
  · rw [if_neg hi]
    have := hf.1
    rcases admit_cases jen little c d (i := i) (by omega) hf.2 with ⟨ha, d', hd, -⟩ | ⟨hna, -, hd⟩
    · rw [hd]; exact .inl ⟨rfl, by omega, ha⟩
    · rw [hd]; exact .inr (.inr ⟨rfl, by omega, hna⟩)

/-- What a write at one position does. -/
theorem set_effect (c : Ctx) (b : Binding) (i : Nat) (d : Datum) (hf : FitsIn b.values.length c) :
    (b.set jen little c i d).1.context = b.context ∧
    (b.set jen little c i d).1.values.length = b.values.length ∧
    (i < b.values.length → Accepts c i d → ∃ e, (b.set jen little c i d).1.values[i]? = some e ∧ e.v = d.v) ∧
    (∀ j : Nat, ¬ (j = i ∧ i < b.values.length ∧ Accepts c i d) →
      (b.set jen little c i d).1.values[j]? = b.values[j]?) := by
  unfold Binding.set
  by_cases hi : b.values.length ≤ i
  · rw [if_pos hi]; exact ⟨rfl, rfl, fun h => by omega, fun _ _ => rfl⟩
  · rw [if_neg hi]
    have := hf.1
    rcases admit_cases jen little c d (i := i) (by omega) hf.2 with ⟨ha, d', hd, hv, -⟩ | ⟨hna, -, hd⟩
    · rw [hd]
      refine ⟨rfl, by simp, fun _ _ => ⟨d', by simp [show i < b.values.length by omega], hv⟩, fun j hj => ?_⟩
      simp only
      rw [List.getElem?_set_ne]
      intro e
      exact hj ⟨e.symm, by omega, ha⟩
    · rw [hd]; exact ⟨rfl, rfl, fun _ h => absurd h hna, fun _ _ => rfl⟩

/-- What one call does. -/
theorem step_effect {c : Ctx} (hc : Context c) (b : Binding) (op : BindingOp) (hf : FitsIn b.values.length c) :
    (b.step jen little c op).1.context = b.context ∧
    (b.step jen little c op).1.values.length = b.values.length ∧
    (∀ j d, Stores c b.values.length op j d →
      ∃ e, (b.step jen little c op).1.values[j]? = some e ∧ e.v = d.v) ∧
    (∀ j : Nat, (∀ d, ¬ Stores c b.values.length op j d) →
      (b.step jen little c op).1.values[j]? = b.values[j]?) := by
  have ht := context_table hc
  cases op with
  | set i d =>
    obtain ⟨h1, h2, h3, h4⟩ := set_effect jen little c b i d hf
    refine ⟨h1, h2, fun j e he => ?_, fun j hj => h4 j ?_⟩
    · cases he with
      | set hi ha => exact h3 hi ha
    · rintro ⟨rfl, hi, ha⟩
      exact hj d (.set hi ha)
  | setByName n d =>
    simp only [Binding.step, Binding.setByName]
    rcases ht.indexByName n with ⟨i, h, p, hp, rfl, hi⟩ | ⟨hno, hi⟩
    · rw [hi]
      simp only [Binding.setAt]
      obtain ⟨h1, h2, h3, h4⟩ := set_effect jen little c b i d hf
      refine ⟨h1, h2, fun j e he => ?_, fun j hj => h4 j ?_⟩
      · generalize hn : p.name = n at he
        cases he with
        | byName hlt hp' ha =>
          cases ht.name_inj hp hp' hn
          exact h3 hlt ha
      · rintro ⟨rfl, hlt, ha⟩
        exact hj d (.byName hlt hp ha)
    · rw [hi]
      refine ⟨rfl, rfl, fun j e he => ?_, fun _ _ => rfl⟩
      cases he with
      | byName hlt hp' ha => exact absurd rfl (hno _ _ _ hp')
  | setByParameter h d =>
    simp only [Binding.step, Binding.setByParameter]
    rcases ht.index h with ⟨i, p, hp, hi⟩ | ⟨hno, hi⟩
    · rw [hi]
      simp only [Binding.setAt]
      obtain ⟨h1, h2, h3, h4⟩ := set_effect jen little c b i d hf
      refine ⟨h1, h2, fun j e he => ?_, fun j hj => h4 j ?_⟩
      · cases he with
        | byParameter hlt hp' ha =>
          cases ht.handle_inj hp hp'
          exact h3 hlt ha
      · rintro ⟨rfl, hlt, ha⟩
        exact hj d (.byParameter hlt hp ha)
    · rw [hi]
      refine ⟨rfl, rfl, fun j e he => ?_, fun _ _ => rfl⟩
      cases he with
      | byParameter hlt hp' ha => exact absurd hp' (hno _ _)
  | setAll ds =>
    simp only [Binding.step, Binding.setAll]
    by_cases hl : ds.length = b.values.length
    · rw [if_neg (by simpa using hl)]
      obtain ⟨vs', r, he, hlen, -, hr⟩ := setLoop_spec jen little c hf.2 ds b.values 0 (by omega) hf.1
      rw [he]
      refine ⟨rfl, hlen, fun j d hs => ?_, fun j hj => ?_⟩
      · cases hs with
        | all _ hd hacc =>
          rcases hr with ⟨-, hall⟩ | ⟨-, k, dk, hk, hnk, hbefore, -⟩
          · obtain ⟨-, e, h1, h2, -⟩ := hall j d hd
            exact ⟨e, by simpa using h1, h2⟩
          · rcases Nat.lt_or_ge j k with hjk | hjk
            · obtain ⟨-, e, h1, h2, -⟩ := hbefore j d hjk hd
              exact ⟨e, by simpa using h1, h2⟩
            · exact absurd (hacc k dk hjk hk) (by simpa using hnk)
      · simp only
        rcases hr with ⟨-, hall⟩ | ⟨-, k, dk, hk, hnk, hbefore, hafter⟩
        · rcases Nat.lt_or_ge j ds.length with hjl | hjl
          · refine absurd (Stores.all hl (List.getElem?_eq_getElem hjl) fun j' e _ he' => ?_) (hj ds[j])
            simpa using (hall j' e he').1
          · rw [List.getElem?_eq_none (by omega), List.getElem?_eq_none (by omega)]
        · rcases Nat.lt_or_ge j k with hjk | hjk
          · have hkl := (List.getElem?_eq_some_iff.1 hk).1
            refine absurd (Stores.all hl (List.getElem?_eq_getElem (by omega)) fun j' e hle he' => ?_) (hj ds[j])
            simpa using (hbefore j' e (by omega) he').1
          · exact hafter j (by omega)
    · rw [if_pos (by simpa using hl)]
      refine ⟨rfl, rfl, fun j d hs => ?_, fun _ _ => rfl⟩
      cases hs with
      | all h _ _ => exact absurd h hl

/-- **C58** After a call, the position it stores to reads back as set, and every other position is as before. -/
theorem C58_step {c : Ctx} (hc : Context c) (b : Binding) (op : BindingOp) (hf : FitsIn b.values.length c) (j : Nat) :
    (∀ d, Stores c b.values.length op j d → ∃ e, (b.step jen little c op).1.get j = .ok e ∧ e.v = d.v) ∧
    ((∀ d, ¬ Stores c b.values.length op j d) → (b.step jen little c op).1.get j = b.get j) := by
  obtain ⟨-, -, h3, h4⟩ := step_effect jen little hc b op hf
  refine ⟨fun d hd => ?_, fun hj => ?_⟩
  · obtain ⟨e, he, hv⟩ := h3 j d hd
    exact ⟨e, by unfold Binding.get; rw [he], hv⟩
  · unfold Binding.get; rw [h4 j hj]

/-- **C58** After any sequence of calls, accepted or refused, while the space possibly grows, each position reads as the
last value stored there. -/
theorem C58_history (history : List (Ctx × BindingOp)) (b : Binding)
    (hc : ∀ q ∈ history, Context q.1 ∧ FitsIn b.values.length q.1) (j : Nat) (d₀ : Datum) (h0 : b.get j = .ok d₀) :
    ∃ e, (b.run jen little history).get j = .ok e ∧ LastStored b.values.length history j d₀.v e.v := by
  induction history generalizing b d₀ with
  | nil => exact ⟨d₀, h0, .inr ⟨rfl, by simp⟩⟩
  | cons q rest ih =>
    obtain ⟨c, op⟩ := q
    obtain ⟨hcc, hcf⟩ := hc _ List.mem_cons_self
    obtain ⟨-, hlen, -, -⟩ := step_effect jen little hcc b op hcf
    obtain ⟨hst, hns⟩ := C58_step jen little hcc b op hcf j
    have hc' : ∀ q ∈ rest, Context q.1 ∧ FitsIn (b.step jen little c op).1.values.length q.1 := fun q hq => by
      rw [hlen]; exact hc q (List.mem_cons_of_mem _ hq)
    show ∃ e, ((b.step jen little c op).1.run jen little rest).get j = .ok e ∧ _
    by_cases hs : ∃ d, Stores c b.values.length op j d
    · obtain ⟨d, hd⟩ := hs
      obtain ⟨e1, he1, hv1⟩ := hst d hd
      obtain ⟨e, he, hl⟩ := ih _ hc' e1 he1
      rw [hlen] at hl
      refine ⟨e, he, .inl ?_⟩
      rcases hl with ⟨k, c', op', d', h1, h2, h3, h4⟩ | ⟨h1, h2⟩
      · refine ⟨k + 1, c', op', d', by simpa using h1, h2, h3, fun k' c'' op'' d'' hk h => ?_⟩
        obtain ⟨m, rfl⟩ : ∃ m, k' = m + 1 := ⟨k' - 1, by omega⟩
        exact h4 m c'' op'' d'' (by omega) (by simpa using h)
      · refine ⟨0, c, op, d, rfl, hd, h1.trans hv1, fun k' c'' op'' d'' hk h => ?_⟩
        obtain ⟨m, rfl⟩ : ∃ m, k' = m + 1 := ⟨k' - 1, by omega⟩
        exact h2 m c'' op'' d'' (by simpa using h)
    · have hs' : ∀ d, ¬ Stores c b.values.length op j d := fun d hd => hs ⟨d, hd⟩
      obtain ⟨e, he, hl⟩ := ih _ hc' d₀ ((hns hs').trans h0)
      rw [hlen] at hl
      refine ⟨e, he, ?_⟩
      rcases hl with ⟨k, c', op', d', h1, h2, h3, h4⟩ | ⟨h1, h2⟩
      · refine .inl ⟨k + 1, c', op', d', by simpa using h1, h2, h3, fun k' c'' op'' d'' hk h => ?_⟩
        obtain ⟨m, rfl⟩ : ∃ m, k' = m + 1 := ⟨k' - 1, by omega⟩
        exact h4 m c'' op'' d'' (by omega) (by simpa using h)
      · refine .inr ⟨h1, fun k c' op' d' h => ?_⟩
        cases k with
        | zero => simp only [List.getElem?_cons_zero, Option.some.injEq, Prod.mk.injEq] at h
                  obtain ⟨rfl, rfl⟩ := h
                  exact hs' d'
        | succ k => exact h2 k c' op' d' (by simpa using h)

/-- **C58** Reading by index answers the value there, or OUT_OF_BOUNDS. -/
theorem C58_get (b : Binding) (i : Nat) :
    (∃ h : i < b.values.length, b.get i = .ok b.values[i]) ∨ (b.values.length ≤ i ∧ b.get i = .err .outOfBounds) := by
  unfold Binding.get
  rcases Nat.lt_or_ge i b.values.length with h | h
  · exact .inl ⟨h, by rw [List.getElem?_eq_getElem h]⟩
  · exact .inr ⟨h, by rw [List.getElem?_eq_none h]⟩

/-- **C58** Reading by name, or by parameter, is reading at the position of that parameter; unknown ones are refused. -/
theorem C58_by_name {c : Ctx} (hc : Context c) (b : Binding) :
    (∀ i h p, Holds c i h p → b.getByName c p.name = b.get i ∧ b.getByParameter c h = b.get i) ∧
    (∀ n, (∀ i h p, Holds c i h p → p.name ≠ n) → b.getByName c n = .err .invalidName) ∧
    (∀ h, (∀ i p, ¬ Holds c i h p) → b.getByParameter c h = .err .invalidParameter) := by
  have ht := context_table hc
  refine ⟨fun i h p hp => ⟨?_, ?_⟩, fun n hn => ?_, fun h hn => ?_⟩
  · unfold Binding.getByName
    rcases ht.indexByName p.name with ⟨i', h', p', hp', hn, hi⟩ | ⟨hno, -⟩
    · rw [hi, Out.bind_ok, ht.name_inj hp' hp hn]
    · exact absurd rfl (hno _ _ _ hp)
  · unfold Binding.getByParameter
    rcases ht.index h with ⟨i', p', hp', hi⟩ | ⟨hno, -⟩
    · rw [hi, Out.bind_ok, ht.handle_inj hp' hp]
    · exact absurd hp (hno _ _)
  · unfold Binding.getByName
    rcases ht.indexByName n with ⟨i', h', p', hp', hn', hi⟩ | ⟨-, hi⟩
    · exact absurd hn' (hn _ _ _ hp')
    · rw [hi]; rfl
  · unfold Binding.getByParameter
    rcases ht.index h with ⟨i', p', hp', hi⟩ | ⟨-, hi⟩
    · exact absurd hp' (hn _ _)
    · rw [hi]; rfl

/-- **C58** A bulk read into a large enough array fills it with all values in order, then NONE, and leaves the size of the
array as it is; a shorter array is refused; the count is the number of values. -/
theorem C58_bulk_read (b : Binding) (a : List Datum) (count : Bool) :
    (b.values.length ≤ a.length → ∃ r, b.getAll (some a) count =
        .ok (some r, if count then some b.values.length else none) ∧ r.length = a.length ∧
        (∀ i : Nat, i < b.values.length → r[i]? = b.values[i]?) ∧
        (∀ (i : Nat) e, b.values.length ≤ i → r[i]? = some e → e.v = .none)) ∧
    (a.length < b.values.length → b.getAll (some a) count = .err .invalidValue) ∧
    b.getAll none true = .ok (none, some b.values.length) := by
  refine ⟨fun h => ?_, fun h => ?_, rfl⟩
  · unfold Binding.getAll
    refine ⟨_, by simp only; rw [if_neg (by omega)], ?_, fun i hi => ?_, fun i e hi he => ?_⟩
    · simp; omega
    · rw [List.getElem?_append_left hi]
    · rw [List.getElem?_append_right hi, List.getElem?_map, Option.map_eq_some_iff] at he
      obtain ⟨d, -, rfl⟩ := he
      rfl
  · unfold Binding.getAll; simp only; rw [if_pos h]

/-- **C58** A new binding holds the given values, or NONE everywhere; the wrong number of values is refused, as is a
transient value that is not legal. -/
theorem C58_create (context : BitVec 64) (c : Ctx) (hl : c.params.length < 4294967296) :
    createBinding jen little context c none = .ok ⟨context, List.replicate c.params.length noneDatum⟩ ∧
    (∀ ds : List Datum, ds.length ≠ c.params.length → createBinding jen little context c (some ds) = .err .invalidValue) ∧
    (∀ ds : List Datum, ds.length = c.params.length →
      ((∀ (i : Nat) d, ds[i]? = some d → Accepts c i d) ∧
        ∃ b, createBinding jen little context c (some ds) = .ok b ∧ b.context = context ∧
          b.values.map (·.v) = ds.map (·.v)) ∨
      ((∃ (i : Nat) (d : Datum), ds[i]? = some d ∧ ¬ Accepts c i d) ∧
        createBinding jen little context c (some ds) = .err .invalidValue)) := by
  refine ⟨rfl, fun ds h => ?_, fun ds h => ?_⟩
  · unfold createBinding; simp only; rw [if_pos (fun e => h e.symm)]
  · unfold createBinding
    simp only
    rw [if_neg (by simp [h])]
    have key : ∀ (ds : List Datum) (i : Nat), i + ds.length ≤ c.params.length →
        ((∀ (j : Nat) d, ds[j]? = some d → Accepts c (i + j) d) ∧
          ∃ vs, admitAll jen little c i ds = .ok vs ∧ vs.map (·.v) = ds.map (·.v)) ∨
        ((∃ (j : Nat) (d : Datum), ds[j]? = some d ∧ ¬ Accepts c (i + j) d) ∧
          admitAll jen little c i ds = .err .invalidValue) := by
      intro ds
      induction ds with
      | nil => intro i _; exact .inl ⟨by simp, [], rfl, rfl⟩
      | cons d ds ih =>
        intro i hi
        simp only [List.length_cons] at hi
        unfold admitAll
        rcases admit_cases jen little c d (i := i) (by omega) hl with ⟨ha, d', hd, hv, -⟩ | ⟨hna, -, hd⟩
        · rw [hd, Out.bind_ok]
          rcases ih (i + 1) (by omega) with ⟨hall, vs, hvs, hmap⟩ | ⟨⟨j, e, hj, hne⟩, herr⟩
          · rw [hvs, Out.bind_ok]
            refine .inl ⟨fun j e hj => ?_, d' :: vs, rfl, by simp [hv, hmap]⟩
            cases j with
            | zero => simp only [List.getElem?_cons_zero, Option.some.injEq] at hj; subst hj; exact ha
            | succ j => have := hall j e (by simpa using hj)
                        rwa [show i + 1 + j = i + (j + 1) by omega] at this
          · rw [herr]
            exact .inr ⟨⟨j + 1, e, by simpa using hj, by rwa [show i + (j + 1) = i + 1 + j by omega]⟩, rfl⟩
        · rw [hd]; exact .inr ⟨⟨0, d, rfl, hna⟩, rfl⟩
    rcases key ds 0 (by omega) with ⟨hall, vs, hvs, hmap⟩ | ⟨⟨j, e, hj, hne⟩, herr⟩
    · rw [hvs, Out.bind_ok]
      exact .inl ⟨fun i d hd => by simpa using hall i d hd, _, rfl, rfl, hmap⟩
    · rw [herr]; exact .inr ⟨⟨j, e, hj, by simpa using hne⟩, rfl⟩

/-! ## C59: refused bulk writes -/

/-- **C59** (partial) A bulk write refused for its length changes nothing; one refused for a value keeps the binding from
the first refused position on, and so changes nothing when the first value is the refused one.
Missing for the full claim: the positions before the refused one, for which it is false (below). -/
theorem C59_refused_partial (c : Ctx) (b b' : Binding) (ds : List Datum) (hf : FitsIn b.values.length c) {x : Err}
    (h : b.setAll jen little c ds = (b', .err x)) :
    x = .invalidValue ∧ (ds.length ≠ b.values.length → b' = b) ∧
    (ds.length = b.values.length → ∃ (k : Nat) (d : Datum), ds[k]? = some d ∧ ¬ Accepts c k d ∧
      (∀ (j : Nat) e, j < k → ds[j]? = some e → Accepts c j e) ∧
      (∀ j : Nat, k ≤ j → b'.get j = b.get j) ∧ (k = 0 → b' = b)) := by
  unfold Binding.setAll at h
  by_cases hl : ds.length = b.values.length
  · rw [if_neg (by simpa using hl)] at h
    obtain ⟨vs', r, he, hlen, -, hr⟩ := setLoop_spec jen little c hf.2 ds b.values 0 (by omega) hf.1
    rw [he] at h
    simp only [Prod.mk.injEq] at h
    obtain ⟨rfl, rfl⟩ := h
    rcases hr with ⟨hr, -⟩ | ⟨hr, k, dk, hk, hnk, hbefore, hafter⟩
    · cases hr
    · cases hr
      refine ⟨rfl, fun h => absurd hl h, fun _ => ⟨k, dk, hk, by simpa using hnk, fun j e hj hd => ?_, fun j hj => ?_, ?_⟩⟩
      · simpa using (hbefore j e hj hd).1
      · unfold Binding.get; simp only; rw [hafter j (by omega)]
      · rintro rfl
        have : vs' = b.values := List.ext_getElem? fun j => hafter j (by omega)
        rw [this]
  · rw [if_pos (by simpa using hl)] at h
    cases h
    exact ⟨rfl, fun _ => rfl, fun h => absurd h hl⟩

/-- **C59, violated** Whenever a value that differs from the one in place precedes the first refused one, the refused bulk
write changes the binding. -/
theorem C59_changes (c : Ctx) (b : Binding) (ds : List Datum) (hf : FitsIn b.values.length c)
    (hl : ds.length = b.values.length) {j k : Nat} (hjk : j < k) {d dk d₀ : Datum} (hj : ds[j]? = some d)
    (hk : ds[k]? = some dk) (hb : b.values[j]? = some d₀) (hd : d.v ≠ d₀.v) (hnk : ¬ Accepts c k dk)
    (hbefore : ∀ (i : Nat) e, i < k → ds[i]? = some e → Accepts c i e) :
    (b.setAll jen little c ds).2 = .err .invalidValue ∧ ∃ e, (b.setAll jen little c ds).1.get j = .ok e ∧ e.v = d.v ∧
      b.get j = .ok d₀ := by
  unfold Binding.setAll
  rw [if_neg (by simpa using hl)]
  obtain ⟨vs', r, he, hlen, -, hr⟩ := setLoop_spec jen little c hf.2 ds b.values 0 (by omega) hf.1
  rw [he]
  rcases hr with ⟨-, hall⟩ | ⟨hr, k', dk', hk', hnk', hb', -⟩
  · exact absurd (hall k dk hk).1 (by simpa using hnk)
  · have : ¬ k' < k := fun h => absurd (hbefore k' dk' h hk') (by simpa using hnk')
    obtain ⟨-, e, h1, h2, -⟩ := hb' j d (by omega) hj
    exact ⟨hr, e, by unfold Binding.get; simp only; rw [show vs'[j]? = some e by simpa using h1], h2,
      by unfold Binding.get; rw [hb]⟩

end

/-! ## C67: checking features -/

section
variable (jen : Bytes → BitVec 32) (little : Bool)

theorem legal_decides (c : Ctx) (vs : List Datum) (h : vs.length = c.params.length) :
    (legalLoop jen little c.params vs = true ↔ AllLegal c vs) := legalLoop_iff jen little c.params vs h

/-- **C67, violated** Checking a vector of values against a features space is always refused as INVALID_OBJECT, whatever the
space and the values. -/
theorem C67_always_refused (c : Ctx) (vs : List Datum) :
    checkFeaturesValues jen little typeFeaturesSpace c vs = .err .invalidObject := by
  unfold checkFeaturesValues
  rw [if_pos (by decide)]

/-- **C67** (partial) Checking features objects reports valid exactly when every value is legal for its feature.
Missing: the check of plain vectors of values, which always fails (above). -/
theorem C67_check_features_partial (space : BitVec 64) (c : Ctx) (f : Binding) :
    (f.context ≠ space ∨ f.values.length ≠ c.params.length → checkFeatures jen little space c f = .err .invalidFeatures) ∧
    (f.context = space → f.values.length = c.params.length → ∃ r, checkFeatures jen little space c f = .ok r ∧
      (r = true ↔ AllLegal c f.values)) := by
  unfold checkFeatures checkFeaturesLoop
  refine ⟨fun h => ?_, fun h1 h2 => ⟨_, by rw [if_neg (by simpa using h1), if_neg (by simpa using h2)],
    legal_decides jen little c f.values h2⟩⟩
  by_cases hc : f.context = space
  · rw [if_neg (by simpa using hc), if_pos (h.resolve_left (by simpa using hc))]
  · rw [if_pos hc]

/-- **C80** Checking the values of an evaluation reports valid exactly when every value is legal for its parameter; a wrong
number of values is refused. -/
theorem C80_check_evaluation (c : Ctx) (vs : List Datum) :
    (vs.length ≠ c.params.length → checkEvaluation jen little c vs = .err .invalidEvaluation) ∧
    (vs.length = c.params.length → ∃ r, checkEvaluation jen little c vs = .ok r ∧ (r = true ↔ AllLegal c vs)) := by
  unfold checkEvaluation
  exact ⟨fun h => by rw [if_pos h], fun h => ⟨_, by rw [if_neg (by simpa using h)], legal_decides jen little c vs h⟩⟩

end

/-! ## A concrete space -/

/-- Two parameters: the integers of [0, 10), and the list "1, 2". -/
def exParam : BitVec 64 → Param := fun h =>
  if h = 1#64 then ⟨[97#8], .int 0#64, .numerical ⟨.int, 0#64, 10#64, 1#32, 0#32⟩ 0#64⟩
  else ⟨[98#8], .int 1#64, .categorical .categorical [.int 1#64, .int 2#64]⟩

def exCtx : Ctx := ((Ctx.empty.add exParam 1#64).1.add exParam 2#64).1

theorem exCtx_context : Context exCtx := .grown (.add 2#64 (.add 1#64 .empty))

def exInt (x : BitVec 64) (transient : Bool) : Datum := ⟨.int x, transient, false, false⟩

def exBinding : Binding := ⟨9#64, [exInt 0#64 false, exInt 1#64 false]⟩

example : Context exCtx ∧ FitsIn exBinding.values.length exCtx := ⟨exCtx_context, by decide, by decide⟩

theorem exRefused : ¬ Accepts exCtx 1 (exInt 7#64 true) := by
  intro h
  obtain ⟨h, p, hp, hl⟩ := h rfl
  have : (h, p) = (2#64, exParam 2#64) := Option.some.inj (hp.symm.trans (by decide +kernel))
  cases this
  have hl' : Value.int 7#64 ∈ [Value.int 1#64, Value.int 2#64] := hl
  exact absurd hl' (by decide)

theorem exAccepted : Accepts exCtx 0 (exInt 5#64 true) := fun _ =>
  ⟨1#64, exParam 1#64, by unfold Holds; decide +kernel, (checkValue_iff (jen := exJen) (little := true) _ _).1 (by decide +kernel)⟩

/-- Writes by name, by parameter and in bulk, one of them refused. -/
example : (exBinding.run exJen true [(exCtx, .setByName [98#8] (exInt 2#64 true)), (exCtx, .set 0 (exInt 11#64 true)),
    (exCtx, .setByParameter 1#64 (exInt 4#64 false))]).values.map (·.v) = [.int 4#64, .int 2#64] := by decide +kernel

/-- **C59, violated** on a concrete space: (0, 1) becomes (5, 1) by refusing (5, 7). -/
theorem C59_witness :
    ∃ b', exBinding.setAll exJen true exCtx [exInt 5#64 true, exInt 7#64 true] = (b', .err .invalidValue) ∧
      b'.values.map (·.v) = [.int 5#64, .int 1#64] ∧ exBinding.values.map (·.v) = [.int 0#64, .int 1#64] := by
  refine ⟨_, Prod.ext rfl ?_, ?_, by decide⟩
  · decide +kernel
  · decide +kernel

/-- The hypotheses of `C59_changes`. -/
example : (exBinding.setAll exJen true exCtx [exInt 5#64 true, exInt 7#64 true]).2 = .err .invalidValue :=
  (C59_changes exJen true exCtx exBinding [exInt 5#64 true, exInt 7#64 true] ⟨by decide, by decide⟩ rfl (j := 0) (k := 1)
    (by decide) rfl rfl rfl (by decide) exRefused
    (fun i e hi he => by
      obtain rfl : i = 0 := by omega
      simp only [List.getElem?_cons_zero, Option.some.injEq] at he
      subst he; exact exAccepted)).1

/-- Features that pass, features that do not, and a vector that should. -/
example : checkFeatures exJen true 9#64 exCtx exBinding = .ok true ∧
    checkFeatures exJen true 9#64 exCtx ⟨9#64, [exInt 0#64 false, exInt 7#64 false]⟩ = .ok false ∧
    checkEvaluation exJen true exCtx exBinding.values = .ok true ∧
    checkFeaturesValues exJen true typeFeaturesSpace exCtx exBinding.values = .err .invalidObject := by decide +kernel

end CCS.Props
