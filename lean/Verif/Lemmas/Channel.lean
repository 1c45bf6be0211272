import Verif.Spec.Channel
import Verif.Lemmas.UserTuner

/-!
# Lemmas about the serialization entry points
-/

namespace CCS

open CCS.Spec

/-! ## Options -/

theorem lastOf_cons {α β : Type} (f : α → Option β) (o : α) (os : List α) :
    lastOf f (o :: os) = (lastOf f os).or (f o) := by
  unfold lastOf
  rw [List.filterMap_cons]
  cases h : f o with
  | none => simp
  | some b =>
    simp only
    rw [List.getLast?_cons]
    cases List.getLast? (List.filterMap f os) <;> simp

theorem SerOption.apply_eq (op : Operation) (o : SerOption) (opts : SerOpts) :
    o.apply op opts = match SerRefused op o with
      | some e => .err e
      | none => .ok { state := (givenState o).or opts.state, callback := (givenCallback o).or opts.callback } := by
  cases o with
  | nonBlocking p =>
    cases p <;> by_cases h : op = .descriptor <;> simp [SerOption.apply, SerRefused, givenState, givenCallback, h, refute]
  | callback cb => cases cb <;> simp [SerOption.apply, SerRefused, givenState, givenCallback, refute]
  | other => rfl

theorem serOptions_eq (op : Operation) (options : List SerOption) (opts : SerOpts) :
    serOptions op options opts = match options.findSome? (SerRefused op) with
      | some e => .err e
      | none => .ok { state := (lastOf givenState options).or opts.state, callback := (lastOf givenCallback options).or opts.callback } := by
  induction options generalizing opts with
  | nil => rfl
  | cons o os ih =>
    rw [serOptions, SerOption.apply_eq, List.findSome?_cons, lastOf_cons, lastOf_cons]
    cases h : SerRefused op o with
    | some e => rfl
    | none =>
      simp only [Out.bind_ok]
      rw [ih]
      cases List.findSome? (SerRefused op) os with
      | some e => rfl
      | none => simp [Option.or_assoc]

theorem DeOption.apply_eq {V : Type} (op : Operation) (o : DeOption V) (opts : DeOpts V) :
    o.apply op opts = match DeRefused op o with
      | some e => .err e
      | none => .ok { map := (deHandles o).or opts.map, vector := (deVector o).or opts.vector, data := (deData o).getD opts.data,
                      state := (deState o).or opts.state, callback := (deCallback o).or opts.callback } := by
  cases o with
  | handleMap m =>
    rcases m with _ | ⟨b, h⟩
    · rfl
    · cases b <;> rfl
  | vector v => cases v <;> rfl
  | data p => rfl
  | nonBlocking p =>
    cases p <;> by_cases h : op = .descriptor <;>
      simp [DeOption.apply, DeRefused, deHandles, deVector, deData, deState, deCallback, h, refute]
  | callback cb => cases cb <;> rfl
  | other => rfl

theorem deOptions_eq {V : Type} (op : Operation) (options : List (DeOption V)) (opts : DeOpts V) :
    deOptions op options opts = match options.findSome? (DeRefused op) with
      | some e => .err e
      | none => .ok { map := (lastOf deHandles options).or opts.map, vector := (lastOf deVector options).or opts.vector,
                      data := (lastOf deData options).getD opts.data, state := (lastOf deState options).or opts.state,
                      callback := (lastOf deCallback options).or opts.callback } := by
  induction options generalizing opts with
  | nil => rfl
  | cons o os ih =>
    rw [deOptions, DeOption.apply_eq, List.findSome?_cons, lastOf_cons, lastOf_cons, lastOf_cons, lastOf_cons, lastOf_cons]
    cases h : DeRefused op o with
    | some e => rfl
    | none =>
      simp only [Out.bind_ok]
      rw [ih]
      cases List.findSome? (DeRefused op) os with
      | some e => rfl
      | none =>
        simp only [Option.or_assoc]
        cases lastOf deData os <;> simp

/-! ## Messages -/

/-- What a message is: the header with the total size, then the object. -/
def message (bs : Bytes) : Bytes := headerBytes (BitVec.ofNat 64 (szHeader + bs.length)) ++ bs

theorem length_message (bs : Bytes) : (message bs).length = szHeader + bs.length := by
  rw [message, List.length_append, length_header]

/-! ## Guards -/

/-- A reader that starts with the object header and refuses all types but one. -/
theorem guard_announced {β : Type} {t : BitVec 32} {e : Err} {f : BitVec 32 × BitVec 64 → Rd β} {bs : Bytes} {r : β × Bytes}
    (h : (do
      let o ← deObj
      Rd.lift (refute (o.1 ≠ t) e)
      f o : Rd β) bs = .ok r) : Announced bs t := by
  rw [Rd.bind_eq] at h
  obtain ⟨⟨⟨t', hd⟩, rest⟩, h1, h2⟩ := bind_eq_ok h
  rw [Rd.bind_eq] at h2
  obtain ⟨_, h3, _⟩ := bind_eq_ok h2
  by_cases ht : t' = t
  · subst ht; exact ⟨hd, rest, h1⟩
  · exfalso
    rw [refute_true (by exact ht)] at h3
    cases h3

theorem guard_map {α β : Type} {r : Rd α} {g : α → β} {bs : Bytes} {p : β × Bytes}
    (h : (do let x ← r; pure (g x) : Rd β) bs = .ok p) : ∃ x, r bs = .ok (x, p.2) ∧ p.1 = g x := by
  rw [Rd.bind_eq] at h
  obtain ⟨⟨x, rest⟩, h1, h2⟩ := bind_eq_ok h
  cases h2
  exact ⟨x, h1, rfl⟩

theorem announced_peek {bs : Bytes} {t : BitVec 32} (h : Announced bs t) : Rd.peek deEnum bs = .ok (t, bs) := by
  obtain ⟨hd, rest, h⟩ := h
  unfold deObj at h
  rw [Rd.bind_eq] at h
  obtain ⟨⟨t', r1⟩, h1, h2⟩ := bind_eq_ok h
  rw [Rd.bind_eq] at h2
  obtain ⟨⟨h', r2⟩, h3, h4⟩ := bind_eq_ok h2
  cases h4
  unfold Rd.peek
  rw [h1]; rfl

theorem Kind.ofCode_code (k : Kind) : Kind.ofCode k.code = some k := by cases k <;> rfl

theorem Kind.code_ofCode {t : BitVec 32} {k : Kind} (h : Kind.ofCode t = some k) : k.code = t := by
  apply BitVec.eq_of_toNat_eq
  unfold Kind.ofCode at h
  split at h <;> first | (cases h; simp_all [Kind.code, rngType, distributionType, parameterType, expressionType, featuresSpaceType, configurationSpaceType, objectiveSpaceType, configurationType, evalType, evaluationType, featuresEvaluationType, featuresType, tunerType, featuresTunerType, tunerTypeOf, mapType, treeType, treeSpaceType, treeConfigurationType, treeEvaluationType, treeTunerType]) | cases h

theorem peekTuner_bind {β : Type} {f : BitVec 32 → Rd β} {bs : Bytes} {p : β × Bytes} (h : (peekTuner >>= f) bs = .ok p) :
    ∃ t, f t bs = .ok p := by
  rw [Rd.bind_eq] at h
  obtain ⟨⟨t, r⟩, h1, h2⟩ := bind_eq_ok h
  unfold peekTuner Rd.peek at h1
  obtain ⟨q, -, h3⟩ := bind_eq_ok h1
  cases h3
  exact ⟨_, h2⟩

theorem tuner_announced {σ τ : Type} (D : Desk σ τ) (withFeatures : Bool) {bs : Bytes} {p : TunerRead τ ReadTuner × Bytes}
    (h : deAnyTuner D withFeatures bs = .ok p) : Announced bs (tunerTypeOf withFeatures) := by
  obtain ⟨t, h⟩ := peekTuner_bind h
  by_cases ht : t = userDefinedTuner
  · rw [if_pos ht] at h
    obtain ⟨x, hx, -⟩ := guard_map h
    exact guard_announced hx
  · rw [if_neg ht] at h
    obtain ⟨x, hx, -⟩ := guard_map h
    exact guard_announced hx

theorem treeTuner_announced {σ τ : Type} (D : Desk σ τ) {bs : Bytes} {p : TunerRead τ ReadTreeTuner × Bytes}
    (h : deAnyTreeTuner D bs = .ok p) : Announced bs treeTunerType := by
  obtain ⟨t, h⟩ := peekTuner_bind h
  by_cases ht : t = userDefinedTuner
  · rw [if_pos ht] at h
    obtain ⟨x, hx, -⟩ := guard_map h
    exact guard_announced hx
  · rw [if_neg ht] at h
    obtain ⟨x, hx, -⟩ := guard_map h
    exact guard_announced hx

/-- Every reader succeeds only on a message that announces its own type. -/
theorem Kind.reader_announced {σ τ : Type} (D : Desk σ τ) (k : Kind) {bs : Bytes} {p : AnyObj τ × Bytes}
    (h : k.reader D bs = .ok p) : Announced bs k.code := by
  cases k <;> obtain ⟨x, h, -⟩ := guard_map h
  case tuner => exact tuner_announced D false h
  case featuresTuner => exact tuner_announced D true h
  case treeTuner => exact treeTuner_announced D h
  case configuration => cases hm : D.handles <;> rw [hm] at h <;> first | cases h | exact guard_announced h
  case evaluation => cases hm : D.handles <;> rw [hm] at h <;> first | cases h | exact guard_announced h
  case features => cases hm : D.handles <;> rw [hm] at h <;> first | cases h | exact guard_announced h
  case featuresEvaluation => cases hm : D.handles <;> rw [hm] at h <;> first | cases h | exact guard_announced h
  case treeConfiguration => cases hm : D.handles <;> rw [hm] at h <;> first | cases h | exact guard_announced h
  case treeEvaluation => cases hm : D.handles <;> rw [hm] at h <;> first | cases h | exact guard_announced h
  case distribution => exact guard_announced h
  all_goals exact guard_announced h

/-- The object made by a reader is of its kind. -/
theorem Kind.reader_kind {σ τ : Type} (D : Desk σ τ) (k : Kind) {bs : Bytes} {p : AnyObj τ × Bytes}
    (h : k.reader D bs = .ok p) : p.1.kind = k := by
  cases k <;> obtain ⟨x, -, h⟩ := guard_map h <;> rw [h] <;> rfl

end CCS
