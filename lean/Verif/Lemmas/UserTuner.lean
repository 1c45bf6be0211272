import Verif.Spec.UserTuner
import Verif.Lemmas.TreeRunWire

/-! Helper lemmas about user defined tuners. -/

namespace CCS

open Spec

variable {τ : Type}

/-! ### Creation -/

/-- What a created tuner is made of. -/
structure Wraps (v : UserVector τ) (t : UserTuner τ) : Prop where
  del : v.del = some t.del
  ask : v.ask = some t.ask
  tell : v.tell = some t.tell
  getOptima : v.getOptima = some t.getOptima
  getHistory : v.getHistory = some t.getHistory
  suggest : t.suggest = v.suggest
  save : t.save = v.save
  restore : t.restore = v.restore

theorem create_complete {v : UserVector τ} (hv : Complete v) (name : Bytes) (pointer : BitVec 64) :
    ∃ t, createUserTuner (some name) true true true true (some v) pointer = .ok t ∧ Wraps v t ∧ t.name = name ∧ t.pointer = pointer := by
  obtain ⟨h1, h2, h3, h4, h5⟩ := hv
  obtain ⟨del, e1⟩ := Option.isSome_iff_exists.mp h1
  obtain ⟨ask, e2⟩ := Option.isSome_iff_exists.mp h2
  obtain ⟨tell, e3⟩ := Option.isSome_iff_exists.mp h3
  obtain ⟨opt, e4⟩ := Option.isSome_iff_exists.mp h4
  obtain ⟨his, e5⟩ := Option.isSome_iff_exists.mp h5
  refine ⟨⟨name, del, ask, tell, opt, his, v.suggest, v.save, v.restore, pointer⟩, ?_, ⟨e1, e2, e3, e4, e5, rfl, rfl, rfl⟩, rfl, rfl⟩
  simp [createUserTuner, checkPtr, e1, e2, e3, e4, e5]

theorem create_incomplete {v : UserVector τ} (hv : ¬ Complete v) (name : Bytes) (pointer : BitVec 64) :
    createUserTuner (some name) true true true true (some v) pointer = .err .invalidValue := by
  unfold Complete at hv
  cases e1 : v.del <;> cases e2 : v.ask <;> cases e3 : v.tell <;> cases e4 : v.getOptima <;> cases e5 : v.getHistory <;>
    simp [createUserTuner, checkPtr, e1, e2, e3, e4, e5] at hv ⊢

/-! ### Calls -/

theorem checkArray_cases (num : Nat) (array count : Bool) :
    (FillsArray num array count ∧ checkArray num array count = .ok ()) ∨
      (¬ FillsArray num array count ∧ checkArray num array count = .err .invalidValue) := by
  unfold FillsArray checkArray refute
  cases array <;> cases count <;> by_cases h : num = 0 <;> simp [h]

theorem checkCall_right {w : Option FeatureView} {c : TunerCall} : checkCall w c = .ok () ↔ RightCall w c := by
  cases w with
  | none =>
    cases c with
    | ask f num array count =>
      rcases checkArray_cases num array count with ⟨h1, h2⟩ | ⟨h1, h2⟩ <;>
        simp [checkCall, RightCall, FeaturesOk, checkFeaturesObj, checkValid, h1, h2]
    | tell es num => simp [checkCall, RightCall, refute]
    | getOptima f num array count =>
      rcases checkArray_cases num array count with ⟨h1, h2⟩ | ⟨h1, h2⟩ <;>
        simp [checkCall, RightCall, MaybeFeatures, checkMaybeFeatures, h1, h2]
    | getHistory f num array count =>
      rcases checkArray_cases num array count with ⟨h1, h2⟩ | ⟨h1, h2⟩ <;>
        simp [checkCall, RightCall, MaybeFeatures, checkMaybeFeatures, h1, h2]
    | suggest f ret => cases ret <;> simp [checkCall, RightCall, FeaturesOk, checkFeaturesObj, checkValid, refute]
  | some x =>
    cases c with
    | ask f num array count =>
      rcases checkArray_cases num array count with ⟨h1, h2⟩ | ⟨h1, h2⟩ <;> cases hi : x.isFeatures f <;>
        rcases hv : x.valid f with (b | b) | e | _ <;>
        simp [checkCall, RightCall, FeaturesOk, checkFeaturesObj, checkValid, h1, h2, hi, hv, refute]
    | tell es num => simp [checkCall, RightCall, refute]
    | getOptima f num array count =>
      rcases checkArray_cases num array count with ⟨h1, h2⟩ | ⟨h1, h2⟩ <;> cases hi : x.isFeatures f <;> by_cases h0 : f = 0#64 <;>
        simp [checkCall, RightCall, MaybeFeatures, checkMaybeFeatures, h1, h2, hi, h0, refute]
    | getHistory f num array count =>
      rcases checkArray_cases num array count with ⟨h1, h2⟩ | ⟨h1, h2⟩ <;> cases hi : x.isFeatures f <;> by_cases h0 : f = 0#64 <;>
        simp [checkCall, RightCall, MaybeFeatures, checkMaybeFeatures, h1, h2, hi, h0, refute]
    | suggest f ret =>
      cases ret <;> cases hi : x.isFeatures f <;> rcases hv : x.valid f with (b | b) | e | _ <;>
        simp [checkCall, RightCall, FeaturesOk, checkFeaturesObj, checkValid, hi, hv, refute]

theorem checkCall_refused {w : Option FeatureView} (v : UserVector τ) {c : TunerCall} (h : ¬ RightCall w c) :
    (∃ e, Refusal w v c e ∧ checkCall w c = .err e) ∨
      (checkCall w c = .ub ∧ ∃ x, w = some x ∧ ∃ f, x.valid f = .ub) := by
  cases c with
  | ask f num array count =>
    rcases checkArray_cases num array count with ⟨h1, h2⟩ | ⟨h1, h2⟩
    · cases w with
      | none => simp [RightCall, FeaturesOk, h1] at h
      | some x =>
        cases hi : x.isFeatures f with
        | false => exact .inl ⟨_, .askObject rfl hi, by simp [checkCall, checkFeaturesObj, hi, refute]⟩
        | true =>
          rcases hv : x.valid f with (b | b) | e | _
          · exact .inl ⟨_, .askValid rfl hv, by simp [checkCall, checkFeaturesObj, checkValid, hi, hv, h2, refute]⟩
          · simp [RightCall, FeaturesOk, h1, hi, hv] at h
          · exact .inl ⟨_, .askCheck rfl hv, by simp [checkCall, checkFeaturesObj, checkValid, hi, hv, h2, refute]⟩
          · exact .inr ⟨by simp [checkCall, checkFeaturesObj, checkValid, hi, hv, h2, refute], x, rfl, f, hv⟩
    · cases w with
      | none => exact .inl ⟨_, .askArray h1, by simp [checkCall, checkFeaturesObj, h2]⟩
      | some x =>
        cases hi : x.isFeatures f with
        | false => exact .inl ⟨_, .askObject rfl hi, by simp [checkCall, checkFeaturesObj, hi, refute]⟩
        | true => exact .inl ⟨_, .askArray h1, by simp [checkCall, checkFeaturesObj, hi, h2, refute]⟩
  | tell es num =>
    simp only [RightCall, Classical.not_imp, Decidable.not_not] at h
    exact .inl ⟨_, .tellArray h.1 h.2, by simp [checkCall, refute, h]⟩
  | getOptima f num array count =>
    cases w with
    | none =>
      rcases checkArray_cases num array count with ⟨h1, h2⟩ | ⟨h1, h2⟩
      · simp [RightCall, MaybeFeatures, h1] at h
      · exact .inl ⟨_, .optimaArray h1, by simp [checkCall, checkMaybeFeatures, h2]⟩
    | some x =>
      by_cases hm : f ≠ 0#64 ∧ x.isFeatures f = false
      · exact .inl ⟨_, .optimaObject rfl hm.1 hm.2, by simp [checkCall, checkMaybeFeatures, hm, refute]⟩
      · rcases checkArray_cases num array count with ⟨h1, h2⟩ | ⟨h1, h2⟩
        · refine absurd ⟨fun y hy => ?_, h1⟩ h
          cases hy
          by_cases h0 : f = 0#64
          · exact .inl h0
          · cases hi : x.isFeatures f with
            | true => exact .inr rfl
            | false => exact absurd ⟨h0, hi⟩ hm
        · exact .inl ⟨_, .optimaArray h1, by rw [checkCall, checkMaybeFeatures, refute, if_neg hm, Out.bind_ok, h2]⟩
  | getHistory f num array count =>
    cases w with
    | none =>
      rcases checkArray_cases num array count with ⟨h1, h2⟩ | ⟨h1, h2⟩
      · simp [RightCall, MaybeFeatures, h1] at h
      · exact .inl ⟨_, .historyArray h1, by simp [checkCall, checkMaybeFeatures, h2]⟩
    | some x =>
      by_cases hm : f ≠ 0#64 ∧ x.isFeatures f = false
      · exact .inl ⟨_, .historyObject rfl hm.1 hm.2, by simp [checkCall, checkMaybeFeatures, hm, refute]⟩
      · rcases checkArray_cases num array count with ⟨h1, h2⟩ | ⟨h1, h2⟩
        · refine absurd ⟨fun y hy => ?_, h1⟩ h
          cases hy
          by_cases h0 : f = 0#64
          · exact .inl h0
          · cases hi : x.isFeatures f with
            | true => exact .inr rfl
            | false => exact absurd ⟨h0, hi⟩ hm
        · exact .inl ⟨_, .historyArray h1, by rw [checkCall, checkMaybeFeatures, refute, if_neg hm, Out.bind_ok, h2]⟩
  | suggest f ret =>
    cases w with
    | none =>
      cases ret with
      | false => exact .inl ⟨_, .suggestPlace, by simp [checkCall, checkFeaturesObj, refute]⟩
      | true => simp [RightCall, FeaturesOk] at h
    | some x =>
      cases hi : x.isFeatures f with
      | false => exact .inl ⟨_, .suggestObject rfl hi, by simp [checkCall, checkFeaturesObj, hi, refute]⟩
      | true =>
        cases ret with
        | false => exact .inl ⟨_, .suggestPlace, by simp [checkCall, checkFeaturesObj, hi, refute]⟩
        | true =>
          rcases hv : x.valid f with (b | b) | e | _
          · exact .inl ⟨_, .suggestValid rfl hv, by simp [checkCall, checkFeaturesObj, checkValid, hi, hv, refute]⟩
          · simp [RightCall, FeaturesOk, hi, hv] at h
          · exact .inl ⟨_, .suggestCheck rfl hv, by simp [checkCall, checkFeaturesObj, checkValid, hi, hv, refute]⟩
          · exact .inr ⟨by simp [checkCall, checkFeaturesObj, checkValid, hi, hv, refute], x, rfl, f, hv⟩

/-- A call that reaches the user. -/
theorem call_reaches {w : Option FeatureView} {v : UserVector τ} {t : UserTuner τ} (ht : Wraps v t) {c : TunerCall} (h : Reaches w v c)
    (s : τ) : Does v s (eventOf w c) (callTuner w (some t) c s) := by
  have hc := checkCall_right.mpr h.1
  unfold callTuner
  dsimp only
  rw [hc]
  dsimp only
  cases c with
  | ask f num array count => exact .ask ht.ask
  | tell es num => exact .tell ht.tell
  | getOptima f num array count => exact .getOptima ht.getOptima
  | getHistory f num array count => exact .getHistory ht.getHistory
  | suggest f ret =>
    obtain ⟨g, hg⟩ := Option.isSome_iff_exists.mp (h.2 f ret rfl)
    have : t.serve w (.suggest f ret) s = answerWith .configuration (g (featuresGiven w f) s) := by
      unfold UserTuner.serve
      rw [ht.suggest, hg]
    rw [this]
    exact .suggest hg

/-- A call that does not. -/
theorem call_refused {w : Option FeatureView} {v : UserVector τ} {t : UserTuner τ} (ht : Wraps v t) {c : TunerCall} (h : ¬ Reaches w v c)
    (s : τ) : (∃ e, Refusal w v c e ∧ callTuner w (some t) c s = (s, .err e)) ∨
      (callTuner w (some t) c s = (s, .ub) ∧ ∃ x, w = some x ∧ ∃ f, x.valid f = .ub) := by
  unfold callTuner
  dsimp only
  by_cases hr : RightCall w c
  · rw [checkCall_right.mpr hr]
    left
    dsimp only
    unfold Reaches at h
    simp only [hr, true_and, Classical.not_forall] at h
    obtain ⟨f, ret, rfl, h⟩ := h
    have hn : v.suggest = none := by simpa using h
    refine ⟨_, .suggestAbsent hn, ?_⟩
    unfold UserTuner.serve
    rw [ht.suggest, hn]
  · rcases checkCall_refused v hr with ⟨e, h1, h2⟩ | ⟨h1, h2⟩
    · exact .inl ⟨e, h1, by rw [h2]⟩
    · exact .inr ⟨by rw [h1], h2⟩

/-! ### Writing and reading -/

theorem thenUser_ok {α β : Type} (s : τ) (x : α) (f : α → τ → τ × Out β) : thenUser (s, .ok x) f = f x s := rfl

theorem arrayOf_full (l : List (BitVec 64)) : arrayOf l.length (some l, none) = l := by
  simp [arrayOf]

theorem gather_displays {v : UserVector τ} {t : UserTuner τ} (ht : Wraps v t) {s : τ} {h os : List (BitVec 64)} {st : Bytes}
    (hd : Displays v s h os st) (hl : h.length + os.length < 2 ^ 64) : t.gather s = (s, .ok (h, os)) := by
  have e1 : ifAny h.length (none, none) (t.getHistory 0#64 h.length true false) s = (s, .ok (some h, none)) ∨
      (h = [] ∧ ifAny h.length (none, none) (t.getHistory 0#64 h.length true false) s = (s, .ok (none, none))) := by
    unfold ifAny
    cases h with
    | nil => exact .inr ⟨rfl, rfl⟩
    | cons x xs => exact .inl (by rw [if_neg (by simp), hd.history _ ht.getHistory (by simp)])
  have e2 : ifAny os.length (none, none) (t.getOptima 0#64 os.length true false) s = (s, .ok (some os, none)) ∨
      (os = [] ∧ ifAny os.length (none, none) (t.getOptima 0#64 os.length true false) s = (s, .ok (none, none))) := by
    unfold ifAny
    cases os with
    | nil => exact .inr ⟨rfl, rfl⟩
    | cons x xs => exact .inl (by rw [if_neg (by simp), hd.optima _ ht.getOptima (by simp)])
  have k1 : ∃ l, ifAny h.length (none, none) (t.getHistory 0#64 h.length true false) s = (s, .ok l) ∧ arrayOf h.length l = h := by
    rcases e1 with e | ⟨rfl, e⟩
    · exact ⟨_, e, arrayOf_full h⟩
    · exact ⟨_, e, rfl⟩
  have k2 : ∃ l, ifAny os.length (none, none) (t.getOptima 0#64 os.length true false) s = (s, .ok l) ∧ arrayOf os.length l = os := by
    rcases e2 with e | ⟨rfl, e⟩
    · exact ⟨_, e, arrayOf_full os⟩
    · exact ⟨_, e, rfl⟩
  obtain ⟨l1, a1, a2⟩ := k1
  obtain ⟨l2, b1, b2⟩ := k2
  have c1 : countOf (none, some h.length) = h.length := rfl
  have c2 : countOf (none, some os.length) = os.length := rfl
  unfold UserTuner.gather
  rw [hd.historyCount _ ht.getHistory, thenUser_ok, hd.optimaCount _ ht.getOptima, thenUser_ok, c1, c2, if_neg (by omega), a1, thenUser_ok,
    a2, if_neg hd.notNull, b1, thenUser_ok, b2]

theorem stateSize_displays {v : UserVector τ} {t : UserTuner τ} (ht : Wraps v t) {s : τ} {h os : List (BitVec 64)} {st : Bytes}
    (hd : Displays v s h os st) : t.stateSize s = (s, .ok st.length) := by
  unfold UserTuner.stateSize
  rw [ht.save]
  cases hv : v.save with
  | none => rw [hd.stateless hv]; rfl
  | some g =>
    dsimp only
    rw [hd.stateSize g hv]
    rfl

theorem state_displays {v : UserVector τ} {t : UserTuner τ} (ht : Wraps v t) {s : τ} {h os : List (BitVec 64)} {st : Bytes}
    (hd : Displays v s h os st) : t.state s = (s, .ok st) := by
  unfold UserTuner.state
  rw [stateSize_displays ht hd]
  dsimp only [thenUser]
  rw [ht.save]
  cases hv : v.save with
  | none => rw [hd.stateless hv]
  | some g =>
    dsimp only [ifAny]
    cases st with
    | nil => rfl
    | cons x xs =>
      rw [if_neg (by simp), hd.state g hv (by simp)]
      simp

theorem revive_revived {v : UserVector τ} {t : UserTuner τ} (ht : Wraps v t) (h os : List (BitVec 64)) (st : Bytes) (s : τ) :
    Revived v s h os st (t.revive h os st s) := by
  unfold UserTuner.revive
  rw [ht.restore]
  cases hv : v.restore with
  | some g => exact .inl ⟨g, hv, rfl⟩
  | none => exact .inr ⟨hv, _, ht.tell, rfl⟩

/-- Bytes of a user defined tuner. -/
def userTunerBytes (ops : FloatOps) (little : Bool) (hp : Heap) (pdata : BitVec 64 → Bytes) (o : TunerObj) (st : Bytes) : Bytes :=
  objBytes (tunerTypeOf o.features.isSome) o.handle ++ ((lebBytes userDefinedTuner ++ (runBytes ops little hp pdata o ++ blobBytes st)) ++
    blobBytes o.data)

section
variable {σ : Type} {H : Host σ} {P : Places} {mem mem' : BitVec 64 → Param} {mk : Nat → Param → Out Dist} {hp : Heap}
  {pdata : BitVec 64 → Bytes} {o : TunerObj}

theorem writes_userTuner (h : StoredRun H P mem mem' mk hp pdata o) (st : Bytes) :
    WritesBytes (serUserTuner H.M.ops H.little hp pdata o st) (userTunerBytes H.M.ops H.little hp pdata o st) :=
  writes_seq (writes_obj _ _) (writes_seq (writes_seq (writes_enum _) (writes_seq (writes_run h) (writes_blob st))) (writes_userData _))

theorem length_userTuner (ops : FloatOps) (little : Bool) (hp : Heap) (pdata : BitVec 64 → Bytes) (o : TunerObj) (st : Bytes) :
    szObj (tunerTypeOf o.features.isSome) o.handle + (szEnum userDefinedTuner + (runBytes ops little hp pdata o).length +
      (szSize st.length + st.length)) + szUserData o.data = (userTunerBytes ops little hp pdata o st).length := by
  unfold userTunerBytes
  simp only [List.length_append, length_obj, length_userData,
    show (lebBytes userDefinedTuner).length = szEnum userDefinedTuner from length_leb _, szUserData]
  omega

/-- Reading a user defined tuner, once the outcome of reading what follows its type is known. -/
theorem readsAs_userTuner (hdata : o.data.length < 2 ^ 64) {x : Out ReadRun}
    (hr : ReadsAs (deRun H o.features.isSome P) (runBytes H.M.ops H.little hp pdata o) x) {st : Bytes} (hst : st.length < 2 ^ 64)
    (v : UserVector τ) (pointer : BitVec 64) (s : τ) :
    ReadsAs (deUserTuner H o.features.isSome P (some v) pointer s) (userTunerBytes H.M.ops H.little hp pdata o st) (do
      let r ← x
      let tuner ← createUserTuner (some r.name) true true true true (some v) pointer
      let s' ← reviveOut (tuner.revive (r.history.map (·.handle)) r.optima st s)
      .ok (s', tuner, ⟨o.handle, r.name, r.space, r.objectives, r.features, r.history, ⟨r.history.map (·.handle), r.optima⟩, o.data⟩)) := by
  unfold deUserTuner userTunerBytes
  refine readsAs_step (decodes_obj _ _).1 (readsAs_pass (by simp) ?_)
  rw [List.append_assoc]
  refine readsAs_step (decodes_enum _).1 (readsAs_pass (by simp [userDefinedTuner]) (readsAs_pass (by simp) ?_))
  rw [List.append_assoc]
  exact readsAs_bind hr fun r _ => readsAs_step (decodes_blob hst).1 (readsAs_lift_bind fun t _ => readsAs_lift_bind fun s' _ =>
    readsAs_ok (reads_bind_pure (reads_userData hdata) rfl))

/-- Without callbacks. -/
theorem userTuner_noVector (st : Bytes) (pointer : BitVec 64) (s : τ) :
    ReadsAs (deUserTuner H o.features.isSome P none pointer s) (userTunerBytes H.M.ops H.little hp pdata o st) (.err .invalidValue) := by
  unfold deUserTuner userTunerBytes
  refine readsAs_step (decodes_obj _ _).1 (readsAs_pass (by simp) ?_)
  rw [List.append_assoc]
  refine readsAs_step (decodes_enum _).1 fun tail => ?_
  rw [lift_run, refute, if_pos (by simp)]
  rfl

end

/-- Bytes of a user defined tree tuner. -/
def userTreeTunerBytes (little : Bool) (g : Grove) (addr : Nat → BitVec 64) (pdata : BitVec 64 → Bytes) (o : TreeTunerObj) (st : Bytes) :
    Bytes :=
  objBytes treeTunerType o.handle ++ ((lebBytes userDefinedTuner ++ (treeRunBytes little g addr pdata o ++ blobBytes st)) ++
    blobBytes o.data)

section
variable {H : TreeHost} {P : Places} {mem mem' : BitVec 64 → Param} {g : Grove} {pdata : BitVec 64 → Bytes} {o : TreeTunerObj}

theorem writes_userTreeTuner (h : StoredTreeRun H P mem mem' g pdata o) (addr : Nat → BitVec 64) (st : Bytes) :
    WritesBytes (serUserTreeTuner H.little g addr pdata o st) (userTreeTunerBytes H.little g addr pdata o st) :=
  writes_seq (writes_obj _ _) (writes_seq (writes_seq (writes_enum _) (writes_seq (writes_treeRun h addr) (writes_blob st)))
    (writes_userData _))

theorem length_userTreeTuner (little : Bool) (g : Grove) (addr : Nat → BitVec 64) (pdata : BitVec 64 → Bytes) (o : TreeTunerObj)
    (st : Bytes) :
    szObj treeTunerType o.handle + (szEnum userDefinedTuner + (treeRunBytes little g addr pdata o).length +
      (szSize st.length + st.length)) + szUserData o.data = (userTreeTunerBytes little g addr pdata o st).length := by
  unfold userTreeTunerBytes
  simp only [List.length_append, length_obj, length_userData,
    show (lebBytes userDefinedTuner).length = szEnum userDefinedTuner from length_leb _, szUserData]
  omega

theorem readsAs_userTreeTuner (hdata : o.data.length < 2 ^ 64) (v : UserVector τ) {addr : Nat → BitVec 64} {x : Out ReadTreeRun}
    (hr : ReadsAs (deTreeRun { H with vector := some v.asTreeVector } P) (treeRunBytes H.little g addr pdata o) x) {st : Bytes}
    (hst : st.length < 2 ^ 64) (pointer : BitVec 64) (s : τ) :
    ReadsAs (deUserTreeTuner H P (some v) pointer s) (userTreeTunerBytes H.little g addr pdata o st) (do
      let r ← x
      let tuner ← createUserTuner (some r.name) true true true true (some v) pointer
      let s' ← reviveOut (tuner.revive (r.history.map (·.handle)) r.optima st s)
      .ok (s', tuner, ⟨o.handle, r.name, r.trees, r.space, r.objectives, r.history, ⟨r.history.map (·.handle), r.optima⟩, o.data⟩)) := by
  unfold deUserTreeTuner userTreeTunerBytes
  refine readsAs_step (decodes_obj _ _).1 (readsAs_pass (by simp) ?_)
  rw [List.append_assoc]
  refine readsAs_step (decodes_enum _).1 (readsAs_pass (by simp [userDefinedTuner]) (readsAs_pass (by simp) ?_))
  rw [List.append_assoc]
  exact readsAs_bind hr fun r _ => readsAs_step (decodes_blob hst).1 (readsAs_lift_bind fun t _ => readsAs_lift_bind fun s' _ =>
    readsAs_ok (reads_bind_pure (reads_userData hdata) rfl))

theorem userTreeTuner_noVector (addr : Nat → BitVec 64) (st : Bytes) (pointer : BitVec 64) (s : τ) :
    ReadsAs (deUserTreeTuner H P none pointer s) (userTreeTunerBytes H.little g addr pdata o st) (.err .invalidValue) := by
  unfold deUserTreeTuner userTreeTunerBytes
  refine readsAs_step (decodes_obj _ _).1 (readsAs_pass (by simp) ?_)
  rw [List.append_assoc]
  refine readsAs_step (decodes_enum _).1 fun tail => ?_
  rw [lift_run, refute, if_pos (by simp)]
  rfl

end

/-! ### Where optima come from -/

/-- The addresses a map knows. -/
def Handles.addrs (m : Handles) : List (BitVec 64) := m.map fun x => x.2.addr

theorem add_addrs {m m' : Handles} {h : BitVec 64} {x : Mapped} (ha : m.add h x = .ok m') : m'.addrs = x.addr :: m.addrs := by
  unfold Handles.add at ha
  split at ha
  · cases ha
  · obtain rfl := Out.ok.inj ha
    rfl

theorem get_addrs {m : Handles} {h : BitVec 64} {x : Mapped} (hg : m.get h = some x) : x.addr ∈ m.addrs := by
  unfold Handles.get at hg
  cases hf : m.find? fun x => decide (x.1 = h) with
  | none => rw [hf] at hg; cases hg
  | some y =>
    rw [hf] at hg
    obtain rfl := Option.some.inj hg
    exact List.mem_map.mpr ⟨y, List.mem_of_find?_eq_some hf, rfl⟩

theorem findOptima_addrs {m : Handles} : ∀ (hs : List (BitVec 64)) {os : List (BitVec 64)}, findOptima m hs = .ok os → ∀ x ∈ os, x ∈ m.addrs
  | [], os, h => by
    obtain rfl := Out.ok.inj h
    simp
  | k :: ks, os, h => by
    rw [findOptima] at h
    obtain ⟨x, h1, h⟩ := bind_eq_ok h
    obtain ⟨xs, h2, h⟩ := bind_eq_ok h
    obtain rfl := Out.ok.inj h
    intro y hy
    rcases List.mem_cons.mp hy with rfl | hy
    · unfold findOptimum at h1
      cases hg : m.get k with
      | none => rw [hg] at h1; cases h1
      | some z =>
        rw [hg] at h1
        obtain rfl := Out.ok.inj h1
        exact get_addrs hg
    · exact findOptima_addrs ks h2 y hy

theorem lift_rd_ok {α β : Type} {o : Out α} {f : α → Rd β} {bs : Bytes} {y : β × Bytes} (h : (Rd.lift o >>= f) bs = .ok y) :
    ∃ x, o = .ok x ∧ f x bs = .ok y := by
  rw [lift_run] at h
  exact bind_eq_ok h

theorem deObjSpace_addrs {ops : FloatOps} {jen : Bytes → BitVec 32} {little : Bool} {paramAt : Nat → BitVec 64} {m : Handles} {addr : BitVec 64}
    {bs : Bytes} {x : (Handles × ObjSpaceObj × List Bytes) × Bytes} (h : deObjSpace ops jen little paramAt m addr bs = .ok x) :
    x.1.1.addrs = addr :: m.addrs := by
  unfold deObjSpace at h
  obtain ⟨_, _, -, h⟩ := DistObj.rd_bind_ok h
  obtain ⟨_, -, h⟩ := lift_rd_ok h
  obtain ⟨_, _, -, h⟩ := DistObj.rd_bind_ok h
  obtain ⟨_, _, -, h⟩ := DistObj.rd_bind_ok h
  obtain ⟨_, _, -, h⟩ := DistObj.rd_bind_ok h
  split at h
  · cases h
  · obtain ⟨_, _, -, h⟩ := DistObj.rd_bind_ok h
    obtain ⟨_, _, -, h⟩ := DistObj.rd_bind_ok h
    obtain ⟨_, -, h⟩ := lift_rd_ok h
    obtain ⟨_, -, h⟩ := lift_rd_ok h
    obtain ⟨_, ha, h⟩ := lift_rd_ok h
    obtain ⟨_, _, -, h⟩ := DistObj.rd_bind_ok h
    obtain rfl := Out.ok.inj h
    exact add_addrs ha

theorem deFeaturesOf_addrs {ops : FloatOps} {jen : Bytes → BitVec 32} {little wf : Bool} {P : Places} {m : Handles}
    {bs : Bytes} {x : (Handles × Option (FeatSpaceObj × List Bytes)) × Bytes} (h : deFeaturesOf ops jen little wf P m bs = .ok x) :
    x.1.1.addrs = if wf then P.features :: m.addrs else m.addrs := by
  unfold deFeaturesOf at h
  cases wf with
  | false =>
    rw [if_neg (by decide)] at h
    obtain rfl := Out.ok.inj h
    rfl
  | true =>
    rw [if_pos rfl] at h
    obtain ⟨y, _, hy, h⟩ := DistObj.rd_bind_ok h
    obtain rfl := Out.ok.inj h
    unfold deFeatSpace at hy
    obtain ⟨_, _, -, hy⟩ := DistObj.rd_bind_ok hy
    obtain ⟨_, -, hy⟩ := lift_rd_ok hy
    obtain ⟨_, _, -, hy⟩ := DistObj.rd_bind_ok hy
    obtain ⟨_, _, -, hy⟩ := DistObj.rd_bind_ok hy
    obtain ⟨_, _, -, hy⟩ := DistObj.rd_bind_ok hy
    obtain ⟨_, -, hy⟩ := lift_rd_ok hy
    obtain ⟨_, ha, hy⟩ := lift_rd_ok hy
    obtain ⟨_, _, -, hy⟩ := DistObj.rd_bind_ok hy
    obtain ⟨rfl, -⟩ := Prod.mk.inj (Out.ok.inj hy)
    exact add_addrs ha

theorem deEval_addrs {jen : Bytes → BitVec 32} {little wf : Bool} {m : Handles} {p : EvalPlace} {bs : Bytes}
    {x : (Handles × EvalObj) × Bytes} (h : deEval jen little wf true (some m) p bs = .ok x) :
    x.1.1.addrs = x.1.2.handle :: m.addrs ∧ x.1.2.handle = p.eval := by
  unfold deEval at h
  obtain ⟨_, _, -, h⟩ := DistObj.rd_bind_ok h
  obtain ⟨_, -, h⟩ := lift_rd_ok h
  obtain ⟨_, _, -, h⟩ := DistObj.rd_bind_ok h
  obtain ⟨_, _, -, h⟩ := DistObj.rd_bind_ok h
  obtain ⟨_, _, -, h⟩ := DistObj.rd_bind_ok h
  obtain ⟨_, _, -, h⟩ := DistObj.rd_bind_ok h
  obtain ⟨_, -, h⟩ := lift_rd_ok h
  obtain ⟨_, -, h⟩ := lift_rd_ok h
  obtain ⟨_, ha, h⟩ := lift_rd_ok h
  obtain ⟨_, _, -, h⟩ := DistObj.rd_bind_ok h
  obtain rfl := Out.ok.inj h
  exact ⟨add_addrs ha, rfl⟩

theorem deHistory_addrs {jen : Bytes → BitVec 32} {little wf : Bool} {P : Places} : ∀ (n i : Nat) (m : Handles) (bs : Bytes)
    (x : (Handles × List EvalObj) × Bytes), deHistory jen little wf P n i m bs = .ok x →
    ∀ a ∈ x.1.1.addrs, a ∈ x.1.2.map (·.handle) ∨ a ∈ m.addrs
  | 0, i, m, bs, x, h => by
    obtain rfl := Out.ok.inj h
    exact fun a ha => .inr ha
  | n + 1, i, m, bs, x, h => by
    rw [deHistory] at h
    obtain ⟨e, _, he, h⟩ := DistObj.rd_bind_ok h
    obtain ⟨r, _, hr, h⟩ := DistObj.rd_bind_ok h
    obtain rfl := Out.ok.inj h
    intro a ha
    rcases deHistory_addrs n (i + 1) _ _ _ hr a ha with h1 | h1
    · exact .inl (by simp only [List.map_cons]; exact List.mem_cons_of_mem _ h1)
    · have := (deEval_addrs he).1
      rw [show e.1.addrs = _ from this] at h1
      rcases List.mem_cons.mp h1 with rfl | h1
      · exact .inl (by simp)
      · exact .inr h1

/-- Every optimum read is at the address of an evaluation of the history or of a space. -/
theorem deRun_optima {σ : Type} {H : Host σ} {wf : Bool} {P : Places} {bs : Bytes} {x : ReadRun × Bytes} (h : deRun H wf P bs = .ok x) :
    ∀ a ∈ x.1.optima, a ∈ x.1.history.map (·.handle) ∨ a = P.space ∨ a = P.objectives ∨ (wf = true ∧ a = P.features) := by
  unfold deRun at h
  obtain ⟨_, _, -, h⟩ := DistObj.rd_bind_ok h
  obtain ⟨s, _, -, h⟩ := DistObj.rd_bind_ok h
  obtain ⟨os, _, ho, h⟩ := DistObj.rd_bind_ok h
  obtain ⟨fs, _, hf, h⟩ := DistObj.rd_bind_ok h
  obtain ⟨_, _, -, h⟩ := DistObj.rd_bind_ok h
  obtain ⟨_, _, -, h⟩ := DistObj.rd_bind_ok h
  split at h
  · cases h
  · obtain ⟨es, _, he, h⟩ := DistObj.rd_bind_ok h
    obtain ⟨hs, _, -, h⟩ := DistObj.rd_bind_ok h
    obtain ⟨opt, hopt, h⟩ := lift_rd_ok h
    obtain rfl := Out.ok.inj h
    intro a ha
    have h1 := findOptima_addrs hs hopt a ha
    rcases deHistory_addrs _ _ _ _ _ he a h1 with h2 | h2
    · exact .inl h2
    · right
      have e1 := deFeaturesOf_addrs hf
      have e2 := deObjSpace_addrs ho
      rw [show fs.1.addrs = _ from e1, show os.1.addrs = _ from e2] at h2
      cases wf with
      | false => simpa [Handles.addrs, or_comm] using h2
      | true =>
        simp only [if_true, Handles.addrs, List.map_cons, List.map_nil, List.mem_cons, List.not_mem_nil, or_false] at h2
        rcases h2 with h2 | h2 | h2
        · exact .inr (.inr ⟨rfl, h2⟩)
        · exact .inr (.inl h2)
        · exact .inl h2

theorem deTreeEval_addrs {jen : Bytes → BitVec 32} {little : Bool} {m : Handles} {p : EvalPlace} {bs : Bytes}
    {x : (Handles × TreeEvalObj) × Bytes} (h : deTreeEval jen little true (some m) p bs = .ok x) :
    x.1.1.addrs = x.1.2.handle :: m.addrs := by
  unfold deTreeEval at h
  obtain ⟨_, _, -, h⟩ := DistObj.rd_bind_ok h
  obtain ⟨_, -, h⟩ := lift_rd_ok h
  obtain ⟨_, _, -, h⟩ := DistObj.rd_bind_ok h
  obtain ⟨_, _, -, h⟩ := DistObj.rd_bind_ok h
  obtain ⟨_, _, -, h⟩ := DistObj.rd_bind_ok h
  obtain ⟨_, -, h⟩ := lift_rd_ok h
  obtain ⟨_, -, h⟩ := lift_rd_ok h
  obtain ⟨_, ha, h⟩ := lift_rd_ok h
  obtain ⟨_, _, -, h⟩ := DistObj.rd_bind_ok h
  obtain rfl := Out.ok.inj h
  exact add_addrs ha

theorem deTreeHistory_addrs {jen : Bytes → BitVec 32} {little : Bool} {P : Places} : ∀ (n i : Nat) (m : Handles) (bs : Bytes)
    (x : (Handles × List TreeEvalObj) × Bytes), deTreeHistory jen little P n i m bs = .ok x →
    ∀ a ∈ x.1.1.addrs, a ∈ x.1.2.map (·.handle) ∨ a ∈ m.addrs
  | 0, i, m, bs, x, h => by
    obtain rfl := Out.ok.inj h
    exact fun a ha => .inr ha
  | n + 1, i, m, bs, x, h => by
    rw [deTreeHistory] at h
    obtain ⟨e, _, he, h⟩ := DistObj.rd_bind_ok h
    obtain ⟨r, _, hr, h⟩ := DistObj.rd_bind_ok h
    obtain rfl := Out.ok.inj h
    intro a ha
    rcases deTreeHistory_addrs n (i + 1) _ _ _ hr a ha with h1 | h1
    · exact .inl (by simp only [List.map_cons]; exact List.mem_cons_of_mem _ h1)
    · have := deTreeEval_addrs he
      rw [show e.1.addrs = _ from this] at h1
      rcases List.mem_cons.mp h1 with rfl | h1
      · exact .inl (by simp)
      · exact .inr h1

theorem deTreeSpace_addrs {ops : FloatOps} {little : Bool} {gens : List (Bytes × Bytes)} {fresh : RngObj} {vector : Option TreeVector}
    {g : Grove} {m : Handles} {addr : BitVec 64} {bs : Bytes} {x : (Handles × Grove × ReadTreeSpace) × Bytes}
    (h : deTreeSpace ops little gens fresh vector g m addr bs = .ok x) : x.1.1.addrs = addr :: m.addrs := by
  unfold deTreeSpace at h
  obtain ⟨_, _, -, h⟩ := DistObj.rd_bind_ok h
  obtain ⟨_, -, h⟩ := lift_rd_ok h
  obtain ⟨_, _, -, h⟩ := DistObj.rd_bind_ok h
  obtain ⟨_, -, h⟩ := lift_rd_ok h
  obtain ⟨_, _, -, h⟩ := DistObj.rd_bind_ok h
  obtain ⟨_, _, -, h⟩ := DistObj.rd_bind_ok h
  obtain ⟨_, _, -, h⟩ := DistObj.rd_bind_ok h
  obtain ⟨_, -, h⟩ := lift_rd_ok h
  obtain ⟨_, ha, h⟩ := lift_rd_ok h
  obtain ⟨_, _, -, h⟩ := DistObj.rd_bind_ok h
  obtain rfl := Out.ok.inj h
  exact add_addrs ha

theorem deTreeRun_optima {H : TreeHost} {P : Places} {bs : Bytes} {x : ReadTreeRun × Bytes} (h : deTreeRun H P bs = .ok x) :
    ∀ a ∈ x.1.optima, a ∈ x.1.history.map (·.handle) ∨ a = P.space ∨ a = P.objectives := by
  unfold deTreeRun at h
  obtain ⟨_, _, -, h⟩ := DistObj.rd_bind_ok h
  obtain ⟨s, _, hs, h⟩ := DistObj.rd_bind_ok h
  obtain ⟨os, _, ho, h⟩ := DistObj.rd_bind_ok h
  obtain ⟨_, _, -, h⟩ := DistObj.rd_bind_ok h
  obtain ⟨_, _, -, h⟩ := DistObj.rd_bind_ok h
  split at h
  · cases h
  · obtain ⟨es, _, he, h⟩ := DistObj.rd_bind_ok h
    obtain ⟨ks, _, -, h⟩ := DistObj.rd_bind_ok h
    obtain ⟨opt, hopt, h⟩ := lift_rd_ok h
    obtain rfl := Out.ok.inj h
    intro a ha
    have h1 := findOptima_addrs ks hopt a ha
    rcases deTreeHistory_addrs _ _ _ _ _ he a h1 with h2 | h2
    · exact .inl h2
    · right
      have e1 := deTreeSpace_addrs hs
      have e2 := deObjSpace_addrs ho
      rw [show os.1.addrs = _ from e2, show s.1.addrs = _ from e1] at h2
      simpa [Handles.addrs, or_comm] using h2

end CCS
