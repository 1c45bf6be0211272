import Verif.Props.Tuner
import Verif.Spec.BoundTuner

/-!
# Tuners used from Python and Ruby

Property C154.
-/

namespace CCS.Props.BoundTuner

open CCS CCS.Spec CCS.BoundTuner CCS.BoundTuner.Spec CCS.BoundInterval CCS.Props

theorem objectsOf_ok : ∀ {hs : List (BitVec 64)}, (∀ h ∈ hs, h ≠ 0#64) → objectsOf hs = .ok hs
  | [], _ => rfl
  | h :: hs, hn => by
    simp only [objectsOf, objectOf, if_neg (hn h List.mem_cons_self), Out.bind_ok, objectsOf_ok fun x hx => hn x (List.mem_cons_of_mem _ hx)]

theorem listAsked_listing {l : List (BitVec 64)} (hn : ∀ h ∈ l, h ≠ 0#64) : sizeAsked (listing l) = .ok l.length ∧ listAsked (listing l) = .ok l := by
  refine ⟨rfl, ?_⟩
  have h1 : sizeAsked (listing l) = .ok l.length := rfl
  have h2 : listing l (some l.length) false = .ok (some l, none) := by simp [listing]
  simp only [listAsked, h1, h2, Out.bind_ok, Option.getD_some]
  exact objectsOf_ok hn

theorem keepLoop_subset (compare : BitVec 64 → BitVec 64 → Out Comparison) (e : BitVec 64) : ∀ (os : List (BitVec 64)) (d : Bool) r,
    keepLoop compare e d os = .ok r → ∀ o ∈ r.2, o ∈ os
  | [], d, r, h => by unfold keepLoop at h; cases h; nofun
  | o :: os, true, r, h => by
    unfold keepLoop at h
    cases hk : keepLoop compare e true os with
    | err x => rw [hk] at h; cases h
    | ub => rw [hk] at h; cases h
    | ok r' =>
      rw [hk] at h
      cases h
      intro x hx
      rcases List.mem_cons.1 hx with rfl | hx
      · exact List.mem_cons_self
      · exact List.mem_cons_of_mem _ (keepLoop_subset compare e os true r' hk x hx)
  | o :: os, false, r, h => by
    have step : ∀ d', (keepLoop compare e d' os >>= fun r => .ok (r.1, o :: r.2)) = .ok r → ∀ x ∈ r.2, x ∈ o :: os := by
      intro d' h
      cases hk : keepLoop compare e d' os with
      | err x => rw [hk] at h; cases h
      | ub => rw [hk] at h; cases h
      | ok r' =>
        rw [hk] at h
        cases h
        intro x hx
        rcases List.mem_cons.1 hx with rfl | hx
        · exact List.mem_cons_self
        · exact List.mem_cons_of_mem _ (keepLoop_subset compare e os d' r' hk x hx)
    have skip : ∀ d', keepLoop compare e d' os = .ok r → ∀ x ∈ r.2, x ∈ o :: os := fun d' h x hx =>
      List.mem_cons_of_mem _ (keepLoop_subset compare e os d' r h x hx)
    unfold keepLoop at h
    cases hc : compare e o with
    | ub => rw [hc] at h; cases h
    | err x => rw [hc] at h; exact skip _ h
    | ok c =>
      rw [hc] at h
      cases c with
      | better => exact skip _ h
      | notComparable => exact step _ h
      | equivalent => exact step _ h
      | worse => exact step _ h

theorem tell_proper (env : TunerEnv) : ∀ (es : List (BitVec 64)) (t : Tuner), (∀ o ∈ t.optima, o ∈ t.history) → (∀ o ∈ t.history, o ≠ 0#64) →
    (∀ o ∈ (t.tell env es).1.optima, o ∈ (t.tell env es).1.history) ∧ ∀ o ∈ (t.tell env es).1.history, o ≠ 0#64
  | [], t, h1, h2 => ⟨h1, h2⟩
  | e :: es, t, h1, h2 => by
    unfold Tuner.tell
    split
    · exact ⟨h1, h2⟩
    · rename_i h0
      split
      · exact tell_proper env es t h1 h2
      · split
        · rename_i t' hl
          unfold Tuner.learn at hl
          cases hk : keepLoop env.compare e false t.optima with
          | err x => rw [hk] at hl; cases hl
          | ub => rw [hk] at hl; cases hl
          | ok r =>
            rw [hk] at hl
            cases hl
            refine tell_proper env es _ (fun o ho => ?_) fun o ho => ?_
            · have hsub : ∀ o ∈ r.2, o ∈ t.history ++ [e] := fun o ho =>
                List.mem_append_left _ (h1 o (keepLoop_subset _ _ _ _ _ hk o ho))
              dsimp only at ho ⊢
              split at ho
              · exact hsub o ho
              · rcases List.mem_append.1 ho with ho | ho
                · exact hsub o ho
                · exact List.mem_append_right _ ho
            · rcases List.mem_append.1 ho with ho | ho
              · exact h2 o ho
              · rw [List.mem_singleton.1 ho]; exact h0
        · exact ⟨h1, h2⟩
        · exact ⟨h1, h2⟩

theorem after_proper (calls : List (TunerEnv × List (BitVec 64))) :
    (∀ o ∈ (after calls).optima, o ∈ (after calls).history) ∧ ∀ o ∈ (after calls).history, o ≠ 0#64 := by
  have key : ∀ (cs : List (TunerEnv × List (BitVec 64))) (t : Tuner), (∀ o ∈ t.optima, o ∈ t.history) → (∀ o ∈ t.history, o ≠ 0#64) →
      (∀ o ∈ (t.tells cs).optima, o ∈ (t.tells cs).history) ∧ ∀ o ∈ (t.tells cs).history, o ≠ 0#64 := by
    intro cs
    induction cs with
    | nil => exact fun t h1 h2 => ⟨h1, h2⟩
    | cons c cs ih => exact fun t h1 h2 => ih _ (tell_proper c.1 c.2 t h1 h2).1 (tell_proper c.1 c.2 t h1 h2).2
  exact key calls .empty nofun nofun

theorem takeWhile_sound {es : List (BitVec 64)} (h : ∀ e ∈ es, e ≠ 0#64) : es.takeWhile (· != 0#64) = es := by
  induction es with
  | nil => rfl
  | cons e es ih => simp [h e List.mem_cons_self, ih fun x hx => h x (List.mem_cons_of_mem _ hx)]

/-- **C154** Whatever batches of evaluations a program tells, the history it reads is the list of those that succeeded, in order, and its size is
their number; this is so of tuners for configurations, features and trees. -/
theorem C154_history (calls : List (TunerEnv × List (BitVec 64))) (hs : ∀ c ∈ calls, Sound c) :
    listAsked (after calls).getHistory = .ok (successes calls) ∧ sizeAsked (after calls).getHistory = .ok (successes calls).length := by
  have hh : (after calls).history = successes calls := by
    have := C64_history calls .empty fun c hc => (hs c hc).2
    unfold after successes
    rw [this]
    have he : ∀ c ∈ calls, c.2.takeWhile (· != 0#64) = c.2 := fun c hc => takeWhile_sound (hs c hc).1
    simp only [Tuner.empty, List.nil_append]
    clear this hs
    induction calls with
    | nil => rfl
    | cons c cs ih =>
      rw [List.flatMap_cons, List.flatMap_cons, he c List.mem_cons_self, ih fun x hx => he x (List.mem_cons_of_mem _ hx)]
  have := listAsked_listing (after_proper calls).2
  rw [hh] at this
  unfold Tuner.getHistory
  rw [hh]
  exact ⟨this.2, this.1⟩

/-- **C154** The optima read are entries of the history read, whatever is told and however often; reading changes nothing. -/
theorem C154_optima (calls : List (TunerEnv × List (BitVec 64))) :
    ∃ os hs, listAsked (after calls).getOptima = .ok os ∧ sizeAsked (after calls).getOptima = .ok os.length ∧
      listAsked (after calls).getHistory = .ok hs ∧ ∀ o ∈ os, o ∈ hs := by
  obtain ⟨h1, h2⟩ := after_proper calls
  obtain ⟨a1, a2⟩ := listAsked_listing fun o ho => h2 o (h1 o ho)
  exact ⟨_, _, a2, a1, (listAsked_listing h2).2, h1⟩

section
variable (ops : FloatOps) (jen : Bytes → BitVec 32) (little : Bool) (spaces : BitVec 64 → ObjSpace) (evals : BitVec 64 → Evaluation)

/-- **C154** (partial) The optima read are the Pareto front of the history read.  Missing: what is missing in `C63_pareto_front_partial`. -/
theorem C154_front_partial (sp : BitVec 64) (vals : BitVec 64 → List Value) (batches : List (List (BitVec 64)))
    (h : AllRated ops jen little (spaces sp) sp evals vals batches.flatten) :
    let t := after (batches.map fun es => (evalEnv ops jen little spaces evals, es))
    ∃ os, listAsked t.getOptima = .ok os ∧
      listAsked t.getHistory = .ok (batches.flatten.filter fun e => (evals e).result == 0#32) ∧
      IsFront (fun x y => Dominates (spaces sp).objectives (vals x) (vals y)) (fun x y => Tied (vals x) (vals y))
        (batches.flatten.filter fun e => (evals e).result == 0#32) os := by
  intro t
  obtain ⟨h1, h2⟩ := C63_pareto_front_partial ops jen little spaces evals sp vals batches h
  obtain ⟨p1, p2⟩ := after_proper (batches.map fun es => (evalEnv ops jen little spaces evals, es))
  refine ⟨t.optima, (listAsked_listing fun o ho => p2 o (p1 o ho)).2, ?_, ?_⟩
  · have := (listAsked_listing p2).2
    unfold after at this
    rw [h1] at this
    show listAsked (listing t.history) = _
    rw [show t.history = _ from h1]
    exact this
  · rw [← h1]
    exact h2

end

/-- **C154** With features, a features tuner gives the entries with equal features, in order; without, all. -/
theorem C154_features (little : Bool) (feats : BitVec 64 → Binding) (evals : BitVec 64 → FeaturesEvaluation)
    (calls : List (TunerEnv × List (BitVec 64))) (hs : ∀ c ∈ calls, Sound c) :
    listAsked ((after calls).getFeaturesHistory little feats evals (featuresOrAll none)) = .ok (successes calls) ∧
    ∀ f, f ≠ 0#64 → ∃ l, listAsked ((after calls).getFeaturesHistory little feats evals (featuresOrAll (some f))) = .ok l ∧
      sizeAsked ((after calls).getFeaturesHistory little feats evals (featuresOrAll (some f))) = .ok l.length ∧
      l.Sublist (successes calls) ∧ (∀ e, e ∈ l ↔ e ∈ successes calls ∧ SameBinding (feats f) (feats (evals e).features)) ∧
      ∃ os, listAsked ((after calls).getFeaturesOptima little feats evals (featuresOrAll (some f))) = .ok os ∧
        ∀ o ∈ os, o ∈ l := by
  obtain ⟨p1, p2⟩ := after_proper calls
  have hh : (after calls).history = successes calls := by
    have := (C154_history calls hs).1
    rw [show (after calls).getHistory = listing (after calls).history from rfl, (listAsked_listing p2).2] at this
    exact Out.ok.inj this
  refine ⟨?_, fun f hf => ?_⟩
  · show listAsked (listing (selected little feats evals 0#64 (after calls).history)) = _
    unfold selected
    rw [if_pos rfl, (listAsked_listing p2).2, hh]
  · have hp : ∀ e, sameFeatures little feats evals f e = true ↔ SameBinding (feats f) (feats (evals e).features) := by
      intro e
      unfold sameFeatures
      rw [beq_iff_eq]
      exact (bindingCmp_total little feats).eq_iff f (evals e).features
    have hsel : ∀ l, selected little feats evals f l = l.filter (sameFeatures little feats evals f) := fun l => if_neg hf
    have hl : ∀ o ∈ (after calls).history.filter (sameFeatures little feats evals f), o ≠ 0#64 := fun o ho => p2 o (List.mem_filter.1 ho).1
    have ho : ∀ o ∈ (after calls).optima.filter (sameFeatures little feats evals f), o ≠ 0#64 := fun o ho =>
      p2 o (p1 o (List.mem_filter.1 ho).1)
    refine ⟨(after calls).history.filter (sameFeatures little feats evals f), ?_, ?_, hh ▸ List.filter_sublist, fun e => ?_,
      (after calls).optima.filter (sameFeatures little feats evals f), ?_, fun o ho => ?_⟩
    · show listAsked (listing (selected little feats evals f (after calls).history)) = _
      rw [hsel]; exact (listAsked_listing hl).2
    · show sizeAsked (listing (selected little feats evals f (after calls).history)) = _
      rw [hsel]; exact (listAsked_listing hl).1
    · rw [List.mem_filter, hp, hh]
    · show listAsked (listing (selected little feats evals f (after calls).optima)) = _
      rw [hsel]; exact (listAsked_listing ho).2
    · obtain ⟨a, b⟩ := List.mem_filter.1 ho
      exact List.mem_filter.2 ⟨p1 o a, b⟩

/-! ## Asking -/

theorem arrayOf_nat {n : Nat} (h : n < 1152921504606846976) : arrayOf (n : Int) = .ok n := by
  have h2 : (n : Int) < 1152921504606846976 := Int.ofNat_lt.2 h
  have h1 : (0 : Int) ≤ (n : Int) := Int.natCast_nonneg n
  simp only [arrayOf, h1, h2, and_self, if_true, Int.toNat_natCast]

theorem ask_array (ops : FloatOps) (jen : Bytes → BitVec 32) (little : Bool) (s : Space) (time : Nat) {count : Int} {n : Nat}
    (h : arrayOf count = .ok n) : ask ops jen little s time count =
      match sampleMany ops jen little s time n with
      | (s', vs, .ok ()) => (s', [], .ok ((vs.map some ++ List.replicate (n - vs.length) none).take n))
      | (s', vs, .err e) => (s', vs, .err e)
      | (s', vs, .ub) => (s', vs, .ub) := by
  unfold ask
  rw [h]
  rfl

theorem ask_refused (ops : FloatOps) (jen : Bytes → BitVec 32) (little : Bool) (s : Space) (time : Nat) {count : Int} (h : count < 0) :
    ask ops jen little s time count = (s, [], .err .external) := by
  have : arrayOf count = .err .external := if_neg (by omega)
  unfold ask
  rw [this]

section
variable (ops : FloatOps) (jen : Bytes → BitVec 32) (little : Bool) (mem : BitVec 64 → Param) (mk : Nat → Param → Out Dist)

/-- **C154** Asking for a number of configurations gives that many, each valid and accepted by the check of the space, and nothing made is lost; or
raises the error of the sampling.  A negative number raises, and nothing happens. -/
theorem C154_ask_partial (hmk : OneDimensional mk) (hmkb : ∀ id p d, mk id p = .ok d → WellBehaved d) {history : List SpaceOp}
    (hw : ∀ op ∈ history, WellCalled op) (hgiven : ∀ op ∈ history, ∀ d ∈ SpaceOp.given op, WellBehaved d) {s : Space}
    (hs : s = Space.empty.run ops jen little mem mk history) (hu : ∀ w ∈ s.params, Usable ops jen little w.param) (time : Nat) :
    (∀ n : Nat, 100 * n < 18446744073709551616 → ∀ xs, (ask ops jen little s time (n : Int)).2.2 = .ok xs →
      xs.length = n ∧ (ask ops jen little s time (n : Int)).2.1 = [] ∧
      ∀ x ∈ xs, ∃ v, x = some v ∧ Valid ops jen little s v ∧ (checkSpace ops jen little s v).2 = .ok true) ∧
    (∀ n : Int, n < 0 → ask ops jen little s time n = (s, [], .err .external)) := by
  refine ⟨fun n hn xs hx => ?_, fun n hn => ?_⟩
  · have ha : arrayOf (n : Int) = .ok n := arrayOf_nat (by omega)
    rw [ask_array ops jen little s time ha] at hx ⊢
    have hval := fun v => C50_samples_valid_partial ops jen little mem mk hmk hmkb hw hgiven hs hu time n hn (v := v)
    cases hm : sampleMany ops jen little s time n with
    | mk s' r =>
      obtain ⟨vs, r⟩ := r
      rw [hm] at hval
      simp only [hm] at hx ⊢
      cases r with
      | err e => cases hx
      | ub => cases hx
      | ok u =>
        have hlen : vs.length = n := by
          by_cases h0 : n = 0
          · subst h0; rw [C56_none] at hm; cases hm; rfl
          · obtain ⟨m, -, -, -, h1 | h1 | h1⟩ := C56_many_samples ops jen little mem mk hmk ⟨history, hw, hs⟩ time n h0 hn hm
            · exact h1.2
            · cases h1.2.2
            · rcases h1.2.2 with ⟨e, -, h2⟩ | ⟨-, h2⟩ <;> cases h2
        have hxs : xs = vs.map some := by
          cases hx
          rw [hlen, Nat.sub_self, List.replicate_zero, List.append_nil, List.take_of_length_le (by simp [hlen])]
        subst hxs
        refine ⟨by simp [hlen], rfl, fun x hx => ?_⟩
        obtain ⟨v, hv, rfl⟩ := List.mem_map.1 hx
        obtain ⟨h1, -, h2⟩ := hval v hv
        exact ⟨v, rfl, h1, h2⟩
  · exact ask_refused ops jen little s time hn

/-- **C154, violated** When the sampling fails, the configurations it had found are lost: the library hands them over in the array, but the
bindings raise without looking at it, and nobody releases them. -/
theorem C154_ask_loses {s s' : Space} {time n : Nat} (hn : n < 1152921504606846976) {vs : List (List Value)} {e : Err}
    (h : sampleMany ops jen little s time n = (s', vs, .err e)) : ask ops jen little s time (n : Int) = (s', vs, .err e) := by
  have ha : arrayOf (n : Int) = .ok n := arrayOf_nat hn
  rw [ask_array ops jen little s time ha]
  simp only [h]

end

/-- A distribution that draws 0 first and 5 ever after. -/
def onceMk (id : Nat) (_ : Param) : Out Dist :=
  .ok ⟨BitVec.ofNat 64 id, 1, [⟨.int, 0#64, 10#64, 1#32, 0#32⟩],
    fun t _ n => .ok [(List.range n).map fun _ => if t = 0 then 0#64 else 5#64]⟩

/-- One parameter, which is not to be 5. -/
def onceSpace : Space := Space.empty.run exOps exJen true exMem onceMk [.addParameter 1#64 none, .addClause (isValue 1#64 parA 5#64)]

/-- A program that asks for two configurations: one is found, the other not after 200 attempts. -/
theorem C154_ask_loses_reached : (ask exOps exJen true onceSpace 0 2).2 = ([[.int 0#64]], .err .samplingUnsuccessful) := by decide +kernel

/-! ## Suggestions of features tuners -/

section
variable (ops : FloatOps) (jen : Bytes → BitVec 32) (little : Bool)

/-- **C154** Suggestions for valid features are configurations of optima with these features, if there are any; without features the call raises in
both languages. -/
theorem C154_suggest_for (lang : Lang) (feats : BitVec 64 → Binding) (evals : BitVec 64 → FeaturesEvaluation) (t : Tuner) (s : Space) (time : Nat)
    (draw : BitVec 64) :
    (∀ f, f ≠ 0#64 → (∃ o ∈ t.optima, SameBinding (feats f) (feats (evals o).features)) →
      ∃ o ∈ t.optima, SameBinding (feats f) (feats (evals o).features) ∧
        BoundTuner.suggestFor ops jen little lang feats evals (.ok true) t (some f) s draw time =
          (s, .ok (.known (evals o).evaluation.configuration))) ∧
    (∀ valid, ∃ e, BoundTuner.suggestFor ops jen little lang feats evals valid t none s draw time = (s, .err e)) := by
  refine ⟨fun f hf ho => (C65_features ops jen little feats evals t f hf s time draw).1 ho, fun valid => ?_⟩
  cases lang with
  | python => exact ⟨_, rfl⟩
  | ruby => exact ⟨.invalidObject, rfl⟩

end

/-! ## Examples -/

/-- Two batches, one failed evaluation among them. -/
example : listAsked (after ([[1#64, 5#64], [3#64, 2#64, 4#64]].map fun es => (evalEnv exOps exJen true (fun _ => exObj) exTold, es))).getHistory =
      .ok [1#64, 3#64, 2#64, 4#64] ∧
    listAsked (after ([[1#64, 5#64], [3#64, 2#64, 4#64]].map fun es => (evalEnv exOps exJen true (fun _ => exObj) exTold, es))).getOptima =
      .ok [3#64, 2#64] := by decide +kernel

/-- Batches that are sound. -/
example : ∀ c ∈ [((⟨fun e => if e = 2#64 then 1#32 else 0#32, fun _ _ => .ok .notComparable⟩ : TunerEnv), [1#64, 2#64, 3#64])], Sound c := by
  intro c hc
  rw [List.mem_singleton.1 hc]
  exact ⟨by simp, fun _ _ => by simp⟩

/-- The hypotheses of the front. -/
example := C154_front_partial exOps exJen true (fun _ => exObj) exTold 7#64 exVals [[1#64, 5#64], [3#64, 2#64, 4#64]] exTold_rated

/-- Three configurations asked of the example space. -/
example : (ask exOps exJen true (exRun exHistory) 5 3).2 =
    ([], .ok [some [.int 0#64, .inactive], some [.int 2#64, .inactive], some [.int 4#64, .inactive]]) := by decide +kernel

end CCS.Props.BoundTuner
