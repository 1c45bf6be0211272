import Verif.Props.Space

/-!
# C49–C53, C56: configurations of a space

`Spec.ActivityRight`, `Spec.Valid`, `Spec.Settled`, `Spec.hits` are defined in `Verif/Spec/Space.lean`.
-/

namespace CCS.Props

open CCS Spec

section
variable (ops : FloatOps) (jen : Bytes → BitVec 32) (little : Bool) (mem : BitVec 64 → Param)
  (mk : Nat → Param → Out Dist)

/-! ## C51 -/

/-- The check regenerates the order if needed, then checks. -/
theorem checkSpace_good {s : Space} (hg : Good mem s) (vals : List Value) :
    ∃ s', Good mem s' ∧ SameSpace s s' ∧ s'.graphOk = true ∧
      checkSpace ops jen little s vals = (s', checkBody ops jen little s' vals) := by
  obtain ⟨s', h1, h2, h3, h4⟩ := ensure_effect hg
  exact ⟨s', h2, h3, h4, by unfold checkSpace; rw [h1]⟩

/-- **C51** The check answers true exactly on the valid configurations on which every condition and every clause
has a value; when it answers false the configuration is not valid. -/
theorem C51_check_exact (hmk : OneDimensional mk) {s : Space} (hr : Reachable ops jen little mem mk s)
    (vals : List Value) :
    ((checkSpace ops jen little s vals).2 = .ok true ↔
      Valid ops jen little s vals ∧ AllEvaluate ops jen little s vals) ∧
    ((checkSpace ops jen little s vals).2 = .ok false → ¬ Valid ops jen little s vals) := by
  obtain ⟨s', hg', hs, hok, he⟩ := checkSpace_good ops jen little mem (reachable_good hmk hr) vals
  rw [he]
  obtain ⟨h1, h2, -⟩ := checkBody_spec (ops := ops) (jen := jen) (little := little) (hg'.graph.full hok) vals
  rw [hs.valid, hs.allEvaluate] at h1
  rw [hs.valid] at h2
  exact ⟨h1, h2⟩

/-- **C51** With as many values as parameters, and when every condition and every clause has a value, the check
decides validity. -/
theorem C51_check_decides (hmk : OneDimensional mk) {s : Space} (hr : Reachable ops jen little mem mk s)
    (vals : List Value) (hlen : vals.length = s.numParameters) (hev : AllEvaluate ops jen little s vals) :
    (Valid ops jen little s vals → (checkSpace ops jen little s vals).2 = .ok true) ∧
    (¬ Valid ops jen little s vals → (checkSpace ops jen little s vals).2 = .ok false) := by
  obtain ⟨s', hg', hs, hok, he⟩ := checkSpace_good ops jen little mem (reachable_good hmk hr) vals
  rw [he]
  obtain ⟨h1, h2, h3, h4⟩ := checkBody_spec (ops := ops) (jen := jen) (little := little) (hg'.graph.full hok) vals
  rw [hs.valid, hs.allEvaluate] at h1
  refine ⟨fun hv => h1.2 ⟨hv, hev⟩, fun hn => ?_⟩
  have hev' := hs.allEvaluate.2 hev
  have hcond : ∀ w ∈ s'.params, ∀ c, w.condition = some c → ∃ r, evalOn ops jen little s' vals c = .ok r := by
    intro w hw c hc
    obtain ⟨i, hi, hwi⟩ := List.mem_iff_getElem.1 hw
    exact hev'.1 i w c (List.getElem?_eq_some_iff.2 ⟨hi, hwi⟩) hc
  cases hb : checkBody ops jen little s' vals with
  | ok b =>
    cases b with
    | true => exact absurd (h1.1 hb).1 hn
    | false => rfl
  | err e =>
    rcases h3 e hb with ⟨hl, -⟩ | ⟨w, hw, c, hc, hx⟩ | ⟨c, hc, hx⟩
    · exact absurd hlen (by rw [hs.length] at hl; exact hl)
    · obtain ⟨r, hr⟩ := hcond w hw c hc
      rw [hx] at hr; cases hr
    · obtain ⟨r, hr⟩ := hev'.2 c hc
      rw [hx] at hr; cases hr
  | ub =>
    rcases h4 hb with ⟨w, hw, c, hc, hx⟩ | ⟨c, hc, hx⟩
    · obtain ⟨r, hr⟩ := hcond w hw c hc
      rw [hx] at hr; cases hr
    · obtain ⟨r, hr⟩ := hev'.2 c hc
      rw [hx] at hr; cases hr

/-- **C51** The wrong number of values is reported as such; any other error comes from a condition or a clause
that cannot be evaluated on this configuration. -/
theorem C51_check_errors (hmk : OneDimensional mk) {s : Space} (hr : Reachable ops jen little mem mk s)
    (vals : List Value) :
    (vals.length ≠ s.numParameters → (checkSpace ops jen little s vals).2 = .err .invalidConfiguration) ∧
    (∀ e, vals.length = s.numParameters → (checkSpace ops jen little s vals).2 = .err e →
      (∃ (i : Nat) (h : BitVec 64) (c : Expr), (Spec.conditions s)[i]? = some (h, some c) ∧
        evalOn ops jen little s vals c = .err e) ∨
      ∃ c ∈ s.clauses, evalOn ops jen little s vals c = .err e) := by
  obtain ⟨s', hg', hs, hok, he⟩ := checkSpace_good ops jen little mem (reachable_good hmk hr) vals
  rw [he]
  obtain ⟨-, -, h3, -⟩ := checkBody_spec (ops := ops) (jen := jen) (little := little) (hg'.graph.full hok) vals
  refine ⟨fun hl => ?_, fun e hl hx => ?_⟩
  · show checkBody ops jen little s' vals = _
    unfold checkBody
    rw [if_pos (by rw [hs.length]; exact hl)]
  · rcases h3 e hx with ⟨hl', -⟩ | ⟨w, hw, c, hc, hx⟩ | ⟨c, hc, hx⟩
    · exact absurd hl (by rw [hs.length] at hl'; exact hl')
    · obtain ⟨i, hi, hwi⟩ := List.mem_iff_getElem.1 hw
      refine .inl ⟨i, w.handle, c, ?_, by rw [hs.evalOn] at hx; exact hx⟩
      rw [← hs.conditions, conditions_get (List.getElem?_eq_some_iff.2 ⟨hi, hwi⟩), hc]
    · exact .inr ⟨c, by rw [← hs.clauses]; exact hc, by rw [hs.evalOn] at hx; exact hx⟩

example : (checkSpace exOps exJen true (exRun exHistory) [.int 1#64, .int 3#64]).2 = .ok true ∧
    (checkSpace exOps exJen true (exRun exHistory) [.int 1#64, .int 5#64]).2 = .ok false ∧
    (checkSpace exOps exJen true (exRun exHistory) [.int 0#64, .int 3#64]).2 = .ok false ∧
    (checkSpace exOps exJen true (exRun exHistory) [.int 0#64, .inactive]).2 = .ok true ∧
    (checkSpace exOps exJen true (exRun exHistory) [.int 1#64, .int 10#64]).2 = .ok false ∧
    (checkSpace exOps exJen true (exRun exHistory) [.int 1#64]).2 = .err .invalidConfiguration := by decide +kernel

/-! ## C49 -/

theorem default_active {p : Param} (hc : Created ops jen little p) (hs : p.isString = false) :
    p.default ≠ .inactive := by
  cases hc with
  | numerical h =>
    rw [createNumerical_ok h]
    rename_i t _ _ _ _
    cases t <;> simp [numValue]
  | categorical h =>
    obtain ⟨d, hd, rfl, -, -, hL⟩ := createCategorical_ok h
    have := hL d.v (List.mem_map.2 ⟨d, List.mem_of_getElem? hd, rfl⟩)
    intro hv
    simp only at hv
    rw [hv] at this
    rename_i kind _ _ _
    cases kind <;> simp [Listable] at this
  | string n => simp [createString, Param.isString] at hs

/-- The default values of the parameters of a space. -/
def Space.defaults (s : Space) : List Value := s.params.map (·.param.default)

theorem defaults_active {s : Space} (hg : Good mem s) (hc : ∀ w ∈ s.params, Created ops jen little w.param) :
    ∀ v ∈ Space.defaults s, v ≠ .inactive := by
  intro v hv
  obtain ⟨w, hw, rfl⟩ := List.mem_map.1 hv
  exact default_active ops jen little (hc w hw) (hg.tables.mem w hw).2

/-- **C49** In a settled space the default configuration is made of the default values, a parameter being active
exactly when it has no condition or its condition is true on that very configuration; and it is the only
such configuration.  Missing for the full statement: the same in a space where a condition was refused and
nothing was checked or sampled since (`C49_wrong_after_refusal`). -/
theorem C49_default_partial (hmk : OneDimensional mk) {history : List SpaceOp} (hw : ∀ op ∈ history, WellCalled op)
    (hset : Settled ops jen little mem mk Space.empty True history) {s : Space}
    (hs : s = Space.empty.run ops jen little mem mk history)
    (hc : ∀ w ∈ s.params, Created ops jen little w.param) {d : List Value} (h : getDefault ops jen little s = .ok d) :
    ActivityRight ops jen little s d ∧ Masks (Space.defaults s) d ∧
    ∀ d', ActivityRight ops jen little s d' → Masks (Space.defaults s) d' → d' = d := by
  have hg : Good mem s := hs ▸ spaceRun_good hmk history _ (good_empty mem) hw
  have ho : EvalOrder (Spec.conditions s) s.sorted := hs ▸ C48_order_settled ops jen little mem mk hmk hw hset
  have hact := defaults_active ops jen little mem hg hc
  have hl : (Space.defaults s).length = s.params.length := by simp [Space.defaults]
  obtain ⟨h1, h2, -⟩ := setActives_right ho hl hact h
  exact ⟨h1, h2, fun d' hd' hm' => activity_unique ho hl hact hd' h1 hm' h2⟩

/-- **C49** In a settled space the default configuration exists whenever a configuration made of default values
has the right activity and evaluates every condition. -/
theorem C49_default_exists (hmk : OneDimensional mk) {history : List SpaceOp} (hw : ∀ op ∈ history, WellCalled op)
    (hset : Settled ops jen little mem mk Space.empty True history) {s : Space}
    (hs : s = Space.empty.run ops jen little mem mk history) {d : List Value}
    (hd : ActivityRight ops jen little s d) (hm : Masks (Space.defaults s) d)
    (hev : ∀ (i : Nat) h e, (Spec.conditions s)[i]? = some (h, some e) → ∃ r, evalOn ops jen little s d e = .ok r) :
    getDefault ops jen little s = .ok d := by
  have ho : EvalOrder (Spec.conditions s) s.sorted := hs ▸ C48_order_settled ops jen little mem mk hmk hw hset
  have hl : (Space.defaults s).length = s.params.length := by simp [Space.defaults]
  refine (setActives_iff ho hl).2 (solves_of_right hl hd hm ?_)
  intro i w e hwi he
  exact hev i w.handle e (by rw [conditions_get hwi, he])

/-- The calls after which the default configuration is wrong: the example, then a refused condition of `a` on
`b`. -/
def badHistory : List SpaceOp := exHistory ++ [.setCondition 0 (isValue 2#64 parB 1#64)]

theorem badHistory_called : ∀ op ∈ badHistory, WellCalled op := by
  intro op h
  rcases List.mem_append.1 h with h | h
  · exact exHistory_called op h
  · simp at h
    subst h
    exact isValue_built (by decide) _ _

/-- **C49, violated** After a refused condition the default configuration keeps active a parameter whose
condition is false. -/
theorem C49_wrong_after_refusal :
    ∃ s d, Reachable exOps exJen true exMem exMk s ∧ getDefault exOps exJen true s = .ok d ∧
      ¬ ActivityRight exOps exJen true s d := by
  refine ⟨exRun badHistory, [.int 0#64, .int 5#64], ⟨badHistory, badHistory_called, rfl⟩, by decide +kernel, ?_⟩
  intro h
  have hc : (Spec.conditions (exRun badHistory))[1]? = some (2#64, some (isValue 1#64 parA 1#64)) := by rfl
  have h1 := (h 1 _ _ (.int 5#64) hc rfl).1 (by decide) _ rfl
  have h2 : evalOn exOps exJen true (exRun badHistory) [.int 0#64, .int 5#64] (isValue 1#64 parA 1#64) =
      .ok (.bool 0#64) := by decide +kernel
  rw [h2] at h1
  exact absurd h1 (by decide)

/-! ## C56 -/

theorem sampleOne_good {s : Space} (hg : Good mem s) (t : Nat) :
    ∃ s', Good mem s' ∧ SameSpace s s' ∧ s'.graphOk = true ∧
      sampleOne ops jen little s t = (s', sampleLoop ops jen little s' 99 t s'.blank) := by
  obtain ⟨s', h1, h2, h3, h4⟩ := ensure_effect hg
  exact ⟨s', h2, h3, h4, by unfold sampleOne; rw [h1]⟩

theorem sampleMany_good {s : Space} (hg : Good mem s) (t : Nat) {n : Nat} (hn : n ≠ 0)
    (hsize : 100 * n < 18446744073709551616) :
    ∃ s', Good mem s' ∧ SameSpace s s' ∧ s'.graphOk = true ∧
      sampleMany ops jen little s t n = (s', samplesLoop ops jen little s' n (100 * n) t s'.blank []) := by
  obtain ⟨s', h1, h2, h3, h4⟩ := ensure_effect hg
  exact ⟨s', h2, h3, h4, by unfold sampleMany; rw [if_neg hn, h1, Nat.mod_eq_of_lt hsize]⟩

/-- **C56** Sampling one configuration: some attempt among the first 100 is the first that does not end on a
forbidden clause, and its outcome is the result; or all 100 do, and the result is SAMPLING_UNSUCCESSFUL.
`attempt s' k` is the attempt numbered `k`, made from scratch. -/
theorem C56_one_sample (hmk : OneDimensional mk) {s s' : Space} (hr : Reachable ops jen little mem mk s) (t : Nat)
    {r : Out (List Value)} (h : sampleOne ops jen little s t = (s', r)) :
    ((∀ k < 100, ∃ x, attempt ops jen little s' (t + k) s'.blank = .ok (false, x)) ∧ r = .err .samplingUnsuccessful) ∨
    (∃ k < 100, (∀ j < k, ∃ x, attempt ops jen little s' (t + j) s'.blank = .ok (false, x)) ∧
      ((∃ v, attempt ops jen little s' (t + k) s'.blank = .ok (true, v) ∧ r = .ok v) ∨
       (∃ e, attempt ops jen little s' (t + k) s'.blank = .err e ∧ r = .err e) ∨
       (attempt ops jen little s' (t + k) s'.blank = .ub ∧ r = .ub))) := by
  obtain ⟨s1, hg', hs, hok, he⟩ := sampleOne_good ops jen little mem (reachable_good hmk hr) t
  rw [he] at h
  cases h
  rcases sampleLoop_first (ops := ops) (jen := jen) (little := little) hg'.parts 99 t s'.blank (by simp [Space.blank]) with
    ⟨h1, h2⟩ | ⟨k, hk, h1, h2⟩
  · exact .inl ⟨fun k hk => h1 k (by omega), h2⟩
  · exact .inr ⟨k, by omega, h1, h2⟩

/-- **C56** Sampling `n` configurations: some number `m ≤ 100 n` of attempts is made, the configurations returned
are those the attempts found, in order, and either there are `n` of them and the call succeeds, or there
are fewer and the call reports SAMPLING_UNSUCCESSFUL after `100 n` attempts, or the failure of the next
attempt. -/
theorem C56_many_samples (hmk : OneDimensional mk) {s s' : Space} (hr : Reachable ops jen little mem mk s) (t n : Nat)
    (hn : n ≠ 0) (hsize : 100 * n < 18446744073709551616) {vs : List (List Value)} {r : Out Unit}
    (h : sampleMany ops jen little s t n = (s', vs, r)) :
    ∃ m ≤ 100 * n, (∀ k < m, ∃ x, attempt ops jen little s' (t + k) s'.blank = .ok x) ∧
      vs = hits (fun k => attempt ops jen little s' k s'.blank) t m ∧
      ((r = .ok () ∧ vs.length = n) ∨
       (vs.length < n ∧ m = 100 * n ∧ r = .err .samplingUnsuccessful) ∨
       (vs.length < n ∧ m < 100 * n ∧ ((∃ e, attempt ops jen little s' (t + m) s'.blank = .err e ∧ r = .err e) ∨
          (attempt ops jen little s' (t + m) s'.blank = .ub ∧ r = .ub)))) := by
  obtain ⟨s1, hg', hs, hok, he⟩ := sampleMany_good ops jen little mem (reachable_good hmk hr) t hn hsize
  rw [he] at h
  simp only [Prod.mk.injEq] at h
  obtain ⟨rfl, h⟩ := h
  have := samplesLoop_first (ops := ops) (jen := jen) (little := little) hg'.parts n (100 * n) t s1.blank []
    (by simp [Space.blank]) (by simp)
  rw [h] at this
  simpa using this

/-- **C56** Asking for no configuration gives none. -/
theorem C56_none (s : Space) (t : Nat) : sampleMany ops jen little s t 0 = (s, [], .ok ()) := rfl

/-! ## C50 -/

/-- **C50** A sampled configuration is valid and passes the check of the space, whatever the random stream; its
activity is the one its conditions say (C49).  The parameters are made by the API with bounds that are
numbers, and the distributions answer as many numbers as asked, within the bounds they declare.  Missing for
the full statement: parameters with a NaN bound (`C50_nan_bound`). -/
theorem C50_sample_valid_partial (hmk : OneDimensional mk) (hmkb : ∀ id p d, mk id p = .ok d → WellBehaved d)
    {history : List SpaceOp} (hw : ∀ op ∈ history, WellCalled op)
    (hgiven : ∀ op ∈ history, ∀ d ∈ SpaceOp.given op, WellBehaved d) {s : Space}
    (hs : s = Space.empty.run ops jen little mem mk history) (hu : ∀ w ∈ s.params, Usable ops jen little w.param)
    (t : Nat) {v : List Value} (h : (sampleOne ops jen little s t).2 = .ok v) :
    Valid ops jen little s v ∧ ActivityRight ops jen little s v ∧ (checkSpace ops jen little s v).2 = .ok true := by
  have hr : Reachable ops jen little mem mk s := ⟨history, hw, hs⟩
  have hg := reachable_good hmk hr
  have hd : ∀ d ∈ s.dists, WellBehaved d.dist := hs ▸ run_dists hmk hmkb history _ (good_empty mem) hw hgiven
    (by simp [Space.empty])
  obtain ⟨s', hg', hss, hok, he⟩ := sampleOne_good ops jen little mem hg t
  rw [he] at h
  rcases sampleLoop_first (ops := ops) (jen := jen) (little := little) hg'.parts 99 t s'.blank (by simp [Space.blank]) with
    ⟨h1, h2⟩ | ⟨k, hk, h1, ⟨v', ha, hv'⟩ | ⟨e, ha, hv'⟩ | ⟨ha, hv'⟩⟩
  · rw [h2] at h; cases h
  · rw [hv'] at h
    cases h
    have hu' : ∀ w ∈ s'.params, Usable ops jen little w.param := by
      intro w hw
      obtain ⟨i, hi, hwi⟩ := List.mem_iff_getElem.1 hw
      obtain ⟨w0, hw0, hcore⟩ := core_some hss.params (List.getElem?_eq_some_iff.2 ⟨hi, hwi⟩)
      rw [(core_fields hcore).2.1]
      exact hu w0 (List.mem_of_getElem? hw0)
    obtain ⟨raw, -, -, -, -, -, hval⟩ := attempt_valid hg'.parts (hg'.graph.full hok) hu' (by rw [hss.dists]; exact hd)
      (by simp [Space.blank]) ha
    obtain ⟨h3, h4⟩ := hval rfl
    rw [hss.valid] at h3
    rw [hss.allEvaluate] at h4
    exact ⟨h3, h3.2.1, (C51_check_exact ops jen little mem mk hmk hr v).1.2 ⟨h3, h4⟩⟩
  · rw [hv'] at h; cases h
  · rw [hv'] at h; cases h

/-- **C50, C56** Every configuration returned when sampling several is valid and passes the check, even when the
call fails before all are found. -/
theorem C50_samples_valid_partial (hmk : OneDimensional mk) (hmkb : ∀ id p d, mk id p = .ok d → WellBehaved d)
    {history : List SpaceOp} (hw : ∀ op ∈ history, WellCalled op)
    (hgiven : ∀ op ∈ history, ∀ d ∈ SpaceOp.given op, WellBehaved d) {s : Space}
    (hs : s = Space.empty.run ops jen little mem mk history) (hu : ∀ w ∈ s.params, Usable ops jen little w.param)
    (t n : Nat) (hsize : 100 * n < 18446744073709551616) {v : List Value}
    (h : v ∈ (sampleMany ops jen little s t n).2.1) :
    Valid ops jen little s v ∧ ActivityRight ops jen little s v ∧ (checkSpace ops jen little s v).2 = .ok true := by
  have hr : Reachable ops jen little mem mk s := ⟨history, hw, hs⟩
  have hg := reachable_good hmk hr
  have hd : ∀ d ∈ s.dists, WellBehaved d.dist := hs ▸ run_dists hmk hmkb history _ (good_empty mem) hw hgiven
    (by simp [Space.empty])
  by_cases hn : n = 0
  · subst hn; cases h
  obtain ⟨s', hg', hss, hok, he⟩ := sampleMany_good ops jen little mem hg t hn hsize
  rw [he] at h
  obtain ⟨m, -, -, h2, -⟩ := samplesLoop_first (ops := ops) (jen := jen) (little := little) hg'.parts n (100 * n) t
    s'.blank [] (by simp [Space.blank]) (by simp)
  rw [h2, List.nil_append] at h
  obtain ⟨k, -, -, ha⟩ := mem_hits h
  have hu' : ∀ w ∈ s'.params, Usable ops jen little w.param := by
    intro w hw
    obtain ⟨i, hi, hwi⟩ := List.mem_iff_getElem.1 hw
    obtain ⟨w0, hw0, hcore⟩ := core_some hss.params (List.getElem?_eq_some_iff.2 ⟨hi, hwi⟩)
    rw [(core_fields hcore).2.1]
    exact hu w0 (List.mem_of_getElem? hw0)
  obtain ⟨raw, -, -, -, -, -, hval⟩ := attempt_valid hg'.parts (hg'.graph.full hok) hu' (by rw [hss.dists]; exact hd)
    (by simp [Space.blank]) ha
  obtain ⟨h3, h4⟩ := hval rfl
  rw [hss.valid] at h3
  rw [hss.allEvaluate] at h4
  exact ⟨h3, h3.2.1, (C51_check_exact ops jen little mem mk hmk hr v).1.2 ⟨h3, h4⟩⟩

end

/-- A parameter over `[0, NaN)`. -/
def nanParam : Param := ⟨[0x6e#8], .float 0#64, .numerical ⟨.float, 0#64, 0x7ff8000000000000#64, 1#32, 0#32⟩ 0#64⟩

/-- A distribution over `[0, 1)` that answers `0.5`. -/
def halfDist : Dist :=
  ⟨9#64, 1, [⟨.float, 0#64, 0x3ff0000000000000#64, 1#32, 0#32⟩],
    fun _ _ n => .ok [List.replicate n 0x3fe0000000000000#64]⟩

theorem halfDist_behaved : WellBehaved halfDist := by
  refine ⟨⟨rfl, ?_⟩, ?_⟩
  · intro t k n cols h
    cases h
    simp [halfDist]
  · intro t k n cols h i c b hc hb x hx
    cases h
    match i, hc, hb with
    | 0, hc, hb =>
      simp [halfDist] at hc hb
      subst hc hb
      rw [List.mem_replicate] at hx
      rw [hx.2, ← C27_membership_exact]
      decide
    | i + 1, hc, hb => simp [halfDist] at hb

/-- **C50, violated** A parameter created by the API with an upper bound that is not a number accepts samples
that its own check refuses: the sampled configuration does not pass the check. -/
theorem C50_nan_bound :
    Created exOps exJen true nanParam ∧
    ∃ v, (sampleOne exOps exJen true (Space.empty.run exOps exJen true (fun _ => nanParam) exMk
        [.addParameter 1#64 (some halfDist)]) 0).2 = .ok v ∧
      (checkSpace exOps exJen true (Space.empty.run exOps exJen true (fun _ => nanParam) exMk
        [.addParameter 1#64 (some halfDist)]) v).2 = .ok false := by
  refine ⟨.numerical (name := [0x6e#8]) (t := .float) (lower := 0#64) (upper := 0x7ff8000000000000#64)
    (quantization := 0#64) (default := 0#64) (by decide +kernel), [.float 0x3fe0000000000000#64], by decide +kernel,
    by decide +kernel⟩

theorem exMk_behaved : ∀ id p d, exMk id p = .ok d → WellBehaved d := by
  intro id p d h
  cases h
  refine ⟨⟨rfl, ?_⟩, ?_⟩
  · intro t k n cols h
    cases h
    simp
  · intro t k n cols h i c b hc hb x hx
    cases h
    have hall : ∀ m : Fin 10, (Interval.mk .int 0#64 10#64 1#32 0#32).include (BitVec.ofNat 64 m.val) = true := by
      decide
    match i, hc, hb with
    | 0, hc, hb =>
      simp at hc hb
      subst hc hb
      obtain ⟨y, -, rfl⟩ := List.mem_map.1 hx
      rw [← C27_membership_exact]
      exact hall ⟨_, Nat.mod_lt _ (by decide)⟩
    | i + 1, hc, hb => simp at hb

/-- The hypotheses of C50 are met by the example, which needs several attempts. -/
example : (∀ op ∈ exHistory, ∀ d ∈ SpaceOp.given op, WellBehaved d) ∧
    Usable exOps exJen true parA ∧ Usable exOps exJen true parB ∧
    (sampleOne exOps exJen true (exRun exHistory) 0).2 = .ok [.int 0#64, .inactive] ∧
    (sampleMany exOps exJen true (exRun exHistory) 5 3).2 =
      ([[.int 0#64, .inactive], [.int 2#64, .inactive], [.int 4#64, .inactive]], .ok ()) := by
  refine ⟨?_, ⟨.numerical (t := .int) (lower := 0#64) (upper := 10#64) (quantization := 0#64) (default := 0#64)
    (name := [0x61#8]) (by rfl), proper_int rfl⟩, ⟨.numerical (t := .int) (lower := 0#64) (upper := 10#64)
    (quantization := 0#64) (default := 5#64) (name := [0x62#8]) (by rfl), proper_int rfl⟩, by decide +kernel, by decide +kernel⟩
  intro op h d hd
  simp only [exHistory, List.mem_cons, List.not_mem_nil, or_false] at h
  rcases h with rfl | rfl | rfl | rfl <;> simp [SpaceOp.given] at hd

section
variable (ops : FloatOps) (jen : Bytes → BitVec 32) (little : Bool) (mem : BitVec 64 → Param)
  (mk : Nat → Param → Out Dist)

/-! ## C52 -/

/-- **C52** In a settled space the default configuration makes no forbidden clause true, whatever the order in
which parameters, conditions and clauses were added.  Missing for the full statement: spaces where a
condition was refused and nothing was checked or sampled since (`C52_forbidden_after_refusal`). -/
theorem C52_not_forbidden_partial (hmk : OneDimensional mk) {history : List SpaceOp}
    (hw : ∀ op ∈ history, WellCalled op) (hset : Settled ops jen little mem mk Space.empty True history) {s : Space}
    (hs : s = Space.empty.run ops jen little mem mk history) {d : List Value} (h : getDefault ops jen little s = .ok d) :
    ∀ c ∈ s.clauses, evalOn ops jen little s d c ≠ .ok (.bool 1#64) :=
  default_not_forbidden (hs ▸ C48_order_settled ops jen little mem mk hmk hw hset)
    (reachable_witnessed hmk ⟨history, hw, hs⟩) h

/-- **C52** It is valid when the default values are legal (C32, C33), and passes the check unless a clause cannot
be evaluated on it. -/
theorem C52_default_valid_partial (hmk : OneDimensional mk) {history : List SpaceOp}
    (hw : ∀ op ∈ history, WellCalled op) (hset : Settled ops jen little mem mk Space.empty True history) {s : Space}
    (hs : s = Space.empty.run ops jen little mem mk history) (hc : ∀ w ∈ s.params, Created ops jen little w.param)
    (hleg : ∀ w ∈ s.params, Legal w.param w.param.default) {d : List Value} (h : getDefault ops jen little s = .ok d) :
    Valid ops jen little s d ∧
    ((∀ c ∈ s.clauses, ∃ r, evalOn ops jen little s d c = .ok r) → (checkSpace ops jen little s d).2 = .ok true) ∧
    (checkSpace ops jen little s d).2 ≠ .ok false := by
  have hr : Reachable ops jen little mem mk s := ⟨history, hw, hs⟩
  have hg := reachable_good hmk hr
  have ho : EvalOrder (Spec.conditions s) s.sorted := hs ▸ C48_order_settled ops jen little mem mk hmk hw hset
  have hact := defaults_active ops jen little mem hg hc
  have hl : (Space.defaults s).length = s.params.length := by simp [Space.defaults]
  obtain ⟨h1, h2, h3⟩ := setActives_right ho hl hact h
  have hvalid : Valid ops jen little s d := by
    refine ⟨by rw [h2.1, hl], h1, ?_, C52_not_forbidden_partial ops jen little mem mk hmk hw hset hs h⟩
    intro i w v hwi hv hne
    rcases h2.2 i v hv with hi | hi
    · exact absurd hi hne
    · simp only [Space.defaults, List.getElem?_map, hwi, Option.map_some] at hi
      cases hi
      exact hleg w (List.mem_of_getElem? hwi)
  refine ⟨hvalid, fun hcl => ?_, fun hf => (C51_check_exact ops jen little mem mk hmk hr d).2 hf hvalid⟩
  exact (C51_check_exact ops jen little mem mk hmk hr d).1.2 ⟨hvalid, h3, hcl⟩

/-- **C52, violated** After a refused condition the default configuration can satisfy a forbidden clause, and
fails the check. -/
theorem C52_forbidden_after_refusal :
    ∃ s d c, Reachable exOps exJen true exMem exMk s ∧ getDefault exOps exJen true s = .ok d ∧ c ∈ s.clauses ∧
      evalOn exOps exJen true s d c = .ok (.bool 1#64) ∧ (checkSpace exOps exJen true s d).2 = .ok false :=
  ⟨exRun badHistory, [.int 0#64, .int 5#64], isValue 2#64 parB 5#64, ⟨badHistory, badHistory_called, rfl⟩,
    by decide +kernel, by
      have : (exRun badHistory).clauses = [isValue 2#64 parB 5#64] := rfl
      rw [this]; simp, by decide +kernel, by decide +kernel⟩

/-- The example: the clause would be true on the default value of `b`, but `b` is inactive by default. -/
example : getDefault exOps exJen true (exRun exHistory) = .ok [.int 0#64, .inactive] ∧
    evalOn exOps exJen true (exRun exHistory) [.int 0#64, .inactive] (isValue 2#64 parB 5#64) = .ok .inactive ∧
    (checkSpace exOps exJen true (exRun exHistory) [.int 0#64, .inactive]).2 = .ok true := by decide +kernel

/-! ## C49, sampling -/

theorem usable_same {s s' : Space} (hss : SameSpace s s') (hu : ∀ w ∈ s.params, Usable ops jen little w.param) :
    ∀ w ∈ s'.params, Usable ops jen little w.param := by
  intro w hw
  obtain ⟨i, hi, hwi⟩ := List.mem_iff_getElem.1 hw
  obtain ⟨w0, hw0, hcore⟩ := core_some hss.params (List.getElem?_eq_some_iff.2 ⟨hi, hwi⟩)
  rw [(core_fields hcore).2.1]
  exact hu w0 (List.mem_of_getElem? hw0)

/-- **C49** A sampled configuration is a draw of legal values for all parameters, of which exactly those whose
condition is not true on that very configuration were made inactive; and it is the only such configuration for
this draw. -/
theorem C49_sample (hmk : OneDimensional mk) (hmkb : ∀ id p d, mk id p = .ok d → WellBehaved d)
    {history : List SpaceOp} (hw : ∀ op ∈ history, WellCalled op)
    (hgiven : ∀ op ∈ history, ∀ d ∈ SpaceOp.given op, WellBehaved d) {s : Space}
    (hs : s = Space.empty.run ops jen little mem mk history) (hu : ∀ w ∈ s.params, Usable ops jen little w.param)
    (t : Nat) {v : List Value} (h : (sampleOne ops jen little s t).2 = .ok v) :
    ∃ raw, (∀ (i : Nat) w, s.params[i]? = some w → ∃ x, raw[i]? = some x ∧ Legal w.param x) ∧
      ActivityRight ops jen little s v ∧ Masks raw v ∧
      ∀ v', ActivityRight ops jen little s v' → Masks raw v' → v' = v := by
  have hr : Reachable ops jen little mem mk s := ⟨history, hw, hs⟩
  have hg := reachable_good hmk hr
  have hd : ∀ d ∈ s.dists, WellBehaved d.dist := hs ▸ run_dists hmk hmkb history _ (good_empty mem) hw hgiven
    (by simp [Space.empty])
  obtain ⟨s', hg', hss, hok, he⟩ := sampleOne_good ops jen little mem hg t
  rw [he] at h
  have hu' := usable_same ops jen little hss hu
  rcases sampleLoop_first (ops := ops) (jen := jen) (little := little) hg'.parts 99 t s'.blank (by simp [Space.blank]) with
    ⟨h1, h2⟩ | ⟨k, hk, h1, ⟨v', ha, hv'⟩ | ⟨e, ha, hv'⟩ | ⟨ha, hv'⟩⟩
  · rw [h2] at h; cases h
  · rw [hv'] at h
    cases h
    obtain ⟨raw, -, hl, hleg, hm, hact, -⟩ := attempt_valid hg'.parts (hg'.graph.full hok) hu'
      (by rw [hss.dists]; exact hd) (by simp [Space.blank]) ha
    have hina : ∀ x ∈ raw, x ≠ .inactive := by
      intro x hx
      obtain ⟨i, hi, hxi⟩ := List.mem_iff_getElem.1 hx
      have hip : i < s'.params.length := by omega
      obtain ⟨y, hy, hly⟩ := hleg i _ (List.getElem?_eq_getElem hip)
      rw [List.getElem?_eq_getElem hi, hxi] at hy
      cases hy
      exact legal_active (hu' _ (List.getElem_mem hip)).1 hly
    refine ⟨raw, ?_, hss.activityRight.1 hact, hm, fun v' h1 h2 => ?_⟩
    · intro i w hwi
      obtain ⟨w', hw', hcore⟩ := core_some hss.symm.params hwi
      obtain ⟨x, hx, hlx⟩ := hleg i w' hw'
      exact ⟨x, hx, by rw [(core_fields hcore).2.1]; exact hlx⟩
    · exact activity_unique (hg'.graph.full hok) hl hina (hss.activityRight.2 h1) hact h2 hm
  · rw [hv'] at h; cases h
  · rw [hv'] at h; cases h

/-! ## C53 -/

/-- A refused condition changes nothing but the recorded order. -/
theorem refused_same (hmk : OneDimensional mk) {s s' : Space} (hr : Reachable ops jen little mem mk s) {i : Nat}
    {e : Expr} (hb : Built e) {x : Err} (h : setCondition s i e = (s', .err x)) :
    SameSpace s s' ∧ Good mem s' := by
  have hg := reachable_good hmk hr
  rcases setCondition_outcomes hg.tables hg.graph i hb with ⟨-, he⟩ | ⟨w, c, -, -, he⟩ | ⟨w, s1, r, -, -, he, hc⟩
  · rw [he] at h; cases h; exact ⟨.refl s, hg⟩
  · rw [he] at h; cases h; exact ⟨.refl s, hg⟩
  · rw [he] at h
    cases h
    rcases hc with ⟨hx, -⟩ | ⟨-, -, -, hs, ht, hgr, -⟩ | ⟨-, -, hs, ht, hgr, -⟩
    · cases hx
    · exact ⟨hs, ht, hgr, hs.parts hg.parts⟩
    · exact ⟨hs, ht, hgr, hs.parts hg.parts⟩

/-- **C53** After a refused condition the definition of the space is what it was: the same parameters,
conditions and forbidden clauses, the same lookups, and the same answers about distributions. -/
theorem C53_definition_kept (hmk : OneDimensional mk) {s s' : Space} (hr : Reachable ops jen little mem mk s)
    {i : Nat} {e : Expr} (hb : Built e) {x : Err} (h : setCondition s i e = (s', .err x)) :
    Spec.conditions s' = Spec.conditions s ∧ s'.clauses = s.clauses ∧
    (∀ j, s'.getParameter j = s.getParameter j) ∧ (∀ j, s'.getCondition j = s.getCondition j) ∧
    (∀ n, s'.getIndexByName n = s.getIndexByName n) ∧
    (∀ j, s'.getParameterDistribution j = s.getParameterDistribution j) := by
  obtain ⟨hs, -⟩ := refused_same ops jen little mem mk hmk hr hb h
  refine ⟨hs.conditions, hs.clauses, ?_, ?_, ?_, ?_⟩
  · intro j
    unfold Space.getParameter
    cases hw : s'.params[toUint j]? with
    | some w =>
      obtain ⟨w0, hw0, hc⟩ := core_some hs.params hw
      rw [hw0]
      simp only [(core_fields hc).1]
    | none =>
      rw [List.getElem?_eq_none_iff.2 (by rw [← hs.length]; exact List.getElem?_eq_none_iff.1 hw)]
  · intro j
    unfold Space.getCondition
    cases hw : s'.params[toUint j]? with
    | some w =>
      obtain ⟨w0, hw0, hc⟩ := core_some hs.params hw
      rw [hw0]
      simp only [core_fields hc]
    | none =>
      rw [List.getElem?_eq_none_iff.2 (by rw [← hs.length]; exact List.getElem?_eq_none_iff.1 hw)]
  · intro n
    unfold Space.getIndexByName
    rw [hs.entries]
  · intro j
    unfold Space.getParameterDistribution
    cases hw : s'.params[toUint j]? with
    | some w =>
      obtain ⟨w0, hw0, hc⟩ := core_some hs.params hw
      rw [hw0]
      simp only [core_fields hc, hs.dists]
    | none =>
      rw [List.getElem?_eq_none_iff.2 (by rw [← hs.length]; exact List.getElem?_eq_none_iff.1 hw)]

/-- **C53** A condition refused because of its index, because the parameter has one, or because it mentions a
parameter that is not in the space leaves the default configuration as it was.  Missing for the full
statement: conditions refused because they would close a cycle (`C53_default_changes`). -/
theorem C53_default_kept_partial (hmk : OneDimensional mk) {s s' : Space} (hr : Reachable ops jen little mem mk s)
    {i : Nat} {e : Expr} (hb : Built e) {x : Err} (h : setCondition s i e = (s', .err x)) (hx : x ≠ .invalidGraph) :
    getDefault ops jen little s' = getDefault ops jen little s := by
  have hg := reachable_good hmk hr
  rcases setCondition_outcomes hg.tables hg.graph i hb with ⟨-, he⟩ | ⟨w, c, -, -, he⟩ | ⟨w, s1, r, -, -, he, hc⟩
  · rw [he] at h; cases h; rfl
  · rw [he] at h; cases h; rfl
  · rw [he] at h
    cases h
    rcases hc with ⟨hx, -⟩ | ⟨hx', -⟩ | ⟨-, -, hs, -, -, -, hso⟩
    · cases hx
    · cases hx'; exact absurd rfl hx
    · unfold getDefault
      rw [hso, hs.setActives, core_map (f := fun w => w.param.default) (fun _ => rfl) hs.params]

/-- **C53** Checks accept the same configurations, and give the same verdict on those where every condition and
clause has a value. -/
theorem C53_checks_kept (hmk : OneDimensional mk) {s s' : Space} (hr : Reachable ops jen little mem mk s)
    {i : Nat} {e : Expr} (hb : Built e) {x : Err} (h : setCondition s i e = (s', .err x)) (vals : List Value) :
    ((checkSpace ops jen little s' vals).2 = .ok true ↔ (checkSpace ops jen little s vals).2 = .ok true) ∧
    (AllEvaluate ops jen little s vals →
      (checkSpace ops jen little s' vals).2 = (checkSpace ops jen little s vals).2) := by
  obtain ⟨hs, hg'⟩ := refused_same ops jen little mem mk hmk hr hb h
  have hr' : Reachable ops jen little mem mk s' := by
    have := reachable_step hr (op := .setCondition i e) hb
    simpa only [Space.step, h] using this
  refine ⟨?_, fun hev => ?_⟩
  · rw [(C51_check_exact ops jen little mem mk hmk hr vals).1, (C51_check_exact ops jen little mem mk hmk hr' vals).1,
      hs.valid, hs.allEvaluate]
  · by_cases hl : vals.length = s.numParameters
    · obtain ⟨h1, h2⟩ := C51_check_decides ops jen little mem mk hmk hr vals hl hev
      obtain ⟨h1', h2'⟩ := C51_check_decides ops jen little mem mk hmk hr' vals (hl.trans hs.length.symm)
        (hs.allEvaluate.2 hev)
      rw [hs.valid] at h1' h2'
      by_cases hv : Valid ops jen little s vals
      · rw [h1 hv, h1' hv]
      · rw [h2 hv, h2' hv]
    · rw [(C51_check_errors ops jen little mem mk hmk hr vals).1 hl,
        (C51_check_errors ops jen little mem mk hmk hr' vals).1
          (by unfold Space.numParameters at hl ⊢; rw [hs.length]; exact hl)]

/-- **C53** Once something was checked, the default configuration is again what it was in a settled space. -/
theorem C53_default_after_check (hmk : OneDimensional mk) {history : List SpaceOp}
    (hw : ∀ op ∈ history, WellCalled op) (hset : Settled ops jen little mem mk Space.empty True history) {s s' : Space}
    (hs : s = Space.empty.run ops jen little mem mk history)
    {i : Nat} {e : Expr} (hb : Built e) {x : Err} (h : setCondition s i e = (s', .err x)) (vals d : List Value) :
    getDefault ops jen little (checkSpace ops jen little s' vals).1 = .ok d ↔ getDefault ops jen little s = .ok d := by
  have hr : Reachable ops jen little mem mk s := ⟨history, hw, hs⟩
  obtain ⟨hss, hg'⟩ := refused_same ops jen little mem mk hmk hr hb h
  obtain ⟨s2, hg2, hs2, hok, he⟩ := checkSpace_good ops jen little mem hg' vals
  rw [he]
  have hss2 := hss.trans hs2
  have ho : EvalOrder (Spec.conditions s) s.sorted := hs ▸ C48_order_settled ops jen little mem mk hmk hw hset
  unfold getDefault
  rw [core_map (f := fun w => w.param.default) (fun _ => rfl) hss2.params,
    setActives_iff (hg2.graph.full hok) (by rw [hss2.length]; simp), setActives_iff ho (by simp), hss2.solves]

/-- Successful sampling does not depend on which evaluation order was recorded. -/
theorem sampleLoop_same {s s' : Space} (hs : SameSpace s s') (hp : Parts s) (hp' : Parts s')
    (ho : EvalOrder (Spec.conditions s) s.sorted) (ho' : EvalOrder (Spec.conditions s') s'.sorted) (left t : Nat)
    {v : List Value} (h : sampleLoop ops jen little s left t s.blank = .ok v) :
    sampleLoop ops jen little s' left t s'.blank = .ok v := by
  have hiff := fun k r => hs.attempt (ops := ops) (jen := jen) (little := little) ho ho' k r
  rcases sampleLoop_first (ops := ops) (jen := jen) (little := little) hp left t s.blank (by simp [Space.blank]) with
    ⟨-, h2⟩ | ⟨k, hk, h1, ⟨v1, ha, hv⟩ | ⟨e, ha, hv⟩ | ⟨ha, hv⟩⟩
  · rw [h2] at h; cases h
  · rw [hv] at h
    cases h
    have key : ∀ j x, j ≤ k → attempt ops jen little s' (t + j) s'.blank = x → ∃ r, x = .ok r ∧ (j = k → r = (true, v)) ∧
        (j < k → r.1 = false) := by
      intro j x hj hx
      by_cases hjk : j = k
      · subst hjk
        rw [(hiff _ _).2 ha] at hx
        exact ⟨_, hx.symm, fun _ => rfl, fun h => absurd h (Nat.lt_irrefl _)⟩
      · obtain ⟨y, hy⟩ := h1 j (by omega)
        rw [(hiff _ _).2 hy] at hx
        exact ⟨_, hx.symm, fun h => absurd h hjk, fun _ => rfl⟩
    rcases sampleLoop_first (ops := ops) (jen := jen) (little := little) hp' left t s'.blank (by simp [Space.blank]) with
      ⟨g1, -⟩ | ⟨k', hk', g1, g2⟩
    · obtain ⟨y, hy⟩ := g1 k hk
      obtain ⟨r, hr, hrt, -⟩ := key k _ (Nat.le_refl _) hy
      cases hr
      cases hrt rfl
    · rcases Nat.lt_trichotomy k k' with hlt | heq | hlt
      · obtain ⟨y, hy⟩ := g1 k hlt
        obtain ⟨r, hr, hrt, -⟩ := key k _ (Nat.le_refl _) hy
        cases hr
        cases hrt rfl
      · subst heq
        rcases g2 with ⟨v', ha', hv'⟩ | ⟨e, ha', -⟩ | ⟨ha', -⟩
        · obtain ⟨r, hr, hrt, -⟩ := key k _ (Nat.le_refl _) ha'
          cases hr
          cases hrt rfl
          exact hv'
        · obtain ⟨r, hr, -⟩ := key k _ (Nat.le_refl _) ha'; cases hr
        · obtain ⟨r, hr, -⟩ := key k _ (Nat.le_refl _) ha'; cases hr
      · rcases g2 with ⟨v', ha', -⟩ | ⟨e, ha', -⟩ | ⟨ha', -⟩
        · obtain ⟨r, hr, -, hrf⟩ := key k' _ (by omega) ha'
          cases hr
          cases hrf hlt
        · obtain ⟨r, hr, -⟩ := key k' _ (by omega) ha'; cases hr
        · obtain ⟨r, hr, -⟩ := key k' _ (by omega) ha'; cases hr
  · rw [hv] at h; cases h
  · rw [hv] at h; cases h

/-- **C53** Sampling returns the same configuration from the same random stream. -/
theorem C53_sampling_kept (hmk : OneDimensional mk) {s s' : Space} (hr : Reachable ops jen little mem mk s)
    {i : Nat} {e : Expr} (hb : Built e) {x : Err} (h : setCondition s i e = (s', .err x)) (t : Nat) (v : List Value) :
    (sampleOne ops jen little s' t).2 = .ok v ↔ (sampleOne ops jen little s t).2 = .ok v := by
  obtain ⟨hs, hg'⟩ := refused_same ops jen little mem mk hmk hr hb h
  obtain ⟨s1, hg1, hs1, hok1, he1⟩ := sampleOne_good ops jen little mem (reachable_good hmk hr) t
  obtain ⟨s2, hg2, hs2, hok2, he2⟩ := sampleOne_good ops jen little mem hg' t
  rw [he1, he2]
  have h12 : SameSpace s1 s2 := (hs1.symm.trans hs).trans hs2
  exact ⟨sampleLoop_same ops jen little h12.symm hg2.parts hg1.parts (hg2.graph.full hok2) (hg1.graph.full hok1) 99 t,
    sampleLoop_same ops jen little h12 hg1.parts hg2.parts (hg1.graph.full hok1) (hg2.graph.full hok2) 99 t⟩

/-- **C53, violated** A condition refused because it would close a cycle changes the default configuration. -/
theorem C53_default_changes :
    ∃ s s' i e d d', Reachable exOps exJen true exMem exMk s ∧ Built e ∧ setCondition s i e = (s', .err .invalidGraph) ∧
      getDefault exOps exJen true s = .ok d ∧ getDefault exOps exJen true s' = .ok d' ∧ d ≠ d' := by
  refine ⟨exRun exHistory, (setCondition (exRun exHistory) 0 (isValue 2#64 parB 1#64)).1, 0, isValue 2#64 parB 1#64,
    [.int 0#64, .inactive], [.int 0#64, .int 5#64], ⟨exHistory, exHistory_called, rfl⟩, isValue_built (by decide) _ _, ?_,
    by decide +kernel, by decide +kernel, by decide⟩
  have : (setCondition (exRun exHistory) 0 (isValue 2#64 parB 1#64)).2 = .err .invalidGraph := by decide +kernel
  exact Prod.ext rfl this

/-- Refusals of the other kinds. -/
example : (setCondition (exRun exHistory) 7 (isValue 2#64 parB 1#64)).2 = .err .outOfBounds ∧
    (setCondition (exRun exHistory) 1 (isValue 1#64 parA 1#64)).2 = .err .invalidParameter ∧
    (setCondition (exRun exHistory) 0 (isValue 3#64 parB 1#64)).2 = .err .invalidParameter := by decide +kernel

end

end CCS.Props
