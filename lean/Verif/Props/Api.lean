import Verif.Lemmas.Api

/-!
# C127: documented refusals of `NULL` pointers and invalid objects

`CCS.Api.call f args o`: what the entry point `f` does with its arguments; `o` tells how everything that
depends on the state of the library goes.
-/

namespace CCS.Props

open CCS.Api CCS.Api.Spec

set_option maxRecDepth 8000 in
private theorem covered (f : Fn) : ((documented f).all fun c => (gaps f).contains c || covers (gaps f) [] c (steps f)) = true := by
  cases f <;> decide +kernel

set_option maxRecDepth 8000 in
private theorem told (f : Fn) : ((steps f).all fun s => explained (documented f ++ undocumented f) s) = true := by
  cases f <;> decide +kernel

/-- **C127** (partial).  Whatever the arguments, whatever the state: when the condition of a documented
refusal is met, and none of those listed as gaps is, the call fails: it does not succeed, and nothing
undefined happens.  Missing: the gaps, `C127_gaps`. -/
theorem C127_refused_partial (f : Fn) (args : Args) (o : List (Option Err)) (c : Clause) (hc : c ∈ documented f)
    (hv : Violates args c) (hg : ∀ g ∈ gaps f, ¬ Violates args g) : ∃ e, call f args o = .err e := by
  have h := List.all_eq_true.1 (covered f) c hc
  rw [Bool.or_eq_true] at h
  rcases h with h | h
  · exact absurd hv (hg c (by simpa using h))
  · exact covers_sound hg (steps f) [] c o (by simp) h hv

/-- **C127**, the code: when nothing else fails, the code returned is the one that goes with a condition
that is met, documented or in the short list `undocumented`. -/
theorem C127_reason (f : Fn) (args : Args) (e : Err) (h : call f args [] = .err e) :
    ∃ c ∈ documented f ++ undocumented f, Violates args c ∧ c.code = e :=
  explained_sound (steps f) (List.all_eq_true.1 (told f)) e h

/-- **C127**, all of it for the functions without gaps: with arguments that meet a documented condition
the call fails, and when nothing else fails it fails with the code of a condition that is met. -/
theorem C127_complete (f : Fn) (hf : gaps f = []) (args : Args) (o : List (Option Err))
    (h : ∃ c ∈ documented f, Violates args c) :
    (∃ e, call f args o = .err e) ∧
      ∃ c ∈ documented f ++ undocumented f, Violates args c ∧ call f args [] = .err c.code := by
  obtain ⟨c, hc, hv⟩ := h
  have hg : ∀ g ∈ gaps f, ¬ Violates args g := by rw [hf]; simp
  refine ⟨C127_refused_partial f args o c hc hv hg, ?_⟩
  obtain ⟨e, he⟩ := C127_refused_partial f args [] c hc hv hg
  obtain ⟨c', h1, h2, h3⟩ := C127_reason f args e he
  exact ⟨c', h1, h2, by rw [he, h3]⟩

/-- Arguments the checks accept: live objects of the right kind, pointers that are not `NULL`, counts
of 0. -/
private def soundArgs : List Step → Args
  | [], _ => .pointer false
  | .obj a k :: r, i => if i = a then .handle (.live k) else soundArgs r i
  | .use a (k :: _) :: r, i => if i = a then .handle (.live k) else soundArgs r i
  | .given a :: r, i => if i = a then .handle (.live .rng) else soundArgs r i
  | .ary _ n :: r, i => if i = n then .number 0 else soundArgs r i
  | .stopZero n :: r, i => if i = n then .number 0 else soundArgs r i
  | _ :: r, i => soundArgs r i

/-- Those arguments, but for a gap. -/
private def gapArgs (f : Fn) : Clause → Args
  | .null a, i => if i = a then .pointer true else soundArgs (steps f) i
  | .nullArray a n, i => if i = a then .pointer true else if i = n then .number 1 else soundArgs (steps f) i
  | .allNull as, i => if i ∈ as then .pointer true else soundArgs (steps f) i
  | .wrongKind a ks, i =>
    if i = a then .handle (.live (if ks = [.featuresSpace] then .configurationSpace else .tree)) else soundArgs (steps f) i
  | .notValid a _, i => if i = a then .handle (.live .configurationSpace) else soundArgs (steps f) i
  | _, i => soundArgs (steps f) i

private def met (args : Args) : Clause → Bool
  | .notValid a ks => (args a).unlike ks
  | .null a => (args a).isNull
  | .nullArray a n => (args a).isNull && !(args n).isZero
  | .allNull as => as.all fun a => (args a).isNull
  | .wrongKind a ks => (args a).unlike ks && !(args a).noData
  | _ => false

private theorem met_sound {args : Args} {c : Clause} (h : met args c = true) : Violates args c := by
  cases c <;> simp only [met, Bool.false_eq_true, Bool.and_eq_true, Bool.not_eq_true'] at h
  case notValid a ks => exact (unlike_iff args a ks).1 h
  case null a => exact (isNull_iff args a).1 h
  case nullArray a n =>
    refine ⟨(isNull_iff args a).1 h.1, fun m hm h0 => ?_⟩
    subst h0
    rw [(isZero_iff args n).2 hm] at h
    cases h.2
  case allNull as => exact fun a ha => (isNull_iff args a).1 (List.all_eq_true.1 h a ha)
  case wrongKind a ks =>
    rcases (unlike_iff args a ks).1 h.1 with hx | hx | hx
    · rw [(noData_iff args a).2 (.inl hx)] at h; cases h.2
    · rw [(noData_iff args a).2 (.inr hx)] at h; cases h.2
    · exact hx

private def notErr : Out Unit → Bool
  | .err _ => false
  | _ => true

set_option maxRecDepth 8000 in
private theorem gapsReal (f : Fn) : ((gaps f).all fun g => met (gapArgs f g) g &&
    ((documented f).any fun c => met (gapArgs f g) c) && notErr (call f (gapArgs f g) [])) = true := by
  cases f <;> decide +kernel

/-- **C127 is violated**: each of the gaps is one.  There are arguments that meet it and a documented
condition, and that the call does not refuse: it goes on, or something undefined happens. -/
theorem C127_gaps (f : Fn) (g : Clause) (hg : g ∈ gaps f) :
    ∃ args, Violates args g ∧ (∃ c ∈ documented f, Violates args c) ∧ ∀ e, call f args [] ≠ .err e := by
  have h := List.all_eq_true.1 (gapsReal f) g hg
  rw [Bool.and_eq_true, Bool.and_eq_true] at h
  obtain ⟨⟨h1, h2⟩, h3⟩ := h
  obtain ⟨c, hc, hv⟩ := List.any_eq_true.1 h2
  refine ⟨gapArgs f g, met_sound h1, ⟨c, hc, met_sound hv⟩, fun e he => ?_⟩
  rw [he] at h3
  cases h3

/-- **C127 is violated**, the plainest cases: the type of a generator, the name of a result, the hash of
an evaluation, the check of a configuration, a new error stack are written through a `NULL` pointer that
the documentation says is refused. -/
theorem C127_null_written (args : Args) (hr : args 0 = .handle (.live .rng)) (h1 : args 1 = .pointer true) :
    call .ccs_rng_get_type args [] = .ub ∧
    (∀ args, args 1 = .pointer true → call .ccs_get_result_name args [] = .ub) ∧
    (∀ args, args 0 = .handle (.live .evaluation) → args 1 = .pointer true → call .ccs_evaluation_hash args [] = .ub) ∧
    (∀ args, args 0 = .handle (.live .configurationSpace) → args 1 = .handle (.live .configuration) →
      args 2 = .pointer true → call .ccs_configuration_space_check_configuration args [] = .ub) ∧
    (∀ args, args 0 = .pointer true → call .ccs_create_error_stack args [] = .ub) := by
  refine ⟨?_, fun args h => ?_, fun args h h' => ?_, fun args h h' h'' => ?_, fun args h => ?_⟩ <;>
    simp [call, steps, run, Arg.isNot, Arg.isNull, *]

/-- Non-vacuity: a `NULL` result pointer given to `ccs_parameter_get_name`; the parameter is live, the
function has no gaps, and the code is the documented one. -/
example : gaps .ccs_parameter_get_name = [] ∧
    (let args : Args := fun i => if i = 0 then .handle (.live .parameter) else .pointer true
     Clause.null 1 ∈ documented .ccs_parameter_get_name ∧ Violates args (.null 1) ∧
       call .ccs_parameter_get_name args [] = .err .invalidValue ∧
       call .ccs_parameter_get_name (fun i => if i = 0 then .handle (.live .rng) else .pointer true) [] =
         .err .invalidObject ∧
       call .ccs_parameter_get_name (fun i => if i = 0 then .handle (.live .parameter) else .pointer false) [] =
         .ok ()) := by
  refine ⟨rfl, by decide, .inr rfl, rfl, rfl, rfl⟩

/-- Non-vacuity: most functions have no gap. -/
example : gaps .ccs_create_configuration = [] ∧ gaps .ccs_tuner_ask = [] ∧ gaps .ccs_tree_get_child = [] := ⟨rfl, rfl, rfl⟩

end CCS.Props
