/-
C130, C131: the objects of the Python and Ruby bindings and the objects of the library behind them.
-/
import Verif.Spec.Wrappers

namespace CCS.Props
open CCS.Py CCS.Py.Spec
open CCS.Api (Fn Kind)

/-- How a method ought to make its wrapper, given what it gets. -/
private def fair (l : Language) (f : Fn) : Bool :=
  match gives f, l.makes f with
  | some (.given, _), some (.wrapper r _) => !r
  | some (.given, _), some (.byType r) => !r
  | some (.given, _), some .noName => false
  | some (.lent, _), some (.wrapper r _) => r
  | some (.lent, _), some (.byType r) => r
  | some (.lent, _), some .noName => true
  | _, _ => true

set_option maxRecDepth 8000 in
private theorem fair_all (f : Fn) : (f = .ccs_parameter_get_default_distribution ∨
    fair pythonBinding f = true ∧ fair rubyBinding f = true) := by
  cases f <;> first | exact .inr (by decide +kernel) | exact .inl rfl

private theorem asks_iff (e : Event) : asksDefault e = true ↔ e = .call .ccs_parameter_get_default_distribution := by
  unfold asksDefault
  split <;> simp_all

private def Even (h : Held) (n : Nat) : Prop := h.count = h.inner + h.wrappers + n

private theorem step_even {l : Language} (hl : l = pythonBinding ∨ l = rubyBinding) {h : Held} {n : Nat} (he : Even h n) (e : Event) :
    h.step l e ≠ .ub ∧ ∀ h', h.step l e = .ok h' → Even h' (n + if asksDefault e then 1 else 0) := by
  unfold Even at he
  cases e with
  | drop =>
    unfold Held.step
    simp only
    by_cases h1 : h.wrappers = 0
    · rw [if_pos h1]; exact ⟨nofun, nofun⟩
    · rw [if_neg h1, if_neg (by omega)]
      refine ⟨nofun, fun h' hh => ?_⟩
      cases hh
      unfold Even
      simp only [asksDefault, Bool.false_eq_true, if_false]
      omega
  | keep =>
    unfold Held.step
    simp only
    by_cases h1 : h.wrappers = 0
    · rw [if_pos h1]; exact ⟨nofun, nofun⟩
    · rw [if_neg h1, if_neg (by omega)]
      refine ⟨nofun, fun h' hh => ?_⟩
      cases hh
      unfold Even
      simp only [asksDefault, Bool.false_eq_true, if_false]
      omega
  | letGo =>
    unfold Held.step
    simp only
    by_cases h1 : h.inner = 0
    · rw [if_pos h1]; exact ⟨nofun, nofun⟩
    · rw [if_neg h1, if_neg (by omega)]
      refine ⟨nofun, fun h' hh => ?_⟩
      cases hh
      unfold Even
      simp only [asksDefault, Bool.false_eq_true, if_false]
      omega
  | call f =>
    by_cases hd : f = .ccs_parameter_get_default_distribution
    · subst hd
      have hm : l.makes .ccs_parameter_get_default_distribution = some (.wrapper true .distribution) ∨
          l.makes .ccs_parameter_get_default_distribution = some (.byType true) := by
        rcases hl with rfl | rfl
        · exact .inl rfl
        · exact .inr rfl
      have hg : gives .ccs_parameter_get_default_distribution = some (.given, some .distribution) := rfl
      unfold Held.step
      simp only [hg]
      rcases hm with hm | hm <;> rw [hm] <;> simp only
      all_goals
        rw [if_neg (by omega)]
        refine ⟨nofun, fun h' hh => ?_⟩
        cases hh
        unfold Even Held.wrap
        simp only [asksDefault, if_true]
        omega
    · have ha : asksDefault (.call f) = false := by
        cases hb : asksDefault (.call f) with
        | false => rfl
        | true => rw [asks_iff] at hb; cases hb; exact absurd rfl hd
      rw [ha]
      have hf : fair l f = true := by
        rcases fair_all f with h1 | h1
        · exact absurd h1 hd
        · rcases hl with rfl | rfl
          · exact h1.1
          · exact h1.2
      unfold fair at hf
      unfold Held.step
      simp only
      cases hg : gives f with
      | none => exact ⟨nofun, nofun⟩
      | some g =>
        obtain ⟨s, k⟩ := g
        rw [hg] at hf
        cases hm : l.makes f with
        | none => cases s <;> exact ⟨nofun, nofun⟩
        | some m =>
          rw [hm] at hf
          cases s with
          | given =>
            simp only
            rw [if_neg (by omega)]
            refine ⟨nofun, fun h' hh => ?_⟩
            cases hh
            cases m with
            | noName => cases hf
            | wrapper r c =>
              cases r with
              | true => cases hf
              | false => unfold Even Held.wrap; simp only [Bool.false_eq_true, if_false]; omega
            | byType r =>
              cases r with
              | true => cases hf
              | false => unfold Even Held.wrap; simp only [Bool.false_eq_true, if_false]; omega
          | lent =>
            simp only
            by_cases h0 : h.count = 0
            · rw [if_pos h0, if_pos (by omega)]; exact ⟨nofun, nofun⟩
            · rw [if_neg h0]
              refine ⟨nofun, fun h' hh => ?_⟩
              cases hh
              cases m with
              | noName => unfold Even Held.wrap; simp only [Bool.false_eq_true, if_false]; omega
              | wrapper r c =>
                cases r with
                | false => cases hf
                | true => unfold Even Held.wrap; simp only [Bool.false_eq_true, if_false, if_true]; omega
              | byType r =>
                cases r with
                | false => cases hf
                | true => unfold Even Held.wrap; simp only [Bool.false_eq_true, if_false, if_true]; omega

private theorem run_even {l : Language} (hl : l = pythonBinding ∨ l = rubyBinding) : ∀ (es : List Event) {h : Held} {n : Nat}, Even h n →
    h.run l es ≠ .ub ∧ ∀ h', h.run l es = .ok h' → Even h' (n + defaults es)
  | [], h, n, he => ⟨nofun, fun h' hh => by cases hh; exact he⟩
  | e :: es, h, n, he => by
    obtain ⟨h1, h2⟩ := step_even hl he e
    rw [Held.run]
    cases hs : h.step l e with
    | ub => exact absurd hs h1
    | err x => exact ⟨nofun, nofun⟩
    | ok h' =>
      obtain ⟨h3, h4⟩ := run_even hl es (h2 h' hs)
      refine ⟨h3, fun h'' hh => ?_⟩
      have := h4 h'' hh
      unfold Even at this ⊢
      rw [this]
      unfold defaults
      rw [List.countP_cons]
      omega

/-- **C130** Whatever methods a program calls, and whenever its wrappers are collected, the binding never touches an object of the
library that was freed, and an object that a wrapper or another object needs is in memory. -/
theorem C130_alive {l : Language} (hl : l = pythonBinding ∨ l = rubyBinding) (es : List Event) :
    Held.start.run l es ≠ .ub ∧ ∀ h, Held.start.run l es = .ok h → Needed h → InMemory h := by
  obtain ⟨h1, h2⟩ := run_even hl es (h := .start) (n := 0) rfl
  refine ⟨h1, fun h hh hn => ?_⟩
  have := h2 h hh
  unfold Even at this
  unfold InMemory
  rcases hn with hn | hn <;> omega

/-- **C130** (partial) An object nobody needs any more is not in memory, if it is not a default distribution.
Missing: default distributions, see `C130_default_distribution_leaks`. -/
theorem C130_freed_partial {l : Language} (hl : l = pythonBinding ∨ l = rubyBinding) {es : List Event} (hd : ∀ e ∈ es, asksDefault e = false)
    {h : Held} (hh : Held.start.run l es = .ok h) : InMemory h ↔ Needed h := by
  have := (run_even hl es (h := .start) (n := 0) rfl).2 h hh
  have h0 : defaults es = 0 := by
    unfold defaults
    rw [List.countP_eq_zero]
    intro e he
    simp [hd e he]
  unfold Even at this
  unfold InMemory Needed
  omega

/-- A sample told to a tuner: the program lets go of it first, then the tuner. -/
example : Held.start.run pythonBinding [.call .ccs_configuration_space_sample, .keep, .call .ccs_evaluation_get_configuration, .drop, .drop] =
    .ok ⟨1, 1, 0⟩ ∧
    Held.start.run pythonBinding [.call .ccs_configuration_space_sample, .keep, .drop, .letGo] = .ok ⟨0, 0, 0⟩ := by decide +kernel

/-- **C130** fails for the default distribution of a parameter, in both bindings: each call leaves a reference nobody will release, so
that the distribution stays in memory for ever. -/
theorem C130_default_distribution_leaks {l : Language} (hl : l = pythonBinding ∨ l = rubyBinding) {es : List Event}
    (hd : ∃ e ∈ es, asksDefault e = true) {h : Held} (hh : Held.start.run l es = .ok h) : InMemory h := by
  have := (run_even hl es (h := .start) (n := 0) rfl).2 h hh
  have h0 : 0 < defaults es := by
    obtain ⟨e, he, ha⟩ := hd
    exact List.countP_pos_iff.2 ⟨e, he, ha⟩
  unfold Even at this
  unfold InMemory
  omega

example : Held.start.run pythonBinding [.call .ccs_parameter_get_default_distribution, .drop] = .ok ⟨1, 0, 0⟩ ∧
    Held.start.run rubyBinding [.call .ccs_parameter_get_default_distribution, .drop] = .ok ⟨1, 0, 0⟩ := by decide +kernel

/-! ## C131 -/

private def clsOk (l : Language) (f : Fn) (k : Kind) : Bool :=
  match gives f, l.makes f with
  | some (_, some k'), some m => decide (l.cls m k' = some k')
  | some (_, none), some m => decide (l.cls m k = some k)
  | _, _ => true

set_option maxRecDepth 8000 in
private theorem ruby_cls (f : Fn) (k : Kind) (hf : f ≠ .ccs_expression_get_parameters) : clsOk rubyBinding f k = true := by
  cases f <;> first | exact absurd rfl hf | (revert k; intro k; cases k <;> rfl)

set_option maxRecDepth 8000 in
private theorem python_cls (f : Fn) (k : Kind) (hf : f ≠ .ccs_features_get_features_space) (hk : k ≠ .featuresSpace) :
    clsOk pythonBinding f k = true := by
  cases f <;> first | exact absurd rfl hf | (cases k <;> first | exact absurd rfl hk | rfl)

private theorem cls_of_ok {l : Language} {f : Fn} {k : Kind} (h : clsOk l f k = true) {m : Made} (hm : l.makes f = some m)
    (hg : CanGive f k) : l.cls m k = some k := by
  obtain ⟨s, k', h1, h2⟩ := hg
  unfold clsOk at h
  rw [h1, hm] at h
  cases k' with
  | none => exact of_decide_eq_true h
  | some k'' =>
    cases h2 k'' rfl
    exact of_decide_eq_true h

/-- **C131** (partial) Every method of the bindings that returns an object of the library gives a wrapper of the class of its kind.
Missing: the features space in Python (`C131_features_space`), the parameters of an expression in Ruby
(`C131_expression_parameters`). -/
theorem C131_class_partial {f : Fn} {k : Kind} (hg : CanGive f k) {m : Made} :
    (python f = some m → f ≠ .ccs_features_get_features_space → k ≠ .featuresSpace → pythonBinding.cls m k = some k) ∧
    (ruby f = some m → f ≠ .ccs_expression_get_parameters → rubyBinding.cls m k = some k) :=
  ⟨fun h1 h2 h3 => cls_of_ok (python_cls f k h2 h3) h1 hg, fun h1 h2 => cls_of_ok (ruby_cls f k h2) h1 hg⟩

example : CanGive .ccs_tuner_get_optima .evaluation ∧ python .ccs_tuner_get_optima = some (.wrapper true .evaluation) ∧
    CanGive .ccs_object_deserialize .treeSpace ∧ python .ccs_object_deserialize = some (.byType false) :=
  ⟨⟨.lent, some .evaluation, rfl, fun _ h => (Option.some.inj h)⟩, rfl, ⟨.given, none, rfl, nofun⟩, rfl⟩

/-- **C131** fails in Python for features spaces: asking features for their space raises an exception; a features space read back, or the
context of features, comes as a `ConfigurationSpace`, of which every method of its own is refused by the library, whatever its
other arguments and the state. -/
theorem C131_features_space :
    (CanGive .ccs_features_get_features_space .featuresSpace ∧
      ∃ m, python .ccs_features_get_features_space = some m ∧ pythonBinding.cls m .featuresSpace = none) ∧
    (∀ f ∈ [Fn.ccs_object_deserialize, .ccs_binding_get_context], CanGive f .featuresSpace ∧
      ∃ m, python f = some m ∧ pythonBinding.cls m .featuresSpace = some .configurationSpace) ∧
    ∀ f ∈ ownFunctions, ∀ (args : Api.Args) (o : List (Option Err)), args 0 = .handle (.live .featuresSpace) →
      Api.call f args o = .err .invalidObject := by
  refine ⟨⟨⟨.lent, some .featuresSpace, rfl, fun _ h => (Option.some.inj h)⟩, _, rfl, rfl⟩, fun f hf => ?_, fun f hf args o ha => ?_⟩
  · simp only [List.mem_cons, List.not_mem_nil, or_false] at hf
    rcases hf with rfl | rfl
    · exact ⟨⟨.given, none, rfl, nofun⟩, _, rfl, rfl⟩
    · exact ⟨⟨.lent, none, rfl, nofun⟩, _, rfl, rfl⟩
  · have key : ∀ r, Api.run args (.obj 0 .configurationSpace :: r) o = .err .invalidObject := fun r => by
      rw [Api.run, ha]; rfl
    unfold Api.call
    simp only [ownFunctions, List.mem_cons, List.not_mem_nil, or_false] at hf
    rcases hf with rfl | rfl | rfl | rfl | rfl | rfl | rfl | rfl | rfl | rfl | rfl | rfl | rfl | rfl | rfl | rfl | rfl | rfl <;>
      exact key _

/-- **C131** fails in Ruby for the parameters of an expression: the class is written `Parameters`, which does not exist. -/
theorem C131_expression_parameters : CanGive .ccs_expression_get_parameters .parameter ∧
    ∃ m, ruby .ccs_expression_get_parameters = some m ∧ rubyBinding.cls m .parameter = none :=
  ⟨⟨.lent, some .parameter, rfl, fun _ h => (Option.some.inj h)⟩, _, rfl, rfl⟩

end CCS.Props
