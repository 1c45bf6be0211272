/-
What a program expects of the objects of a binding: the object of the library behind them lives as long as someone needs it, and no
longer, and they have the methods of its kind.
-/
import Verif.Model.Wrappers

namespace CCS.Py.Spec
open CCS.Api (Fn Kind)

/-- Does the event ask for the default distribution of a parameter? -/
def asksDefault : Event → Bool
  | .call .ccs_parameter_get_default_distribution => true
  | _ => false

/-- How many times the default distribution of a parameter is asked for. -/
def defaults (es : List Event) : Nat := es.countP asksDefault

/-- Somebody needs the object: a wrapper of the program or another object of the library. -/
def Needed (h : Held) : Prop := 0 < h.wrappers ∨ 0 < h.inner

/-- The object is in memory. -/
def InMemory (h : Held) : Prop := 0 < h.count

/-- A function can return an object of this kind. -/
def CanGive (f : Fn) (k : Kind) : Prop := ∃ s k', gives f = some (s, k') ∧ ∀ k'', k' = some k'' → k = k''

/-- The methods of `ConfigurationSpace` that are its own. -/
def ownFunctions : List Fn :=
  [.ccs_configuration_space_add_forbidden_clause, .ccs_configuration_space_add_forbidden_clauses,
   .ccs_configuration_space_add_parameter, .ccs_configuration_space_add_parameters, .ccs_configuration_space_check_configuration,
   .ccs_configuration_space_check_configuration_values, .ccs_configuration_space_get_condition,
   .ccs_configuration_space_get_conditions, .ccs_configuration_space_get_default_configuration,
   .ccs_configuration_space_get_forbidden_clause, .ccs_configuration_space_get_forbidden_clauses,
   .ccs_configuration_space_get_parameter_distribution, .ccs_configuration_space_get_rng, .ccs_configuration_space_sample,
   .ccs_configuration_space_samples, .ccs_configuration_space_set_condition, .ccs_configuration_space_set_distribution,
   .ccs_configuration_space_set_rng]

end CCS.Py.Spec
