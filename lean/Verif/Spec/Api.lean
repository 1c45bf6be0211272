import Verif.Model.Api

/-!
# What the documentation of the entry points says about their arguments

The `@return` lines of `include/cconfigspace/*.h` that speak of one call's own arguments: "`x` is not a
valid CCS …" (`CCS_RESULT_ERROR_INVALID_OBJECT`), "`x` is NULL", "`x` is NULL and `n` is greater than 0",
"`x` is NULL and `y` is NULL", "`n` is 0" (`CCS_RESULT_ERROR_INVALID_VALUE`).

Readings.  A line that names no argument of the function (`features_tuner` for `tuner`, `node_ret` for
`tree_ret`, …) is read for the argument it can only mean; "not a valid CCS object" is read for the type
the argument has in the prototype; "`value_ret` is NULL" of the `…_set_value` functions, which have no
pointer argument, is left out; "object is found to be invalid" is read as: the handle is `NULL`.
-/

namespace CCS.Api.Spec

/-- A documented refusal. -/
inductive Clause
  /-- "`a` is not a valid CCS …": one of these kinds. -/
  | notValid (a : Nat) (ks : List Kind)
  /-- "`a` is not NULL and is not a valid CCS …". -/
  | notValidIfGiven (a : Nat) (ks : List Kind)
  /-- "object is found to be invalid". -/
  | noObject (a : Nat)
  /-- "`a` is NULL". -/
  | null (a : Nat)
  /-- "`a` is NULL and `n` is greater than 0". -/
  | nullArray (a n : Nat)
  /-- "`a` is NULL and `b` is NULL and …". -/
  | allNull (as : List Nat)
  /-- "`n` is 0". -/
  | noCount (n : Nat)
  /-- A live object of another kind (used to list gaps only). -/
  | wrongKind (a : Nat) (ks : List Kind)
  deriving DecidableEq, Repr

/-- The error code that goes with it. -/
def Clause.code : Clause → Err
  | .notValid _ _ | .notValidIfGiven _ _ | .noObject _ | .wrongKind _ _ => .invalidObject
  | _ => .invalidValue

/-- `a` is a `NULL` handle or pointer. -/
def IsNull (args : Args) (a : Nat) : Prop := args a = .handle .null ∨ args a = .pointer true

/-- `a` is a handle, but not of a live object of one of these kinds. -/
def NotValid (args : Args) (a : Nat) (ks : List Kind) : Prop :=
  args a = .handle .null ∨ args a = .handle .void ∨ ∃ k, args a = .handle (.live k) ∧ k ∉ ks

/-- The arguments meet the condition of a documented refusal. -/
def Violates (args : Args) : Clause → Prop
  | .notValid a ks => NotValid args a ks
  | .notValidIfGiven a ks => ¬ IsNull args a ∧ NotValid args a ks
  | .noObject a => IsNull args a
  | .null a => IsNull args a
  | .nullArray a n => IsNull args a ∧ ∀ m, args n = .number m → m ≠ 0
  | .allNull as => ∀ a ∈ as, IsNull args a
  | .noCount n => args n = .number 0
  | .wrongKind a ks => ∃ k, args a = .handle (.live k) ∧ k ∉ ks

/-- The documented refusals, function by function; the lines of the documentation are above each. -/
def documented : Fn → List Clause
  /- `include/cconfigspace/binding.h:191-209`: binding, other_binding, cmp_ret -/
  | .ccs_binding_cmp => [.notValid 0 bindings, .notValid 1 bindings, .null 2]
  /- `include/cconfigspace/binding.h:14-25`: binding, context_ret -/
  | .ccs_binding_get_context => [.notValid 0 bindings, .null 1]
  /- `include/cconfigspace/binding.h:27-43`: binding, index, value_ret -/
  | .ccs_binding_get_value => [.notValid 0 bindings, .null 2]
  /- `include/cconfigspace/binding.h:108-124`: binding, name, value_ret -/
  | .ccs_binding_get_value_by_name => [.notValid 0 bindings, .null 2]
  /- `include/cconfigspace/binding.h:143-158`: binding, parameter, value_ret -/
  | .ccs_binding_get_value_by_parameter => [.notValid 0 bindings]
  /- `include/cconfigspace/binding.h:63-86`: binding, num_values, values, num_values_ret -/
  | .ccs_binding_get_values => [.notValid 0 bindings, .nullArray 2 1, .allNull [2, 3]]
  /- `include/cconfigspace/binding.h:177-189`: binding, hash_ret -/
  | .ccs_binding_hash => [.notValid 0 bindings, .null 1]
  /- `include/cconfigspace/binding.h:45-61`: binding, index, value -/
  | .ccs_binding_set_value => [.notValid 0 bindings]
  /- `include/cconfigspace/binding.h:126-141`: binding, name, value -/
  | .ccs_binding_set_value_by_name => [.notValid 0 bindings]
  /- `include/cconfigspace/binding.h:160-175`: binding, parameter, value -/
  | .ccs_binding_set_value_by_parameter => [.notValid 0 bindings]
  /- `include/cconfigspace/binding.h:88-106`: binding, num_values, values -/
  | .ccs_binding_set_values => [.notValid 0 bindings, .nullArray 2 1]
  /- `include/cconfigspace/parameter.h:183-208`: parameter, num_possible_values, possible_values, num_possible_values_ret -/
  | .ccs_categorical_parameter_get_values => [.notValid 0 [.parameter], .nullArray 2 1, .allNull [2, 3]]
  /- `include/cconfigspace/configuration.h:139-159`: configuration, is_valid_ret -/
  | .ccs_configuration_check => [.notValid 0 [.configuration]]
  /- `include/cconfigspace/configuration.h:176-194`: configuration, other_configuration, cmp_ret -/
  | .ccs_configuration_cmp => [.notValid 0 [.configuration], .notValid 1 [.configuration]]
  /- `include/cconfigspace/configuration.h:40-53`: configuration, configuration_space_ret -/
  | .ccs_configuration_get_configuration_space => [.notValid 0 [.configuration], .null 1]
  /- `include/cconfigspace/configuration.h:55-72`: configuration, index, value_ret -/
  | .ccs_configuration_get_value => [.notValid 0 [.configuration], .null 2]
  /- `include/cconfigspace/configuration.h:121-137`: configuration, name, value_ret -/
  | .ccs_configuration_get_value_by_name => [.notValid 0 [.configuration], .null 2]
  /- `include/cconfigspace/configuration.h:96-119`: configuration, num_values, values, num_values_ret -/
  | .ccs_configuration_get_values => [.notValid 0 [.configuration], .nullArray 2 1, .allNull [2, 3]]
  /- `include/cconfigspace/configuration.h:161-174`: configuration, hash_ret -/
  | .ccs_configuration_hash => [.notValid 0 [.configuration], .null 1]
  /- `include/cconfigspace/configuration.h:74-94`: configuration, index, value -/
  | .ccs_configuration_set_value => [.notValid 0 [.configuration]]
  /- `include/cconfigspace/configuration_space.h:430-448`: configuration_space, expression -/
  | .ccs_configuration_space_add_forbidden_clause => [.notValid 0 [.configurationSpace], .notValid 1 [.expression]]
  /- `include/cconfigspace/configuration_space.h:450-473`: configuration_space, num_expressions, expressions -/
  | .ccs_configuration_space_add_forbidden_clauses => [.notValid 0 [.configurationSpace], .nullArray 2 1]
  /- `include/cconfigspace/configuration_space.h:75-99`: configuration_space, parameter, distribution -/
  | .ccs_configuration_space_add_parameter => [.notValid 0 [.configurationSpace], .notValid 1 [.parameter], .notValidIfGiven 2 [.distribution]]
  /- `include/cconfigspace/configuration_space.h:101-133`: configuration_space, num_parameters, parameters, distributions -/
  | .ccs_configuration_space_add_parameters => [.notValid 0 [.configurationSpace], .nullArray 2 1]
  /- `include/cconfigspace/configuration_space.h:521-544`: configuration_space, configuration, is_valid_ret -/
  | .ccs_configuration_space_check_configuration => [.notValid 0 [.configurationSpace], .notValid 1 [.configuration], .null 2]
  /- `include/cconfigspace/configuration_space.h:546-573`: configuration_space, num_values, values, is_valid_ret -/
  | .ccs_configuration_space_check_configuration_values => [.notValid 0 [.configurationSpace], .nullArray 2 1]
  /- `include/cconfigspace/configuration_space.h:380-399`: configuration_space, parameter_index, expression_ret -/
  | .ccs_configuration_space_get_condition => [.notValid 0 [.configurationSpace], .null 2]
  /- `include/cconfigspace/configuration_space.h:401-428`: configuration_space, num_expressions, expressions, num_expressions_ret -/
  | .ccs_configuration_space_get_conditions => [.notValid 0 [.configurationSpace], .nullArray 2 1, .allNull [2, 3]]
  /- `include/cconfigspace/configuration_space.h:575-590`: configuration_space, configuration_ret -/
  | .ccs_configuration_space_get_default_configuration => [.notValid 0 [.configurationSpace], .null 1]
  /- `include/cconfigspace/configuration_space.h:475-492`: configuration_space, index, expression_ret -/
  | .ccs_configuration_space_get_forbidden_clause => [.notValid 0 [.configurationSpace], .null 2]
  /- `include/cconfigspace/configuration_space.h:494-519`: configuration_space, num_expressions, expressions, num_expressions_ret -/
  | .ccs_configuration_space_get_forbidden_clauses => [.notValid 0 [.configurationSpace], .nullArray 2 1, .allNull [2, 3]]
  /- `include/cconfigspace/configuration_space.h:33-46`: configuration_space, name_ret -/
  | .ccs_configuration_space_get_name => [.notValid 0 [.configurationSpace], .null 1]
  /- `include/cconfigspace/configuration_space.h:160-174`: configuration_space, num_parameters_ret -/
  | .ccs_configuration_space_get_num_parameters => [.notValid 0 [.configurationSpace], .null 1]
  /- `include/cconfigspace/configuration_space.h:176-193`: configuration_space, index, parameter_ret -/
  | .ccs_configuration_space_get_parameter => [.notValid 0 [.configurationSpace], .null 2]
  /- `include/cconfigspace/configuration_space.h:219-237`: configuration_space, name, parameter_ret -/
  | .ccs_configuration_space_get_parameter_by_name => [.notValid 0 [.configurationSpace], .null 1, .null 2]
  /- `include/cconfigspace/configuration_space.h:195-217`: configuration_space, index, distribution_ret, index_ret -/
  | .ccs_configuration_space_get_parameter_distribution => [.notValid 0 [.configurationSpace], .null 2, .null 3]
  /- `include/cconfigspace/configuration_space.h:258-275`: configuration_space, parameter, index_ret -/
  | .ccs_configuration_space_get_parameter_index => [.notValid 0 [.configurationSpace], .null 2]
  /- `include/cconfigspace/configuration_space.h:239-256`: configuration_space, name, index_ret -/
  | .ccs_configuration_space_get_parameter_index_by_name => [.notValid 0 [.configurationSpace], .null 1, .null 2]
  /- `include/cconfigspace/configuration_space.h:277-299`: configuration_space, num_parameters, parameters, indexes -/
  | .ccs_configuration_space_get_parameter_indexes => [.notValid 0 [.configurationSpace], .nullArray 2 1, .nullArray 3 1]
  /- `include/cconfigspace/configuration_space.h:301-326`: configuration_space, num_parameters, parameters, num_parameters_ret -/
  | .ccs_configuration_space_get_parameters => [.notValid 0 [.configurationSpace], .nullArray 2 1, .allNull [2, 3]]
  /- `include/cconfigspace/configuration_space.h:61-73`: configuration_space, rng_ret -/
  | .ccs_configuration_space_get_rng => [.notValid 0 [.configurationSpace], .null 1]
  /- `include/cconfigspace/configuration_space.h:592-612`: configuration_space, configuration_ret -/
  | .ccs_configuration_space_sample => [.notValid 0 [.configurationSpace], .null 1]
  /- `include/cconfigspace/configuration_space.h:614-640`: configuration_space, num_configurations, configurations -/
  | .ccs_configuration_space_samples => [.notValid 0 [.configurationSpace], .nullArray 2 1]
  /- `include/cconfigspace/configuration_space.h:354-378`: configuration_space, parameter_index, expression -/
  | .ccs_configuration_space_set_condition => [.notValid 0 [.configurationSpace], .notValid 2 [.expression]]
  /- `include/cconfigspace/configuration_space.h:135-158`: configuration_space, distribution, indexes -/
  | .ccs_configuration_space_set_distribution => [.notValid 0 [.configurationSpace], .notValid 1 [.distribution], .null 2]
  /- `include/cconfigspace/configuration_space.h:48-59`: configuration_space, rng -/
  | .ccs_configuration_space_set_rng => [.notValid 0 [.configurationSpace], .notValid 1 [.rng]]
  /- `include/cconfigspace/configuration_space.h:328-352`: configuration_space, index, value, value_ret -/
  | .ccs_configuration_space_validate_value => [.notValid 0 [.configurationSpace], .null 3]
  /- `include/cconfigspace/context.h:18-29`: context, name_ret -/
  | .ccs_context_get_name => [.notValid 0 contexts, .null 1]
  /- `include/cconfigspace/context.h:50-63`: context, num_parameters_ret -/
  | .ccs_context_get_num_parameters => [.notValid 0 contexts, .null 1]
  /- `include/cconfigspace/context.h:65-82`: context, index, parameter_ret -/
  | .ccs_context_get_parameter => [.notValid 0 contexts, .null 2]
  /- `include/cconfigspace/context.h:84-102`: context, name, parameter_ret -/
  | .ccs_context_get_parameter_by_name => [.notValid 0 contexts, .null 1, .null 2]
  /- `include/cconfigspace/context.h:31-48`: context, parameter, index_ret -/
  | .ccs_context_get_parameter_index => [.notValid 0 contexts, .null 2]
  /- `include/cconfigspace/context.h:104-121`: context, name, index_ret -/
  | .ccs_context_get_parameter_index_by_name => [.notValid 0 contexts, .null 1, .null 2]
  /- `include/cconfigspace/context.h:150-172`: context, num_parameters, parameters, indexes -/
  | .ccs_context_get_parameter_indexes => [.notValid 0 contexts, .nullArray 2 1, .nullArray 3 1]
  /- `include/cconfigspace/context.h:123-148`: context, num_parameters, parameters, num_parameters_ret -/
  | .ccs_context_get_parameters => [.notValid 0 contexts, .nullArray 2 1, .allNull [2, 3]]
  /- `include/cconfigspace/context.h:174-198`: context, index, value, value_ret -/
  | .ccs_context_validate_value => [.notValid 0 contexts, .null 3]
  /- `include/cconfigspace/expression.h:255-282`: type, node_left, node_right, expression_ret -/
  | .ccs_create_binary_expression => [.null 3]
  /- `include/cconfigspace/parameter.h:158-181`: name, num_possible_values, possible_values, default_value_index, parameter_ret -/
  | .ccs_create_categorical_parameter => [.null 0, .null 4]
  /- `include/cconfigspace/configuration.h:14-38`: configuration_space, num_values, values, configuration_ret -/
  | .ccs_create_configuration => [.notValid 0 [.configurationSpace], .null 3, .nullArray 2 1]
  /- `include/cconfigspace/configuration_space.h:17-31`: name, configuration_space_ret -/
  | .ccs_create_configuration_space => [.null 0, .null 1]
  /- `include/cconfigspace/parameter.h:286-310`: name, num_possible_values, possible_values, default_value_index, parameter_ret -/
  | .ccs_create_discrete_parameter => [.null 0, .null 4]
  /- `include/cconfigspace/tree_space.h:112-134`: name, tree, vector, tree_space_data, tree_space_ret -/
  | .ccs_create_dynamic_tree_space => [.null 0, .null 4]
  /- `include/cconfigspace/error_stack.h:84-101`: error_stack_ret, error_code, msg, ... -/
  | .ccs_create_error_stack => [.null 0]
  /- `include/cconfigspace/evaluation.h:39-68`: objective_space, configuration, result, num_values, values, evaluation_ret -/
  | .ccs_create_evaluation => [.notValid 0 [.objectiveSpace], .notValid 1 [.configuration], .null 5, .nullArray 4 3]
  /- `include/cconfigspace/expression.h:226-253`: type, num_nodes, nodes, expression_ret -/
  | .ccs_create_expression => [.null 3]
  /- `include/cconfigspace/features.h:14-37`: features_space, num_values, values, features_ret -/
  | .ccs_create_features => [.notValid 0 [.featuresSpace], .null 3, .nullArray 2 1]
  /- `include/cconfigspace/features_evaluation.h:17-49`: objective_space, configuration, features, result, num_values, values, evaluation_ret -/
  | .ccs_create_features_evaluation => [.notValid 0 [.objectiveSpace], .notValid 1 [.configuration], .notValid 2 [.features], .nullArray 5 4, .null 6]
  /- `include/cconfigspace/features_space.h:14-28`: name, features_space_ret -/
  | .ccs_create_features_space => [.null 0, .null 1]
  /- `include/cconfigspace/parameter.h:106-129`: name, lower, upper, quantization, default_value, parameter_ret -/
  | .ccs_create_float_numerical_parameter => [.null 0, .null 5]
  /- `include/cconfigspace/parameter.h:81-104`: name, lower, upper, quantization, default_value, parameter_ret -/
  | .ccs_create_int_numerical_parameter => [.null 0, .null 5]
  /- `include/cconfigspace/expression.h:310-325`: value, expression_ret -/
  | .ccs_create_literal => [.null 1]
  /- `include/cconfigspace/map.h:13-23`: map_ret -/
  | .ccs_create_map => [.null 0]
  /- `include/cconfigspace/distribution.h:263-291`: num_distributions, distributions, weights, distribution_ret -/
  | .ccs_create_mixture_distribution => [.null 3, .null 1, .null 2, .noCount 0]
  /- `include/cconfigspace/distribution.h:293-314`: num_distributions, distributions, distribution_ret -/
  | .ccs_create_multivariate_distribution => [.null 2, .null 1, .noCount 0]
  /- `include/cconfigspace/distribution.h:60-92`: data_type, mu, sigma, scale_type, quantization, distribution_ret -/
  | .ccs_create_normal_distribution => [.null 5]
  /- `include/cconfigspace/distribution.h:120-144`: mu, sigma, scale, quantization, distribution_ret -/
  | .ccs_create_normal_float_distribution => [.null 4]
  /- `include/cconfigspace/distribution.h:94-118`: mu, sigma, scale, quantization, distribution_ret -/
  | .ccs_create_normal_int_distribution => [.null 4]
  /- `include/cconfigspace/parameter.h:52-79`: name, data_type, lower, upper, quantization, default_value, parameter_ret -/
  | .ccs_create_numerical_parameter => [.null 0, .null 6]
  /- `include/cconfigspace/objective_space.h:34-48`: name, objective_space_ret -/
  | .ccs_create_objective_space => [.null 0, .null 1]
  /- `include/cconfigspace/parameter.h:210-235`: name, num_possible_values, possible_values, default_value_index, parameter_ret -/
  | .ccs_create_ordinal_parameter => [.null 0, .null 4]
  /- `include/cconfigspace/features_tuner.h:258-283`: name, configuration_space, features_space, objective_space, tuner_ret -/
  | .ccs_create_random_features_tuner => [.notValid 1 [.configurationSpace], .notValid 3 [.objectiveSpace], .notValid 2 [.featuresSpace], .null 0, .null 4]
  /- `include/cconfigspace/tree_tuner.h:213-234`: name, tree_space, objective_space, tuner_ret -/
  | .ccs_create_random_tree_tuner => [.notValid 1 [.treeSpace], .notValid 2 [.objectiveSpace], .null 0, .null 3]
  /- `include/cconfigspace/tuner.h:204-226`: name, configuration_space, objective_space, tuner_ret -/
  | .ccs_create_random_tuner => [.notValid 1 [.configurationSpace], .notValid 2 [.objectiveSpace], .null 0, .null 3]
  /- `include/cconfigspace/rng.h:16-27`: rng_ret -/
  | .ccs_create_rng => [.null 0]
  /- `include/cconfigspace/rng.h:29-42`: rng_type, rng_ret -/
  | .ccs_create_rng_with_type => [.null 1, .null 0]
  /- `include/cconfigspace/distribution.h:242-261`: num_areas, areas, distribution_ret -/
  | .ccs_create_roulette_distribution => [.null 2, .null 1]
  /- `include/cconfigspace/tree_space.h:39-55`: name, tree, tree_space_ret -/
  | .ccs_create_static_tree_space => [.null 0, .null 2]
  /- `include/cconfigspace/parameter.h:339-353`: name, parameter_ret -/
  | .ccs_create_string_parameter => [.null 0, .null 1]
  /- `include/cconfigspace/error_stack.h:55-66`: error_code, msg, ... -/
  | .ccs_create_thread_error => []
  /- `include/cconfigspace/tree.h:19-30`: arity, value, tree_ret -/
  | .ccs_create_tree => []
  /- `include/cconfigspace/tree_configuration.h:14-36`: tree_space, position_size, position, configuration_ret -/
  | .ccs_create_tree_configuration => [.notValid 0 [.treeSpace], .null 3, .nullArray 2 1]
  /- `include/cconfigspace/tree_evaluation.h:16-46`: objective_space, configuration, result, num_values, values, evaluation_ret -/
  | .ccs_create_tree_evaluation => [.notValid 0 [.objectiveSpace], .notValid 1 [.treeConfiguration], .null 5, .nullArray 4 3]
  /- `include/cconfigspace/expression.h:284-308`: type, node, expression_ret -/
  | .ccs_create_unary_expression => [.null 2]
  /- `include/cconfigspace/distribution.h:146-184`: data_type, lower, upper, scale_type, quantization, distribution_ret -/
  | .ccs_create_uniform_distribution => [.null 5]
  /- `include/cconfigspace/distribution.h:214-240`: lower, upper, scale, quantization, distribution_ret -/
  | .ccs_create_uniform_float_distribution => [.null 4]
  /- `include/cconfigspace/distribution.h:186-212`: lower, upper, scale, quantization, distribution_ret -/
  | .ccs_create_uniform_int_distribution => [.null 4]
  /- `include/cconfigspace/features_tuner.h:370-400`: name, configuration_space, features_space, objective_space, vector, tuner_data, tuner_ret -/
  | .ccs_create_user_defined_features_tuner => [.notValid 1 [.configurationSpace], .notValid 3 [.objectiveSpace], .notValid 2 [.featuresSpace], .null 0, .null 6, .null 4]
  /- `include/cconfigspace/tree_tuner.h:316-343`: name, tree_space, objective_space, vector, tuner_data, tuner_ret -/
  | .ccs_create_user_defined_tree_tuner => [.notValid 1 [.treeSpace], .notValid 2 [.objectiveSpace], .null 0, .null 5, .null 3]
  /- `include/cconfigspace/tuner.h:300-327`: name, configuration_space, objective_space, vector, tuner_data, tuner_ret -/
  | .ccs_create_user_defined_tuner => [.notValid 1 [.configurationSpace], .notValid 2 [.objectiveSpace], .null 0, .null 5, .null 3]
  /- `include/cconfigspace/expression.h:327-340`: parameter, expression_ret -/
  | .ccs_create_variable => [.null 1, .notValid 0 [.parameter]]
  /- `include/cconfigspace/parameter.h:312-337`: parameter, num_possible_values, possible_values, num_possible_values_ret -/
  | .ccs_discrete_parameter_get_values => [.notValid 0 [.parameter], .nullArray 2 1, .allNull [2, 3]]
  /- `include/cconfigspace/distribution.h:379-398`: distribution, intervals, oversamplings -/
  | .ccs_distribution_check_oversampling => [.null 1, .null 2, .notValid 0 [.distribution]]
  /- `include/cconfigspace/distribution.h:362-377`: distribution, interval_ret -/
  | .ccs_distribution_get_bounds => [.null 1, .notValid 0 [.distribution]]
  /- `include/cconfigspace/distribution.h:346-360`: distribution, data_types_ret -/
  | .ccs_distribution_get_data_types => [.null 1, .notValid 0 [.distribution]]
  /- `include/cconfigspace/distribution.h:331-344`: distribution, dimension_ret -/
  | .ccs_distribution_get_dimension => [.null 1, .notValid 0 [.distribution]]
  /- `include/cconfigspace/distribution.h:316-329`: distribution, type_ret -/
  | .ccs_distribution_get_type => [.null 1, .notValid 0 [.distribution]]
  /- `include/cconfigspace/distribution.h:743-763`: distribution, rng, parameters, results -/
  | .ccs_distribution_parameters_sample => [.null 3, .null 2, .notValid 0 [.distribution], .notValid 1 [.rng]]
  /- `include/cconfigspace/distribution.h:714-741`: distribution, rng, parameters, num_values, values -/
  | .ccs_distribution_parameters_samples => [.nullArray 4 3, .nullArray 2 3, .notValid 0 [.distribution], .notValid 1 [.rng]]
  /- `include/cconfigspace/distribution.h:621-638`: distribution, rng, value_ret -/
  | .ccs_distribution_sample => [.null 2, .notValid 0 [.distribution], .notValid 1 [.rng]]
  /- `include/cconfigspace/distribution.h:640-661`: distribution, rng, num_values, values -/
  | .ccs_distribution_samples => [.nullArray 3 2, .notValid 0 [.distribution], .notValid 1 [.rng]]
  /- `include/cconfigspace/distribution.h:693-713`: distribution, rng, num_values, values -/
  | .ccs_distribution_soa_samples => [.null 3, .notValid 0 [.distribution], .notValid 1 [.rng]]
  /- `include/cconfigspace/distribution.h:663-691`: distribution, rng, num_values, stride, values -/
  | .ccs_distribution_strided_samples => [.nullArray 4 2, .notValid 0 [.distribution], .notValid 1 [.rng]]
  /- `include/cconfigspace/tree_space.h:333-347`: tree_space, tree_space_data_ret -/
  | .ccs_dynamic_tree_space_get_tree_space_data => [.notValid 0 [.treeSpace], .null 1]
  /- `include/cconfigspace/error_stack.h:139-152`: error_stack, error_code_ret -/
  | .ccs_error_stack_get_code => [.notValid 0 [.errorStack], .null 1]
  /- `include/cconfigspace/error_stack.h:154-170`: error_stack, num_elems_ret, elems -/
  | .ccs_error_stack_get_elems => [.notValid 0 [.errorStack], .null 1, .null 2]
  /- `include/cconfigspace/error_stack.h:124-137`: error_stack, message_ret -/
  | .ccs_error_stack_get_message => [.notValid 0 [.errorStack], .null 1]
  /- `include/cconfigspace/error_stack.h:103-122`: error_stack, file, line, func -/
  | .ccs_error_stack_push => [.notValid 0 [.errorStack]]
  /- `include/cconfigspace/evaluation.h:213-228`: evaluation, is_valid_ret -/
  | .ccs_evaluation_check => [.notValid 0 [.evaluation]]
  /- `include/cconfigspace/evaluation.h:292-310`: evaluation, other_evaluation, cmp_ret -/
  | .ccs_evaluation_cmp => [.notValid 0 [.evaluation], .notValid 1 [.evaluation], .null 2]
  /- `include/cconfigspace/evaluation.h:312-336`: evaluation, other_evaluation, result_ret -/
  | .ccs_evaluation_compare => [.notValid 0 [.evaluation], .notValid 1 [.evaluation], .null 2]
  /- `include/cconfigspace/evaluation.h:85-98`: evaluation, configuration_ret -/
  | .ccs_evaluation_get_configuration => [.notValid 0 [.evaluation], .null 1]
  /- `include/cconfigspace/evaluation.h:70-83`: evaluation, objective_space_ret -/
  | .ccs_evaluation_get_objective_space => [.notValid 0 [.evaluation], .null 1]
  /- `include/cconfigspace/evaluation.h:230-249`: evaluation, index, value_ret -/
  | .ccs_evaluation_get_objective_value => [.notValid 0 [.evaluation], .null 2]
  /- `include/cconfigspace/evaluation.h:251-275`: evaluation, num_values, values, num_values_ret -/
  | .ccs_evaluation_get_objective_values => [.notValid 0 [.evaluation], .nullArray 2 1, .allNull [2, 3]]
  /- `include/cconfigspace/evaluation.h:100-113`: evaluation, result_ret -/
  | .ccs_evaluation_get_result => [.notValid 0 [.evaluation], .null 1]
  /- `include/cconfigspace/evaluation.h:129-146`: evaluation, index, value_ret -/
  | .ccs_evaluation_get_value => [.notValid 0 [.evaluation], .null 2]
  /- `include/cconfigspace/evaluation.h:195-211`: evaluation, name, value_ret -/
  | .ccs_evaluation_get_value_by_name => [.notValid 0 [.evaluation], .null 2]
  /- `include/cconfigspace/evaluation.h:170-193`: evaluation, num_values, values, num_values_ret -/
  | .ccs_evaluation_get_values => [.notValid 0 [.evaluation], .nullArray 2 1, .allNull [2, 3]]
  /- `include/cconfigspace/evaluation.h:277-290`: evaluation, hash_ret -/
  | .ccs_evaluation_hash => [.notValid 0 [.evaluation], .null 1]
  /- `include/cconfigspace/evaluation.h:115-127`: evaluation, result -/
  | .ccs_evaluation_set_result => [.notValid 0 [.evaluation]]
  /- `include/cconfigspace/evaluation.h:148-168`: evaluation, index, value -/
  | .ccs_evaluation_set_value => [.notValid 0 [.evaluation]]
  /- `include/cconfigspace/expression.h:512-529`: expression, context -/
  | .ccs_expression_check_context => [.notValid 0 [.expression]]
  /- `include/cconfigspace/expression.h:425-450`: expression, context, values, result_ret -/
  | .ccs_expression_eval => [.notValid 0 [.expression], .null 3]
  /- `include/cconfigspace/expression.h:370-391`: expression, num_nodes, nodes, num_nodes_ret -/
  | .ccs_expression_get_nodes => [.notValid 0 [.expression], .nullArray 2 1, .allNull [2, 3]]
  /- `include/cconfigspace/expression.h:357-368`: expression, num_nodes_ret -/
  | .ccs_expression_get_num_nodes => [.null 1, .notValid 0 [.expression]]
  /- `include/cconfigspace/expression.h:485-510`: expression, num_parameters, parameters, num_parameters_ret -/
  | .ccs_expression_get_parameters => [.notValid 0 [.expression], .nullArray 2 1, .allNull [2, 3]]
  /- `include/cconfigspace/expression.h:342-355`: expression, type_ret -/
  | .ccs_expression_get_type => [.null 1, .notValid 0 [.expression]]
  /- `include/cconfigspace/expression.h:452-483`: expression, context, values, index, result -/
  | .ccs_expression_list_eval_node => [.notValid 0 [.expression], .null 4]
  /- `include/cconfigspace/features.h:133-148`: features, is_valid_ret -/
  | .ccs_features_check => [.notValid 0 [.features]]
  /- `include/cconfigspace/features.h:164-181`: features, other_features, cmp_ret -/
  | .ccs_features_cmp => [.notValid 0 [.features], .notValid 1 [.features]]
  /- `include/cconfigspace/features_evaluation.h:322-339`: evaluation, is_valid_ret -/
  | .ccs_features_evaluation_check => [.notValid 0 [.featuresEvaluation]]
  /- `include/cconfigspace/features_evaluation.h:273-293`: evaluation, other_evaluation, cmp_ret -/
  | .ccs_features_evaluation_cmp => [.notValid 0 [.featuresEvaluation], .notValid 1 [.featuresEvaluation], .null 2]
  /- `include/cconfigspace/features_evaluation.h:295-320`: evaluation, other_evaluation, result_ret -/
  | .ccs_features_evaluation_compare => [.notValid 0 [.featuresEvaluation], .notValid 1 [.featuresEvaluation], .null 2]
  /- `include/cconfigspace/features_evaluation.h:66-79`: evaluation, configuration_ret -/
  | .ccs_features_evaluation_get_configuration => [.notValid 0 [.featuresEvaluation], .null 1]
  /- `include/cconfigspace/features_evaluation.h:81-94`: evaluation, features_ret -/
  | .ccs_features_evaluation_get_features => [.notValid 0 [.featuresEvaluation], .null 1]
  /- `include/cconfigspace/features_evaluation.h:51-64`: evaluation, objective_space_ret -/
  | .ccs_features_evaluation_get_objective_space => [.notValid 0 [.featuresEvaluation], .null 1]
  /- `include/cconfigspace/features_evaluation.h:209-228`: evaluation, index, value_ret -/
  | .ccs_features_evaluation_get_objective_value => [.notValid 0 [.featuresEvaluation], .null 2]
  /- `include/cconfigspace/features_evaluation.h:230-254`: evaluation, num_values, values, num_values_ret -/
  | .ccs_features_evaluation_get_objective_values => [.notValid 0 [.featuresEvaluation], .nullArray 2 1, .allNull [2, 3]]
  /- `include/cconfigspace/features_evaluation.h:96-109`: evaluation, result_ret -/
  | .ccs_features_evaluation_get_result => [.notValid 0 [.featuresEvaluation], .null 1]
  /- `include/cconfigspace/features_evaluation.h:125-142`: evaluation, index, value_ret -/
  | .ccs_features_evaluation_get_value => [.notValid 0 [.featuresEvaluation], .null 2]
  /- `include/cconfigspace/features_evaluation.h:191-207`: evaluation, name, value_ret -/
  | .ccs_features_evaluation_get_value_by_name => [.notValid 0 [.featuresEvaluation], .null 2]
  /- `include/cconfigspace/features_evaluation.h:166-189`: evaluation, num_values, values, num_values_ret -/
  | .ccs_features_evaluation_get_values => [.notValid 0 [.featuresEvaluation], .nullArray 2 1, .allNull [2, 3]]
  /- `include/cconfigspace/features_evaluation.h:256-271`: evaluation, hash_ret -/
  | .ccs_features_evaluation_hash => [.notValid 0 [.featuresEvaluation], .null 1]
  /- `include/cconfigspace/features_evaluation.h:111-123`: evaluation, result -/
  | .ccs_features_evaluation_set_result => [.notValid 0 [.featuresEvaluation]]
  /- `include/cconfigspace/features_evaluation.h:144-164`: evaluation, index, value -/
  | .ccs_features_evaluation_set_value => [.notValid 0 [.featuresEvaluation]]
  /- `include/cconfigspace/features.h:39-52`: features, features_space_ret -/
  | .ccs_features_get_features_space => [.notValid 0 [.features], .null 1]
  /- `include/cconfigspace/features.h:54-70`: features, index, value_ret -/
  | .ccs_features_get_value => [.notValid 0 [.features], .null 2]
  /- `include/cconfigspace/features.h:115-131`: features, name, value_ret -/
  | .ccs_features_get_value_by_name => [.notValid 0 [.features], .null 2]
  /- `include/cconfigspace/features.h:90-113`: features, num_values, values, num_values_ret -/
  | .ccs_features_get_values => [.notValid 0 [.features], .nullArray 2 1, .allNull [2, 3]]
  /- `include/cconfigspace/features.h:150-162`: features, hash_ret -/
  | .ccs_features_hash => [.notValid 0 [.features], .null 1]
  /- `include/cconfigspace/features.h:72-88`: features, index, value -/
  | .ccs_features_set_value => [.notValid 0 [.features]]
  /- `include/cconfigspace/features_space.h:45-62`: features_space, parameter -/
  | .ccs_features_space_add_parameter => [.notValid 0 [.featuresSpace], .notValid 1 [.parameter]]
  /- `include/cconfigspace/features_space.h:64-85`: features_space, num_parameters, parameters -/
  | .ccs_features_space_add_parameters => [.notValid 0 [.featuresSpace], .nullArray 2 1]
  /- `include/cconfigspace/features_space.h:257-277`: features_space, features, is_valid_ret -/
  | .ccs_features_space_check_features => [.notValid 0 [.featuresSpace], .notValid 1 [.features]]
  /- `include/cconfigspace/features_space.h:279-304`: features_space, num_values, values, is_valid_ret -/
  | .ccs_features_space_check_features_values => [.notValid 0 [.featuresSpace], .nullArray 2 1]
  /- `include/cconfigspace/features_space.h:30-43`: features_space, name_ret -/
  | .ccs_features_space_get_name => [.notValid 0 [.featuresSpace], .null 1]
  /- `include/cconfigspace/features_space.h:87-101`: features_space, num_parameters_ret -/
  | .ccs_features_space_get_num_parameters => [.notValid 0 [.featuresSpace], .null 1]
  /- `include/cconfigspace/features_space.h:103-120`: features_space, index, parameter_ret -/
  | .ccs_features_space_get_parameter => [.notValid 0 [.featuresSpace], .null 2]
  /- `include/cconfigspace/features_space.h:122-140`: features_space, name, parameter_ret -/
  | .ccs_features_space_get_parameter_by_name => [.notValid 0 [.featuresSpace], .null 1, .null 2]
  /- `include/cconfigspace/features_space.h:161-178`: features_space, parameter, index_ret -/
  | .ccs_features_space_get_parameter_index => [.notValid 0 [.featuresSpace], .null 2]
  /- `include/cconfigspace/features_space.h:142-159`: features_space, name, index_ret -/
  | .ccs_features_space_get_parameter_index_by_name => [.notValid 0 [.featuresSpace], .null 1, .null 2]
  /- `include/cconfigspace/features_space.h:180-202`: features_space, num_parameters, parameters, indexes -/
  | .ccs_features_space_get_parameter_indexes => [.notValid 0 [.featuresSpace], .nullArray 2 1, .nullArray 3 1]
  /- `include/cconfigspace/features_space.h:204-229`: features_space, num_parameters, parameters, num_parameters_ret -/
  | .ccs_features_space_get_parameters => [.notValid 0 [.featuresSpace], .nullArray 2 1, .allNull [2, 3]]
  /- `include/cconfigspace/features_space.h:231-255`: features_space, index, value, value_ret -/
  | .ccs_features_space_validate_value => [.notValid 0 [.featuresSpace], .null 3]
  /- `include/cconfigspace/features_tuner.h:111-149`: tuner, features, num_configurations, configurations, num_configurations_ret -/
  | .ccs_features_tuner_ask => [.notValid 0 [.featuresTuner], .notValid 1 [.features], .nullArray 3 2, .allNull [3, 4]]
  /- `include/cconfigspace/features_tuner.h:66-79`: tuner, configuration_space_ret -/
  | .ccs_features_tuner_get_configuration_space => [.notValid 0 [.featuresTuner], .null 1]
  /- `include/cconfigspace/features_tuner.h:96-109`: tuner, features_space_ret -/
  | .ccs_features_tuner_get_features_space => [.notValid 0 [.featuresTuner], .null 1]
  /- `include/cconfigspace/features_tuner.h:228-256`: tuner, features, num_evaluations, evaluations, num_evaluations_ret -/
  | .ccs_features_tuner_get_history => [.notValid 0 [.featuresTuner], .nullArray 3 2, .allNull [3, 4], .notValidIfGiven 1 [.features]]
  /- `include/cconfigspace/features_tuner.h:51-64`: tuner, name_ret -/
  | .ccs_features_tuner_get_name => [.null 1, .notValid 0 [.featuresTuner]]
  /- `include/cconfigspace/features_tuner.h:81-94`: tuner, objective_space_ret -/
  | .ccs_features_tuner_get_objective_space => [.notValid 0 [.featuresTuner], .null 1]
  /- `include/cconfigspace/features_tuner.h:197-226`: tuner, features, num_evaluations, evaluations, num_evaluations_ret -/
  | .ccs_features_tuner_get_optima => [.notValid 0 [.featuresTuner], .nullArray 3 2, .allNull [3, 4], .notValidIfGiven 1 [.features]]
  /- `include/cconfigspace/features_tuner.h:36-49`: tuner, type_ret -/
  | .ccs_features_tuner_get_type => [.notValid 0 [.featuresTuner], .null 1]
  /- `include/cconfigspace/features_tuner.h:174-195`: tuner, features, configuration -/
  | .ccs_features_tuner_suggest => [.notValid 0 [.featuresTuner], .notValid 1 [.features], .null 2]
  /- `include/cconfigspace/features_tuner.h:151-172`: tuner, num_evaluations, evaluations -/
  | .ccs_features_tuner_tell => [.notValid 0 [.featuresTuner], .nullArray 2 1]
  /- `include/cconfigspace/base.h:700-706`:  -/
  | .ccs_fini => []
  /- `include/cconfigspace/base.h:708-718`: result, name -/
  | .ccs_get_result_name => [.null 1]
  /- `include/cconfigspace/base.h:692-698`:  -/
  | .ccs_init => []
  /- `include/cconfigspace/interval.h:34-44`: interval, empty_ret -/
  | .ccs_interval_empty => [.null 0, .null 1]
  /- `include/cconfigspace/interval.h:82-98`: interval1, interval2, equal_res -/
  | .ccs_interval_equal => [.null 0, .null 1, .null 2]
  /- `include/cconfigspace/interval.h:46-62`: interval1, interval2, interval_res -/
  | .ccs_interval_intersect => [.null 0, .null 1, .null 2]
  /- `include/cconfigspace/interval.h:64-80`: interval1, interval2, interval_res -/
  | .ccs_interval_union => [.null 0, .null 1, .null 2]
  /- `include/cconfigspace/expression.h:393-406`: expression, value_ret -/
  | .ccs_literal_get_value => [.notValid 0 [.expression], .null 1]
  /- `include/cconfigspace/map.h:160-167`: map -/
  | .ccs_map_clear => [.notValid 0 [.map]]
  /- `include/cconfigspace/map.h:66-75`: map, key -/
  | .ccs_map_del => [.notValid 0 [.map]]
  /- `include/cconfigspace/map.h:40-51`: map, key, exist -/
  | .ccs_map_exist => [.notValid 0 [.map], .null 2]
  /- `include/cconfigspace/map.h:53-64`: map, key, value_ret -/
  | .ccs_map_get => [.notValid 0 [.map], .null 2]
  /- `include/cconfigspace/map.h:77-100`: map, num_keys, keys, num_keys_ret -/
  | .ccs_map_get_keys => [.notValid 0 [.map], .nullArray 2 1, .allNull [2, 3]]
  /- `include/cconfigspace/map.h:128-158`: map, num_pairs, keys, values, num_pairs_ret -/
  | .ccs_map_get_pairs => [.notValid 0 [.map], .nullArray 2 1, .allNull [2, 4], .nullArray 3 1, .allNull [3, 4]]
  /- `include/cconfigspace/map.h:102-126`: map, num_values, values, num_values_ret -/
  | .ccs_map_get_values => [.notValid 0 [.map], .nullArray 2 1, .allNull [2, 3]]
  /- `include/cconfigspace/map.h:25-38`: map, key, value -/
  | .ccs_map_set => [.notValid 0 [.map]]
  /- `include/cconfigspace/distribution.h:518-545`: distribution, num_distributions, distributions, num_distributions_ret -/
  | .ccs_mixture_distribution_get_distributions => [.nullArray 2 1, .allNull [2, 3], .notValid 0 [.distribution]]
  /- `include/cconfigspace/distribution.h:500-516`: distribution, num_distributions_ret -/
  | .ccs_mixture_distribution_get_num_distributions => [.null 1, .notValid 0 [.distribution]]
  /- `include/cconfigspace/distribution.h:547-572`: distribution, num_weights, weights, num_weights_ret -/
  | .ccs_mixture_distribution_get_weights => [.nullArray 2 1, .allNull [2, 3], .notValid 0 [.distribution]]
  /- `include/cconfigspace/distribution.h:592-619`: distribution, num_distributions, distributions, num_distributions_ret -/
  | .ccs_multivariate_distribution_get_distributions => [.nullArray 2 1, .allNull [2, 3], .notValid 0 [.distribution]]
  /- `include/cconfigspace/distribution.h:574-590`: distribution, num_distributions_ret -/
  | .ccs_multivariate_distribution_get_num_distributions => [.null 1, .notValid 0 [.distribution]]
  /- `include/cconfigspace/distribution.h:400-426`: distribution, mu_ret, sigma_ret, scale_type_ret, quantization_ret -/
  | .ccs_normal_distribution_get_properties => [.allNull [1, 2, 3, 4], .notValid 0 [.distribution]]
  /- `include/cconfigspace/parameter.h:131-156`: parameter, data_type_ret, lower_ret, upper_ret, quantization_ret -/
  | .ccs_numerical_parameter_get_properties => [.notValid 0 [.parameter], .allNull [1, 2, 3, 4]]
  /- `include/cconfigspace/base.h:1019-1042`: object_ret, format, operation, ... -/
  | .ccs_object_deserialize => []
  /- `include/cconfigspace/base.h:768-778`: object, refcount_ret -/
  | .ccs_object_get_refcount => [.noObject 0, .null 1]
  /- `include/cconfigspace/base.h:756-766`: object, type_ret -/
  | .ccs_object_get_type => [.noObject 0, .null 1]
  /- `include/cconfigspace/base.h:812-822`: object, user_data_ret -/
  | .ccs_object_get_user_data => [.noObject 0, .null 1]
  /- `include/cconfigspace/base.h:995-1017`: object, format, operation, ... -/
  | .ccs_object_serialize => [.noObject 0]
  /- `include/cconfigspace/base.h:786-800`: object, callback, user_data -/
  | .ccs_object_set_destroy_callback => [.noObject 0, .null 1]
  /- `include/cconfigspace/base.h:850-867`: object, callback, user_data -/
  | .ccs_object_set_serialize_callback => [.noObject 0, .null 1]
  /- `include/cconfigspace/base.h:802-810`: object, user_data -/
  | .ccs_object_set_user_data => [.noObject 0]
  /- `include/cconfigspace/objective_space.h:303-321`: objective_space, expression, type -/
  | .ccs_objective_space_add_objective => [.notValid 0 [.objectiveSpace], .notValid 1 [.expression]]
  /- `include/cconfigspace/objective_space.h:323-346`: objective_space, num_objectives, expressions, types -/
  | .ccs_objective_space_add_objectives => [.notValid 0 [.objectiveSpace], .nullArray 2 1]
  /- `include/cconfigspace/objective_space.h:65-81`: objective_space, parameter -/
  | .ccs_objective_space_add_parameter => [.notValid 0 [.objectiveSpace], .notValid 1 [.parameter]]
  /- `include/cconfigspace/objective_space.h:83-104`: objective_space, num_parameters, parameters -/
  | .ccs_objective_space_add_parameters => [.notValid 0 [.objectiveSpace], .nullArray 2 1]
  /- `include/cconfigspace/objective_space.h:250-275`: objective_space, num_values, values, is_valid_ret -/
  | .ccs_objective_space_check_evaluation_values => [.notValid 0 [.objectiveSpace], .nullArray 2 1]
  /- `include/cconfigspace/objective_space.h:50-63`: objective_space, name_ret -/
  | .ccs_objective_space_get_name => [.notValid 0 [.objectiveSpace], .null 1]
  /- `include/cconfigspace/objective_space.h:106-120`: objective_space, num_parameters_ret -/
  | .ccs_objective_space_get_num_parameters => [.notValid 0 [.objectiveSpace], .null 1]
  /- `include/cconfigspace/objective_space.h:348-369`: objective_space, index, expression_ret, type_ret -/
  | .ccs_objective_space_get_objective => [.notValid 0 [.objectiveSpace], .null 2, .null 3]
  /- `include/cconfigspace/objective_space.h:371-400`: objective_space, num_objectives, expressions, types, num_objectives_ret -/
  | .ccs_objective_space_get_objectives => [.notValid 0 [.objectiveSpace], .nullArray 2 1, .nullArray 3 1, .allNull [2, 4]]
  /- `include/cconfigspace/objective_space.h:122-139`: objective_space, index, parameter_ret -/
  | .ccs_objective_space_get_parameter => [.notValid 0 [.objectiveSpace], .null 2]
  /- `include/cconfigspace/objective_space.h:141-159`: objective_space, name, parameter_ret -/
  | .ccs_objective_space_get_parameter_by_name => [.notValid 0 [.objectiveSpace], .null 1, .null 2]
  /- `include/cconfigspace/objective_space.h:180-197`: objective_space, parameter, index_ret -/
  | .ccs_objective_space_get_parameter_index => [.notValid 0 [.objectiveSpace], .null 2]
  /- `include/cconfigspace/objective_space.h:161-178`: objective_space, name, index_ret -/
  | .ccs_objective_space_get_parameter_index_by_name => [.notValid 0 [.objectiveSpace], .null 1, .null 2]
  /- `include/cconfigspace/objective_space.h:199-221`: objective_space, num_parameters, parameters, indexes -/
  | .ccs_objective_space_get_parameter_indexes => [.notValid 0 [.objectiveSpace], .nullArray 2 1, .nullArray 3 1]
  /- `include/cconfigspace/objective_space.h:223-248`: objective_space, num_parameters, parameters, num_parameters_ret -/
  | .ccs_objective_space_get_parameters => [.notValid 0 [.objectiveSpace], .nullArray 2 1, .allNull [2, 3]]
  /- `include/cconfigspace/objective_space.h:277-301`: objective_space, index, value, value_ret -/
  | .ccs_objective_space_validate_value => [.notValid 0 [.objectiveSpace], .null 3]
  /- `include/cconfigspace/parameter.h:264-284`: parameter, value1, value2, comp_ret -/
  | .ccs_ordinal_parameter_compare_values => [.notValid 0 [.parameter], .null 3]
  /- `include/cconfigspace/parameter.h:237-262`: parameter, num_possible_values, possible_values, num_possible_values_ret -/
  | .ccs_ordinal_parameter_get_values => [.notValid 0 [.parameter], .nullArray 2 1, .allNull [2, 3]]
  /- `include/cconfigspace/parameter.h:413-428`: parameter, value, result_ret -/
  | .ccs_parameter_check_value => [.notValid 0 [.parameter], .null 2]
  /- `include/cconfigspace/parameter.h:430-448`: parameter, num_values, values, results -/
  | .ccs_parameter_check_values => [.notValid 0 [.parameter], .nullArray 2 1, .nullArray 3 1]
  /- `include/cconfigspace/parameter.h:498-525`: parameter, oversampling, num_values, values, results -/
  | .ccs_parameter_convert_samples => [.notValid 0 [.parameter], .nullArray 3 2, .nullArray 4 2]
  /- `include/cconfigspace/parameter.h:398-411`: parameter, distribution_ret -/
  | .ccs_parameter_get_default_distribution => [.notValid 0 [.parameter], .null 1]
  /- `include/cconfigspace/parameter.h:370-383`: parameter, value_ret -/
  | .ccs_parameter_get_default_value => [.null 1, .notValid 0 [.parameter]]
  /- `include/cconfigspace/parameter.h:385-396`: parameter, name_ret -/
  | .ccs_parameter_get_name => [.null 1, .notValid 0 [.parameter]]
  /- `include/cconfigspace/parameter.h:355-368`: parameter, type_ret -/
  | .ccs_parameter_get_type => [.null 1, .notValid 0 [.parameter]]
  /- `include/cconfigspace/parameter.h:527-549`: parameter, distribution, rng, value_ret -/
  | .ccs_parameter_sample => [.notValid 0 [.parameter], .notValid 1 [.distribution], .notValid 2 [.rng], .null 3]
  /- `include/cconfigspace/parameter.h:551-577`: parameter, distribution, rng, num_values, values -/
  | .ccs_parameter_samples => [.notValid 0 [.parameter], .notValid 1 [.distribution], .notValid 2 [.rng], .nullArray 4 3]
  /- `include/cconfigspace/parameter.h:579-592`: parameter, interval_ret -/
  | .ccs_parameter_sampling_interval => [.notValid 0 [.parameter], .null 1]
  /- `include/cconfigspace/parameter.h:450-471`: parameter, value, value_ret, result_ret -/
  | .ccs_parameter_validate_value => [.notValid 0 [.parameter], .null 3, .null 2]
  /- `include/cconfigspace/parameter.h:473-496`: parameter, num_values, values, values_ret, results -/
  | .ccs_parameter_validate_values => [.notValid 0 [.parameter], .nullArray 2 1, .nullArray 4 1, .nullArray 3 1]
  /- `include/cconfigspace/base.h:744-754`: object -/
  | .ccs_release_object => [.noObject 0]
  /- `include/cconfigspace/base.h:735-742`: object -/
  | .ccs_retain_object => [.noObject 0]
  /- `include/cconfigspace/rng.h:68-80`: rng, value_ret -/
  | .ccs_rng_get => [.notValid 0 [.rng], .null 1]
  /- `include/cconfigspace/rng.h:96-107`: rng, gsl_rng_ret -/
  | .ccs_rng_get_gsl_rng => [.notValid 0 [.rng], .null 1]
  /- `include/cconfigspace/rng.h:44-55`: rng, rng_type_ret -/
  | .ccs_rng_get_type => [.notValid 0 [.rng], .null 1]
  /- `include/cconfigspace/rng.h:122-133`: rng, value_ret -/
  | .ccs_rng_max => [.notValid 0 [.rng], .null 1]
  /- `include/cconfigspace/rng.h:109-120`: rng, value_ret -/
  | .ccs_rng_min => [.notValid 0 [.rng], .null 1]
  /- `include/cconfigspace/rng.h:57-66`: rng, seed -/
  | .ccs_rng_set_seed => [.notValid 0 [.rng]]
  /- `include/cconfigspace/rng.h:82-94`: rng, value_ret -/
  | .ccs_rng_uniform => [.notValid 0 [.rng], .null 1]
  /- `include/cconfigspace/distribution.h:473-498`: distribution, num_areas, areas, num_areas_ret -/
  | .ccs_roulette_distribution_get_areas => [.nullArray 2 1, .allNull [2, 3], .notValid 0 [.distribution]]
  /- `include/cconfigspace/distribution.h:456-471`: distribution, num_areas_ret -/
  | .ccs_roulette_distribution_get_num_areas => [.null 1, .notValid 0 [.distribution]]
  /- `include/cconfigspace/error_stack.h:20-29`: error_stack -/
  | .ccs_set_thread_error => [.notValid 0 [.errorStack]]
  /- `include/cconfigspace/error_stack.h:68-82`: file, line, func -/
  | .ccs_thread_error_stack_push => []
  /- `include/cconfigspace/tree_configuration.h:122-138`: configuration, is_valid_ret -/
  | .ccs_tree_configuration_check => [.notValid 0 [.treeConfiguration]]
  /- `include/cconfigspace/tree_configuration.h:156-174`: configuration, other_configuration, cmp_ret -/
  | .ccs_tree_configuration_cmp => [.notValid 0 [.treeConfiguration], .notValid 1 [.treeConfiguration]]
  /- `include/cconfigspace/tree_configuration.h:105-120`: configuration, tree_ret -/
  | .ccs_tree_configuration_get_node => [.notValid 0 [.treeConfiguration], .null 1]
  /- `include/cconfigspace/tree_configuration.h:53-76`: configuration, position_size, position, position_size_ret -/
  | .ccs_tree_configuration_get_position => [.notValid 0 [.treeConfiguration], .nullArray 2 1, .allNull [2, 3]]
  /- `include/cconfigspace/tree_configuration.h:38-51`: configuration, tree_space_ret -/
  | .ccs_tree_configuration_get_tree_space => [.notValid 0 [.treeConfiguration], .null 1]
  /- `include/cconfigspace/tree_configuration.h:78-103`: configuration, num_values, values, num_values_ret -/
  | .ccs_tree_configuration_get_values => [.notValid 0 [.treeConfiguration], .nullArray 2 1, .allNull [2, 3]]
  /- `include/cconfigspace/tree_configuration.h:140-154`: configuration, hash_ret -/
  | .ccs_tree_configuration_hash => [.notValid 0 [.treeConfiguration], .null 1]
  /- `include/cconfigspace/tree_evaluation.h:191-208`: evaluation, is_valid_ret -/
  | .ccs_tree_evaluation_check => [.notValid 0 [.treeEvaluation]]
  /- `include/cconfigspace/tree_evaluation.h:272-290`: evaluation, other_evaluation, cmp_ret -/
  | .ccs_tree_evaluation_cmp => [.notValid 0 [.treeEvaluation], .notValid 1 [.treeEvaluation], .null 2]
  /- `include/cconfigspace/tree_evaluation.h:292-316`: evaluation, other_evaluation, result_ret -/
  | .ccs_tree_evaluation_compare => [.notValid 0 [.treeEvaluation], .notValid 1 [.treeEvaluation], .null 2]
  /- `include/cconfigspace/tree_evaluation.h:63-76`: evaluation, configuration_ret -/
  | .ccs_tree_evaluation_get_configuration => [.notValid 0 [.treeEvaluation], .null 1]
  /- `include/cconfigspace/tree_evaluation.h:48-61`: evaluation, objective_space_ret -/
  | .ccs_tree_evaluation_get_objective_space => [.notValid 0 [.treeEvaluation], .null 1]
  /- `include/cconfigspace/tree_evaluation.h:210-229`: evaluation, index, value_ret -/
  | .ccs_tree_evaluation_get_objective_value => [.notValid 0 [.treeEvaluation], .null 2]
  /- `include/cconfigspace/tree_evaluation.h:231-255`: evaluation, num_values, values, num_values_ret -/
  | .ccs_tree_evaluation_get_objective_values => [.notValid 0 [.treeEvaluation], .nullArray 2 1, .allNull [2, 3]]
  /- `include/cconfigspace/tree_evaluation.h:78-91`: evaluation, result_ret -/
  | .ccs_tree_evaluation_get_result => [.notValid 0 [.treeEvaluation], .null 1]
  /- `include/cconfigspace/tree_evaluation.h:107-124`: evaluation, index, value_ret -/
  | .ccs_tree_evaluation_get_value => [.notValid 0 [.treeEvaluation], .null 2]
  /- `include/cconfigspace/tree_evaluation.h:173-189`: evaluation, name, value_ret -/
  | .ccs_tree_evaluation_get_value_by_name => [.notValid 0 [.treeEvaluation], .null 2]
  /- `include/cconfigspace/tree_evaluation.h:148-171`: evaluation, num_values, values, num_values_ret -/
  | .ccs_tree_evaluation_get_values => [.notValid 0 [.treeEvaluation], .nullArray 2 1, .allNull [2, 3]]
  /- `include/cconfigspace/tree_evaluation.h:257-270`: evaluation, hash_ret -/
  | .ccs_tree_evaluation_hash => [.notValid 0 [.treeEvaluation], .null 1]
  /- `include/cconfigspace/tree_evaluation.h:93-105`: evaluation, result -/
  | .ccs_tree_evaluation_set_result => [.notValid 0 [.treeEvaluation]]
  /- `include/cconfigspace/tree_evaluation.h:126-146`: evaluation, index, value -/
  | .ccs_tree_evaluation_set_value => [.notValid 0 [.treeEvaluation]]
  /- `include/cconfigspace/tree.h:44-54`: tree, arity_ret -/
  | .ccs_tree_get_arity => [.notValid 0 [.tree], .null 1]
  /- `include/cconfigspace/tree.h:267-277`: tree, bias_ret -/
  | .ccs_tree_get_bias => [.notValid 0 [.tree], .null 1]
  /- `include/cconfigspace/tree.h:74-87`: tree, index, child_ret -/
  | .ccs_tree_get_child => [.notValid 0 [.tree], .null 2]
  /- `include/cconfigspace/tree.h:89-112`: tree, num_children, children, num_children_ret -/
  | .ccs_tree_get_children => [.notValid 0 [.tree], .nullArray 2 1, .allNull [2, 3]]
  /- `include/cconfigspace/tree.h:223-243`: tree, position_size, position, tree_ret -/
  | .ccs_tree_get_node_at_position => [.notValid 0 [.tree], .null 3, .nullArray 2 1]
  /- `include/cconfigspace/tree.h:114-126`: tree, parent_ret, index_ret -/
  | .ccs_tree_get_parent => [.notValid 0 [.tree], .null 1]
  /- `include/cconfigspace/tree.h:128-150`: tree, position_size, position, position_size_ret -/
  | .ccs_tree_get_position => [.notValid 0 [.tree], .nullArray 2 1, .allNull [2, 3]]
  /- `include/cconfigspace/tree.h:32-42`: tree, value_ret -/
  | .ccs_tree_get_value => [.notValid 0 [.tree], .null 1]
  /- `include/cconfigspace/tree.h:152-174`: tree, num_values, values, num_values_ret -/
  | .ccs_tree_get_values => [.notValid 0 [.tree], .nullArray 2 1, .allNull [2, 3]]
  /- `include/cconfigspace/tree.h:197-221`: tree, position_size, position, num_values, values -/
  | .ccs_tree_get_values_at_position => [.notValid 0 [.tree], .null 4, .nullArray 2 1]
  /- `include/cconfigspace/tree.h:245-255`: tree, weight_ret -/
  | .ccs_tree_get_weight => [.notValid 0 [.tree], .null 1]
  /- `include/cconfigspace/tree.h:176-195`: tree, position_size, position, is_valid_ret -/
  | .ccs_tree_position_is_valid => [.notValid 0 [.tree], .null 3, .nullArray 2 1]
  /- `include/cconfigspace/tree.h:289-306`: tree, rng, index_ret -/
  | .ccs_tree_sample => [.notValid 0 [.tree], .null 2]
  /- `include/cconfigspace/tree.h:308-331`: tree, rng, num_indices, indices -/
  | .ccs_tree_samples => [.notValid 0 [.tree], .nullArray 3 2]
  /- `include/cconfigspace/tree.h:279-287`: tree, bias -/
  | .ccs_tree_set_bias => [.notValid 0 [.tree]]
  /- `include/cconfigspace/tree.h:56-72`: tree, index, child -/
  | .ccs_tree_set_child => [.notValid 0 [.tree], .notValid 2 [.tree]]
  /- `include/cconfigspace/tree.h:257-265`: tree, weight -/
  | .ccs_tree_set_weight => [.notValid 0 [.tree]]
  /- `include/cconfigspace/tree_space.h:273-289`: tree_space, configuration, is_valid_ret -/
  | .ccs_tree_space_check_configuration => [.notValid 0 [.treeSpace], .notValid 1 [.treeConfiguration]]
  /- `include/cconfigspace/tree_space.h:249-271`: tree_space, position_size, position, is_valid_ret -/
  | .ccs_tree_space_check_position => [.notValid 0 [.treeSpace], .null 3, .nullArray 2 1]
  /- `include/cconfigspace/tree_space.h:151-162`: tree_space, name_ret -/
  | .ccs_tree_space_get_name => [.null 1, .notValid 0 [.treeSpace]]
  /- `include/cconfigspace/tree_space.h:199-220`: tree_space, position_size, position, tree_ret -/
  | .ccs_tree_space_get_node_at_position => [.notValid 0 [.treeSpace], .null 3, .nullArray 2 1]
  /- `include/cconfigspace/tree_space.h:175-185`: tree_space, rng_ret -/
  | .ccs_tree_space_get_rng => [.notValid 0 [.treeSpace], .null 1]
  /- `include/cconfigspace/tree_space.h:187-197`: tree_space, tree_ret -/
  | .ccs_tree_space_get_tree => [.notValid 0 [.treeSpace], .null 1]
  /- `include/cconfigspace/tree_space.h:136-149`: tree_space, type_ret -/
  | .ccs_tree_space_get_type => [.notValid 0 [.treeSpace], .null 1]
  /- `include/cconfigspace/tree_space.h:222-247`: tree_space, position_size, position, num_values, values -/
  | .ccs_tree_space_get_values_at_position => [.notValid 0 [.treeSpace], .null 4, .nullArray 2 1]
  /- `include/cconfigspace/tree_space.h:291-308`: tree_space, configuration_ret -/
  | .ccs_tree_space_sample => [.notValid 0 [.treeSpace], .null 1]
  /- `include/cconfigspace/tree_space.h:310-331`: tree_space, num_configurations, configurations -/
  | .ccs_tree_space_samples => [.notValid 0 [.treeSpace], .nullArray 2 1]
  /- `include/cconfigspace/tree_space.h:164-173`: tree_space, rng -/
  | .ccs_tree_space_set_rng => [.notValid 0 [.treeSpace], .notValid 1 [.rng]]
  /- `include/cconfigspace/tree_tuner.h:90-123`: tuner, num_configurations, configurations, num_configurations_ret -/
  | .ccs_tree_tuner_ask => [.notValid 0 [.treeTuner], .nullArray 2 1, .allNull [2, 3]]
  /- `include/cconfigspace/tree_tuner.h:190-211`: tuner, num_evaluations, evaluations, num_evaluations_ret -/
  | .ccs_tree_tuner_get_history => [.notValid 0 [.treeTuner], .nullArray 2 1, .allNull [2, 3]]
  /- `include/cconfigspace/tree_tuner.h:48-58`: tuner, name_ret -/
  | .ccs_tree_tuner_get_name => [.notValid 0 [.treeTuner], .null 1]
  /- `include/cconfigspace/tree_tuner.h:75-88`: tuner, objective_space_ret -/
  | .ccs_tree_tuner_get_objective_space => [.notValid 0 [.treeTuner], .null 1]
  /- `include/cconfigspace/tree_tuner.h:166-188`: tuner, num_evaluations, evaluations, num_evaluations_ret -/
  | .ccs_tree_tuner_get_optima => [.notValid 0 [.treeTuner], .nullArray 2 1, .allNull [2, 3]]
  /- `include/cconfigspace/tree_tuner.h:60-73`: tuner, tree_space_ret -/
  | .ccs_tree_tuner_get_tree_space => [.notValid 0 [.treeTuner], .null 1]
  /- `include/cconfigspace/tree_tuner.h:35-46`: tuner, type_ret -/
  | .ccs_tree_tuner_get_type => [.notValid 0 [.treeTuner], .null 1]
  /- `include/cconfigspace/tree_tuner.h:147-164`: tuner, configuration -/
  | .ccs_tree_tuner_suggest => [.notValid 0 [.treeTuner], .null 1]
  /- `include/cconfigspace/tree_tuner.h:125-145`: tuner, num_evaluations, evaluations -/
  | .ccs_tree_tuner_tell => [.notValid 0 [.treeTuner], .nullArray 2 1]
  /- `include/cconfigspace/tuner.h:87-119`: tuner, num_configurations, configurations, num_configurations_ret -/
  | .ccs_tuner_ask => [.notValid 0 [.tuner], .nullArray 2 1, .allNull [2, 3]]
  /- `include/cconfigspace/tuner.h:59-71`: tuner, configuration_space_ret -/
  | .ccs_tuner_get_configuration_space => [.notValid 0 [.tuner], .null 1]
  /- `include/cconfigspace/tuner.h:182-202`: tuner, num_evaluations, evaluations, num_evaluations_ret -/
  | .ccs_tuner_get_history => [.notValid 0 [.tuner], .nullArray 2 1, .allNull [2, 3]]
  /- `include/cconfigspace/tuner.h:47-57`: tuner, name_ret -/
  | .ccs_tuner_get_name => [.null 1, .notValid 0 [.tuner]]
  /- `include/cconfigspace/tuner.h:73-85`: tuner, objective_space_ret -/
  | .ccs_tuner_get_objective_space => [.notValid 0 [.tuner], .null 1]
  /- `include/cconfigspace/tuner.h:159-180`: tuner, num_evaluations, evaluations, num_evaluations_ret -/
  | .ccs_tuner_get_optima => [.notValid 0 [.tuner], .nullArray 2 1, .allNull [2, 3]]
  /- `include/cconfigspace/tuner.h:35-45`: tuner, type_ret -/
  | .ccs_tuner_get_type => [.notValid 0 [.tuner], .null 1]
  /- `include/cconfigspace/tuner.h:143-157`: tuner, configuration -/
  | .ccs_tuner_suggest => [.notValid 0 [.tuner], .null 1]
  /- `include/cconfigspace/tuner.h:121-141`: tuner, num_evaluations, evaluations -/
  | .ccs_tuner_tell => [.notValid 0 [.tuner], .nullArray 2 1]
  /- `include/cconfigspace/distribution.h:428-454`: distribution, lower_ret, upper_ret, scale_type_ret, quantization_ret -/
  | .ccs_uniform_distribution_get_properties => [.allNull [1, 2, 3, 4], .notValid 0 [.distribution]]
  /- `include/cconfigspace/features_tuner.h:402-416`: tuner, tuner_data_ret -/
  | .ccs_user_defined_features_tuner_get_tuner_data => [.notValid 0 [.featuresTuner], .null 1]
  /- `include/cconfigspace/tree_tuner.h:345-359`: tuner, tuner_data_ret -/
  | .ccs_user_defined_tree_tuner_get_tuner_data => [.notValid 0 [.treeTuner], .null 1]
  /- `include/cconfigspace/tuner.h:329-340`: tuner, tuner_data_ret -/
  | .ccs_user_defined_tuner_get_tuner_data => [.notValid 0 [.tuner], .null 1]
  /- `include/cconfigspace/expression.h:408-423`: expression, parameter_ret -/
  | .ccs_variable_get_parameter => [.notValid 0 [.expression], .null 1]

/-- Refusals the documentation does not mention. -/
def undocumented : Fn → List Clause
  | .ccs_binding_get_value_by_name => [.null 1]
  | .ccs_binding_get_value_by_parameter => [.null 2]
  | .ccs_binding_set_value_by_name => [.null 1]
  | .ccs_configuration_get_value_by_name => [.null 1]
  | .ccs_create_categorical_parameter => [.nullArray 2 1]
  | .ccs_create_discrete_parameter => [.nullArray 2 1]
  | .ccs_create_dynamic_tree_space => [.notValid 1 [.tree], .null 2]
  | .ccs_create_expression => [.nullArray 2 1]
  | .ccs_create_ordinal_parameter => [.nullArray 2 1]
  | .ccs_create_roulette_distribution => [.noCount 0]
  | .ccs_create_static_tree_space => [.notValid 1 [.tree]]
  | .ccs_create_tree => [.null 2]
  | .ccs_evaluation_get_value_by_name => [.null 1]
  | .ccs_features_evaluation_get_value_by_name => [.null 1]
  | .ccs_features_get_value_by_name => [.null 1]
  | .ccs_features_space_check_features_values => [.notValid 0 [.configurationSpace]]
  | .ccs_features_space_get_parameter_index => [.notValid 1 [.parameter]]
  | .ccs_object_deserialize => [.null 0]
  | .ccs_objective_space_add_objectives => [.nullArray 3 1]
  | .ccs_objective_space_get_parameter_index => [.notValid 1 [.parameter]]
  | .ccs_tree_configuration_check => [.null 1]
  | .ccs_tree_configuration_cmp => [.null 2]
  | .ccs_tree_evaluation_get_value_by_name => [.null 1]
  | .ccs_tree_get_values_at_position => [.noCount 3]
  | .ccs_tree_sample => [.notValid 1 [.rng]]
  | .ccs_tree_samples => [.notValid 1 [.rng]]
  | .ccs_tree_space_check_configuration => [.null 2]
  | .ccs_tree_space_get_values_at_position => [.noCount 3]
  | _ => []

/-- Documented refusals, or parts of them, that the code does not make. -/
def gaps : Fn → List Clause
  | .ccs_binding_cmp => [.wrongKind 0 bindings, .wrongKind 1 bindings]
  | .ccs_binding_get_context => [.wrongKind 0 bindings]
  | .ccs_binding_get_value => [.wrongKind 0 bindings]
  | .ccs_binding_get_value_by_name => [.wrongKind 0 bindings]
  | .ccs_binding_get_value_by_parameter => [.wrongKind 0 bindings]
  | .ccs_binding_get_values => [.wrongKind 0 bindings]
  | .ccs_binding_hash => [.wrongKind 0 bindings, .null 1]
  | .ccs_binding_set_value => [.wrongKind 0 bindings]
  | .ccs_binding_set_value_by_name => [.wrongKind 0 bindings]
  | .ccs_binding_set_value_by_parameter => [.wrongKind 0 bindings]
  | .ccs_binding_set_values => [.wrongKind 0 bindings]
  | .ccs_configuration_space_check_configuration => [.null 2]
  | .ccs_context_get_name => [.wrongKind 0 contexts]
  | .ccs_context_get_num_parameters => [.wrongKind 0 contexts]
  | .ccs_context_get_parameter => [.wrongKind 0 contexts]
  | .ccs_context_get_parameter_by_name => [.wrongKind 0 contexts]
  | .ccs_context_get_parameter_index => [.wrongKind 0 contexts]
  | .ccs_context_get_parameter_index_by_name => [.wrongKind 0 contexts]
  | .ccs_context_get_parameter_indexes => [.wrongKind 0 contexts]
  | .ccs_context_get_parameters => [.wrongKind 0 contexts]
  | .ccs_context_validate_value => [.wrongKind 0 contexts]
  | .ccs_create_error_stack => [.null 0]
  | .ccs_distribution_soa_samples => [.null 3]
  | .ccs_evaluation_hash => [.null 1]
  | .ccs_features_evaluation_hash => [.null 1]
  | .ccs_features_space_check_features_values => [.wrongKind 0 [.featuresSpace], .notValid 0 [.featuresSpace]]
  | .ccs_get_result_name => [.null 1]
  | .ccs_map_get_pairs => [.allNull [3, 4]]
  | .ccs_object_set_serialize_callback => [.null 1]
  | .ccs_rng_get_type => [.null 1]
  | .ccs_tree_configuration_get_values => [.nullArray 2 1]
  | .ccs_tree_evaluation_hash => [.null 1]
  | _ => []

end CCS.Api.Spec
