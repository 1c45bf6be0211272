import Verif.Model.Basic

/-!
# Arguments of the entry points

What each public function of the C library does with the handles and pointers it is given, before it
does anything else: `CCS_CHECK_OBJ`, `CCS_CHECK_PTR`, `CCS_CHECK_ARY`, `CCS_REFUTE` on arguments
(`src/cconfigspace_internal.h:69-121`), `CCS_CHECK_BINDING` (`src/binding.c:4-8`), `CCS_CHECK_CONTEXT`
(`src/context.c:4-8`), `CCS_CHECK_ERROR_STACK` (`src/error_stack.c:5-12`), and the plain writes through
result pointers, in the order of the code.  Functions called by an entry point with its own arguments
are followed.

Simplifications.  Anything else the call does is `may`: a step that depends on the state of the library
and may end the call with an error; which one is left to an oracle.  What the call computes is not
described here.  A pointer is `NULL` or points to enough memory of the right type; a handle is `NULL`,
an object whose data are missing, or a live object: a handle kept after its object was destroyed is not
described.
-/

namespace CCS.Api

/-- `ccs_object_type_e`, `include/cconfigspace/base.h:253-298`. -/
inductive Kind
  | rng | distribution | parameter | expression | configurationSpace | configuration
  | objectiveSpace | evaluation | tuner | featuresSpace | features | featuresEvaluation
  | featuresTuner | map | errorStack | tree | treeSpace | treeConfiguration | treeEvaluation
  | treeTuner
  deriving DecidableEq, Repr

/-- A handle as the checks see it, `_ccs_object_template_s`, `src/cconfigspace_internal.h:87-93`: `NULL`,
an object without data, an object of some kind. -/
inductive Handle
  | null
  | void
  | live (k : Kind)
  deriving DecidableEq, Repr

/-- An argument: a handle, a pointer (is it `NULL`?), a number. -/
inductive Arg
  | handle (h : Handle)
  | pointer (null : Bool)
  | number (n : Nat)
  deriving DecidableEq, Repr

/-- The arguments of a call, by position. -/
abbrev Args := Nat → Arg

/-- The public functions, `include/cconfigspace/*.h`. -/
inductive Fn
  | ccs_binding_cmp
  | ccs_binding_get_context
  | ccs_binding_get_value
  | ccs_binding_get_value_by_name
  | ccs_binding_get_value_by_parameter
  | ccs_binding_get_values
  | ccs_binding_hash
  | ccs_binding_set_value
  | ccs_binding_set_value_by_name
  | ccs_binding_set_value_by_parameter
  | ccs_binding_set_values
  | ccs_categorical_parameter_get_values
  | ccs_configuration_check
  | ccs_configuration_cmp
  | ccs_configuration_get_configuration_space
  | ccs_configuration_get_value
  | ccs_configuration_get_value_by_name
  | ccs_configuration_get_values
  | ccs_configuration_hash
  | ccs_configuration_set_value
  | ccs_configuration_space_add_forbidden_clause
  | ccs_configuration_space_add_forbidden_clauses
  | ccs_configuration_space_add_parameter
  | ccs_configuration_space_add_parameters
  | ccs_configuration_space_check_configuration
  | ccs_configuration_space_check_configuration_values
  | ccs_configuration_space_get_condition
  | ccs_configuration_space_get_conditions
  | ccs_configuration_space_get_default_configuration
  | ccs_configuration_space_get_forbidden_clause
  | ccs_configuration_space_get_forbidden_clauses
  | ccs_configuration_space_get_name
  | ccs_configuration_space_get_num_parameters
  | ccs_configuration_space_get_parameter
  | ccs_configuration_space_get_parameter_by_name
  | ccs_configuration_space_get_parameter_distribution
  | ccs_configuration_space_get_parameter_index
  | ccs_configuration_space_get_parameter_index_by_name
  | ccs_configuration_space_get_parameter_indexes
  | ccs_configuration_space_get_parameters
  | ccs_configuration_space_get_rng
  | ccs_configuration_space_sample
  | ccs_configuration_space_samples
  | ccs_configuration_space_set_condition
  | ccs_configuration_space_set_distribution
  | ccs_configuration_space_set_rng
  | ccs_configuration_space_validate_value
  | ccs_context_get_name
  | ccs_context_get_num_parameters
  | ccs_context_get_parameter
  | ccs_context_get_parameter_by_name
  | ccs_context_get_parameter_index
  | ccs_context_get_parameter_index_by_name
  | ccs_context_get_parameter_indexes
  | ccs_context_get_parameters
  | ccs_context_validate_value
  | ccs_create_binary_expression
  | ccs_create_categorical_parameter
  | ccs_create_configuration
  | ccs_create_configuration_space
  | ccs_create_discrete_parameter
  | ccs_create_dynamic_tree_space
  | ccs_create_error_stack
  | ccs_create_evaluation
  | ccs_create_expression
  | ccs_create_features
  | ccs_create_features_evaluation
  | ccs_create_features_space
  | ccs_create_float_numerical_parameter
  | ccs_create_int_numerical_parameter
  | ccs_create_literal
  | ccs_create_map
  | ccs_create_mixture_distribution
  | ccs_create_multivariate_distribution
  | ccs_create_normal_distribution
  | ccs_create_normal_float_distribution
  | ccs_create_normal_int_distribution
  | ccs_create_numerical_parameter
  | ccs_create_objective_space
  | ccs_create_ordinal_parameter
  | ccs_create_random_features_tuner
  | ccs_create_random_tree_tuner
  | ccs_create_random_tuner
  | ccs_create_rng
  | ccs_create_rng_with_type
  | ccs_create_roulette_distribution
  | ccs_create_static_tree_space
  | ccs_create_string_parameter
  | ccs_create_thread_error
  | ccs_create_tree
  | ccs_create_tree_configuration
  | ccs_create_tree_evaluation
  | ccs_create_unary_expression
  | ccs_create_uniform_distribution
  | ccs_create_uniform_float_distribution
  | ccs_create_uniform_int_distribution
  | ccs_create_user_defined_features_tuner
  | ccs_create_user_defined_tree_tuner
  | ccs_create_user_defined_tuner
  | ccs_create_variable
  | ccs_discrete_parameter_get_values
  | ccs_distribution_check_oversampling
  | ccs_distribution_get_bounds
  | ccs_distribution_get_data_types
  | ccs_distribution_get_dimension
  | ccs_distribution_get_type
  | ccs_distribution_parameters_sample
  | ccs_distribution_parameters_samples
  | ccs_distribution_sample
  | ccs_distribution_samples
  | ccs_distribution_soa_samples
  | ccs_distribution_strided_samples
  | ccs_dynamic_tree_space_get_tree_space_data
  | ccs_error_stack_get_code
  | ccs_error_stack_get_elems
  | ccs_error_stack_get_message
  | ccs_error_stack_push
  | ccs_evaluation_check
  | ccs_evaluation_cmp
  | ccs_evaluation_compare
  | ccs_evaluation_get_configuration
  | ccs_evaluation_get_objective_space
  | ccs_evaluation_get_objective_value
  | ccs_evaluation_get_objective_values
  | ccs_evaluation_get_result
  | ccs_evaluation_get_value
  | ccs_evaluation_get_value_by_name
  | ccs_evaluation_get_values
  | ccs_evaluation_hash
  | ccs_evaluation_set_result
  | ccs_evaluation_set_value
  | ccs_expression_check_context
  | ccs_expression_eval
  | ccs_expression_get_nodes
  | ccs_expression_get_num_nodes
  | ccs_expression_get_parameters
  | ccs_expression_get_type
  | ccs_expression_list_eval_node
  | ccs_features_check
  | ccs_features_cmp
  | ccs_features_evaluation_check
  | ccs_features_evaluation_cmp
  | ccs_features_evaluation_compare
  | ccs_features_evaluation_get_configuration
  | ccs_features_evaluation_get_features
  | ccs_features_evaluation_get_objective_space
  | ccs_features_evaluation_get_objective_value
  | ccs_features_evaluation_get_objective_values
  | ccs_features_evaluation_get_result
  | ccs_features_evaluation_get_value
  | ccs_features_evaluation_get_value_by_name
  | ccs_features_evaluation_get_values
  | ccs_features_evaluation_hash
  | ccs_features_evaluation_set_result
  | ccs_features_evaluation_set_value
  | ccs_features_get_features_space
  | ccs_features_get_value
  | ccs_features_get_value_by_name
  | ccs_features_get_values
  | ccs_features_hash
  | ccs_features_set_value
  | ccs_features_space_add_parameter
  | ccs_features_space_add_parameters
  | ccs_features_space_check_features
  | ccs_features_space_check_features_values
  | ccs_features_space_get_name
  | ccs_features_space_get_num_parameters
  | ccs_features_space_get_parameter
  | ccs_features_space_get_parameter_by_name
  | ccs_features_space_get_parameter_index
  | ccs_features_space_get_parameter_index_by_name
  | ccs_features_space_get_parameter_indexes
  | ccs_features_space_get_parameters
  | ccs_features_space_validate_value
  | ccs_features_tuner_ask
  | ccs_features_tuner_get_configuration_space
  | ccs_features_tuner_get_features_space
  | ccs_features_tuner_get_history
  | ccs_features_tuner_get_name
  | ccs_features_tuner_get_objective_space
  | ccs_features_tuner_get_optima
  | ccs_features_tuner_get_type
  | ccs_features_tuner_suggest
  | ccs_features_tuner_tell
  | ccs_fini
  | ccs_get_result_name
  | ccs_init
  | ccs_interval_empty
  | ccs_interval_equal
  | ccs_interval_intersect
  | ccs_interval_union
  | ccs_literal_get_value
  | ccs_map_clear
  | ccs_map_del
  | ccs_map_exist
  | ccs_map_get
  | ccs_map_get_keys
  | ccs_map_get_pairs
  | ccs_map_get_values
  | ccs_map_set
  | ccs_mixture_distribution_get_distributions
  | ccs_mixture_distribution_get_num_distributions
  | ccs_mixture_distribution_get_weights
  | ccs_multivariate_distribution_get_distributions
  | ccs_multivariate_distribution_get_num_distributions
  | ccs_normal_distribution_get_properties
  | ccs_numerical_parameter_get_properties
  | ccs_object_deserialize
  | ccs_object_get_refcount
  | ccs_object_get_type
  | ccs_object_get_user_data
  | ccs_object_serialize
  | ccs_object_set_destroy_callback
  | ccs_object_set_serialize_callback
  | ccs_object_set_user_data
  | ccs_objective_space_add_objective
  | ccs_objective_space_add_objectives
  | ccs_objective_space_add_parameter
  | ccs_objective_space_add_parameters
  | ccs_objective_space_check_evaluation_values
  | ccs_objective_space_get_name
  | ccs_objective_space_get_num_parameters
  | ccs_objective_space_get_objective
  | ccs_objective_space_get_objectives
  | ccs_objective_space_get_parameter
  | ccs_objective_space_get_parameter_by_name
  | ccs_objective_space_get_parameter_index
  | ccs_objective_space_get_parameter_index_by_name
  | ccs_objective_space_get_parameter_indexes
  | ccs_objective_space_get_parameters
  | ccs_objective_space_validate_value
  | ccs_ordinal_parameter_compare_values
  | ccs_ordinal_parameter_get_values
  | ccs_parameter_check_value
  | ccs_parameter_check_values
  | ccs_parameter_convert_samples
  | ccs_parameter_get_default_distribution
  | ccs_parameter_get_default_value
  | ccs_parameter_get_name
  | ccs_parameter_get_type
  | ccs_parameter_sample
  | ccs_parameter_samples
  | ccs_parameter_sampling_interval
  | ccs_parameter_validate_value
  | ccs_parameter_validate_values
  | ccs_release_object
  | ccs_retain_object
  | ccs_rng_get
  | ccs_rng_get_gsl_rng
  | ccs_rng_get_type
  | ccs_rng_max
  | ccs_rng_min
  | ccs_rng_set_seed
  | ccs_rng_uniform
  | ccs_roulette_distribution_get_areas
  | ccs_roulette_distribution_get_num_areas
  | ccs_set_thread_error
  | ccs_thread_error_stack_push
  | ccs_tree_configuration_check
  | ccs_tree_configuration_cmp
  | ccs_tree_configuration_get_node
  | ccs_tree_configuration_get_position
  | ccs_tree_configuration_get_tree_space
  | ccs_tree_configuration_get_values
  | ccs_tree_configuration_hash
  | ccs_tree_evaluation_check
  | ccs_tree_evaluation_cmp
  | ccs_tree_evaluation_compare
  | ccs_tree_evaluation_get_configuration
  | ccs_tree_evaluation_get_objective_space
  | ccs_tree_evaluation_get_objective_value
  | ccs_tree_evaluation_get_objective_values
  | ccs_tree_evaluation_get_result
  | ccs_tree_evaluation_get_value
  | ccs_tree_evaluation_get_value_by_name
  | ccs_tree_evaluation_get_values
  | ccs_tree_evaluation_hash
  | ccs_tree_evaluation_set_result
  | ccs_tree_evaluation_set_value
  | ccs_tree_get_arity
  | ccs_tree_get_bias
  | ccs_tree_get_child
  | ccs_tree_get_children
  | ccs_tree_get_node_at_position
  | ccs_tree_get_parent
  | ccs_tree_get_position
  | ccs_tree_get_value
  | ccs_tree_get_values
  | ccs_tree_get_values_at_position
  | ccs_tree_get_weight
  | ccs_tree_position_is_valid
  | ccs_tree_sample
  | ccs_tree_samples
  | ccs_tree_set_bias
  | ccs_tree_set_child
  | ccs_tree_set_weight
  | ccs_tree_space_check_configuration
  | ccs_tree_space_check_position
  | ccs_tree_space_get_name
  | ccs_tree_space_get_node_at_position
  | ccs_tree_space_get_rng
  | ccs_tree_space_get_tree
  | ccs_tree_space_get_type
  | ccs_tree_space_get_values_at_position
  | ccs_tree_space_sample
  | ccs_tree_space_samples
  | ccs_tree_space_set_rng
  | ccs_tree_tuner_ask
  | ccs_tree_tuner_get_history
  | ccs_tree_tuner_get_name
  | ccs_tree_tuner_get_objective_space
  | ccs_tree_tuner_get_optima
  | ccs_tree_tuner_get_tree_space
  | ccs_tree_tuner_get_type
  | ccs_tree_tuner_suggest
  | ccs_tree_tuner_tell
  | ccs_tuner_ask
  | ccs_tuner_get_configuration_space
  | ccs_tuner_get_history
  | ccs_tuner_get_name
  | ccs_tuner_get_objective_space
  | ccs_tuner_get_optima
  | ccs_tuner_get_type
  | ccs_tuner_suggest
  | ccs_tuner_tell
  | ccs_uniform_distribution_get_properties
  | ccs_user_defined_features_tuner_get_tuner_data
  | ccs_user_defined_tree_tuner_get_tuner_data
  | ccs_user_defined_tuner_get_tuner_data
  | ccs_variable_get_parameter

/-- One step of an entry point on its arguments (positions count from 0). -/
inductive Step
  /-- `CCS_CHECK_OBJ(a, k)`, `src/cconfigspace_internal.h:87-93`. -/
  | obj (a : Nat) (k : Kind)
  /-- `CCS_CHECK_BINDING(a)`, `CCS_CHECK_CONTEXT(a)`, `src/binding.c:4-8`, `src/context.c:4-8`: no look
  at the kind. -/
  | anyObj (a : Nat)
  /-- `if (a) CCS_CHECK_OBJ(a, k)`. -/
  | optObj (a : Nat) (k : Kind)
  /-- `CCS_REFUTE(!a, CCS_RESULT_ERROR_INVALID_OBJECT)`. -/
  | given (a : Nat)
  /-- `CCS_CHECK_PTR(a)`, `src/cconfigspace_internal.h:105-108`. -/
  | ptr (a : Nat)
  /-- `CCS_CHECK_ARY(n, a)`, `src/cconfigspace_internal.h:110-114`. -/
  | ary (a n : Nat)
  /-- `CCS_REFUTE(!a && !b && …, CCS_RESULT_ERROR_INVALID_VALUE)`. -/
  | some (as : List Nat)
  /-- `CCS_REFUTE(!n || …, CCS_RESULT_ERROR_INVALID_VALUE)`. -/
  | nonzero (n : Nat)
  /-- `if (!n) return CCS_RESULT_SUCCESS`. -/
  | stopZero (n : Nat)
  /-- `CCS_CHECK_PTR(p)` in the operation the object `h` has when it is of one of these kinds. -/
  | ptrFor (h : Nat) (ks : List Kind) (p : Nat)
  /-- Something that may fail, depending on the state. -/
  | may
  /-- `*a = …`. -/
  | write (a : Nat)
  /-- The data of `a` are read as those of an object of one of these kinds. -/
  | use (a : Nat) (ks : List Kind)
  deriving DecidableEq, Repr

/-- `!a`. -/
def Arg.isNull : Arg → Bool
  | .handle .null => true
  | .pointer b => b
  | _ => false

/-- `!a || !a->data || a->obj.type != k`, `src/cconfigspace_internal.h:89-90`. -/
def Arg.isNot (k : Kind) : Arg → Bool
  | .handle .null => true
  | .handle .void => true
  | .handle (.live k') => !decide (k' = k)
  | _ => false

/-- `!a || !a->data`, `src/binding.c:6`. -/
def Arg.noData : Arg → Bool
  | .handle .null => true
  | .handle .void => true
  | _ => false

/-- `a == 0`. -/
def Arg.isZero : Arg → Bool
  | .number n => n == 0
  | _ => false

/-- `a->obj.type` is one of these. -/
def Arg.among (ks : List Kind) : Arg → Bool
  | .handle (.live k) => ks.contains k
  | _ => false

/-- The data of `a` are not those of an object of one of these kinds. -/
def Arg.unlike (ks : List Kind) : Arg → Bool
  | .handle .null => true
  | .handle .void => true
  | .handle (.live k) => !ks.contains k
  | _ => false

/-- Do the checks of an entry point; `o` tells how the steps that depend on the state go (`none` or
nothing: well).  `.ok ()`: the call got past all its argument checks (and returns what it returns).
`src/cconfigspace_internal.h:69-121`. -/
def run (args : Args) : List Step → List (Option Err) → Out Unit
  | [], _ => .ok ()
  | .obj a k :: r, o => if (args a).isNot k then .err .invalidObject else run args r o
  | .anyObj a :: r, o => if (args a).noData then .err .invalidObject else run args r o
  | .optObj a k :: r, o =>
    if (args a).isNull then run args r o
    else if (args a).isNot k then .err .invalidObject else run args r o
  | .given a :: r, o => if (args a).isNull then .err .invalidObject else run args r o
  | .ptr a :: r, o => if (args a).isNull then .err .invalidValue else run args r o
  | .ary a n :: r, o =>
    if !(args n).isZero && (args a).isNull then .err .invalidValue else run args r o
  | .some as :: r, o =>
    if as.all fun a => (args a).isNull then .err .invalidValue else run args r o
  | .nonzero n :: r, o => if (args n).isZero then .err .invalidValue else run args r o
  | .stopZero n :: r, o => if (args n).isZero then .ok () else run args r o
  | .ptrFor h ks p :: r, o =>
    if (args h).among ks && (args p).isNull then .err .invalidValue else run args r o
  | .may :: r, [] => run args r []
  | .may :: r, none :: o => run args r o
  | .may :: _, some e :: _ => .err e
  | .write a :: r, o => if (args a).isNull then .ub else run args r o
  | .use a ks :: r, o => if (args a).unlike ks then .ub else run args r o

/-- The kinds that are bindings, with the data of `src/binding_internal.h:19-28`, and contexts, with
those of `src/context_internal.h:31-41`. -/
def bindings : List Kind := [.evaluation, .featuresEvaluation, .treeEvaluation, .configuration, .features]
@[inherit_doc bindings]
def contexts : List Kind := [.configurationSpace, .featuresSpace, .objectiveSpace]

/-- The argument checks of each entry point, in order.  The lines of each are above it, with the names
of its arguments. -/
def steps : Fn → List Step
  /- `src/binding.c:122-135`: binding, other_binding, cmp_ret -/
  | .ccs_binding_cmp => [.anyObj 0, .anyObj 1, .ptr 2, .use 0 bindings, .use 1 bindings, .may]
  /- `src/binding.c:16-22`: binding, context_ret (through `src/binding_internal.h:30-36`) -/
  | .ccs_binding_get_context => [.anyObj 0, .ptr 1, .use 0 bindings, .write 1]
  /- `src/binding.c:24-33`: binding, index, value_ret (through `src/binding_internal.h:38-50`) -/
  | .ccs_binding_get_value => [.anyObj 0, .ptr 2, .use 0 bindings, .may, .write 2]
  /- `src/binding.c:67-76`: binding, name, value_ret (through `src/binding_internal.h:111-123`, `src/context.c:54-64`, `src/context_internal.h:103-118`, `src/binding_internal.h:38-50`) -/
  | .ccs_binding_get_value_by_name => [.anyObj 0, .ptr 1, .use 0 bindings, .may, .ptr 2, .may, .write 2]
  /- `src/binding.c:89-99`: binding, parameter, value_ret (through `src/binding_internal.h:139-150`, `src/context.c:10-20`, `src/context_internal.h:44-59`, `src/binding_internal.h:38-50`) -/
  | .ccs_binding_get_value_by_parameter => [.anyObj 0, .use 0 bindings, .may, .ptr 2, .may, .write 2]
  /- `src/binding.c:43-54`: binding, num_values, values, num_values_ret (through `src/binding_internal.h:65-87`) -/
  | .ccs_binding_get_values => [.anyObj 0, .ary 2 1, .some [3, 2], .use 0 bindings, .may]
  /- `src/binding.c:113-120`: binding, hash_ret -/
  | .ccs_binding_hash => [.anyObj 0, .use 0 bindings, .ptrFor 0 [.configuration, .features] 1, .may, .write 1]
  /- `src/binding.c:35-41`: binding, index, value (through `src/binding_internal.h:52-63`) -/
  | .ccs_binding_set_value => [.anyObj 0, .use 0 bindings, .may]
  /- `src/binding.c:78-87`: binding, name, value (through `src/binding_internal.h:125-137`, `src/context.c:54-64`, `src/context_internal.h:103-118`, `src/binding_internal.h:52-63`) -/
  | .ccs_binding_set_value_by_name => [.anyObj 0, .ptr 1, .use 0 bindings, .may]
  /- `src/binding.c:101-111`: binding, parameter, value (through `src/binding_internal.h:152-163`, `src/context.c:10-20`, `src/context_internal.h:44-59`, `src/binding_internal.h:52-63`) -/
  | .ccs_binding_set_value_by_parameter => [.anyObj 0, .use 0 bindings, .may]
  /- `src/binding.c:56-65`: binding, num_values, values (through `src/binding_internal.h:89-109`) -/
  | .ccs_binding_set_values => [.anyObj 0, .ary 2 1, .use 0 bindings, .may]
  /- `src/parameter_categorical.c:431-443`: parameter, num_possible_values, possible_values, num_possible_values_ret (through `src/parameter_categorical.c:389-415`) -/
  | .ccs_categorical_parameter_get_values => [.obj 0 .parameter, .may, .ary 2 1, .some [2, 3], .may]
  /- `src/configuration.c:204-214`: configuration, is_valid_ret (through `src/configuration_space.c:962-979`, `src/configuration_space.c:915-960`, `src/configuration_space.c:890-913`) -/
  | .ccs_configuration_check => [.obj 0 .configuration, .may, .write 1, .may]
  /- `src/configuration.c:226-239`: configuration, other_configuration, cmp_ret -/
  | .ccs_configuration_cmp => [.obj 0 .configuration, .obj 1 .configuration, .may]
  /- `src/configuration.c:142-152`: configuration, configuration_space_ret (through `src/binding_internal.h:30-36`) -/
  | .ccs_configuration_get_configuration_space => [.obj 0 .configuration, .ptr 1, .write 1]
  /- `src/configuration.c:154-164`: configuration, index, value_ret (through `src/binding_internal.h:38-50`) -/
  | .ccs_configuration_get_value => [.obj 0 .configuration, .ptr 2, .may, .write 2]
  /- `src/configuration.c:192-202`: configuration, name, value_ret (through `src/binding_internal.h:111-123`, `src/context.c:54-64`, `src/context_internal.h:103-118`, `src/binding_internal.h:38-50`) -/
  | .ccs_configuration_get_value_by_name => [.obj 0 .configuration, .ptr 1, .may, .ptr 2, .may, .write 2]
  /- `src/configuration.c:178-190`: configuration, num_values, values, num_values_ret (through `src/binding_internal.h:65-87`) -/
  | .ccs_configuration_get_values => [.obj 0 .configuration, .ary 2 1, .some [3, 2], .may]
  /- `src/configuration.c:216-224`: configuration, hash_ret -/
  | .ccs_configuration_hash => [.obj 0 .configuration, .ptr 1, .write 1]
  /- `src/configuration.c:166-176`: configuration, index, value (through `src/binding_internal.h:52-63`) -/
  | .ccs_configuration_set_value => [.obj 0 .configuration, .may]
  /- `src/configuration_space.c:1392-1423`: configuration_space, expression (through `src/expression.c:1781-1812`, `src/expression.c:1698-1711`, `src/configuration_space.c:860-888`, `src/configuration.c:86-140`, `src/configuration_space.c:734-743`, `src/context_internal.h:61-69`, `src/cconfigspace.c:44-51`, `src/configuration_space.c:834-858`, `src/expression.c:1579-1591`) -/
  | .ccs_configuration_space_add_forbidden_clause => [.obj 0 .configurationSpace, .obj 1 .expression, .may]
  /- `src/configuration_space.c:1427-1439`: configuration_space, num_expressions, expressions -/
  | .ccs_configuration_space_add_forbidden_clauses => [.obj 0 .configurationSpace, .ary 2 1, .may]
  /- `src/configuration_space.c:429-543`: configuration_space, parameter, distribution (through `src/parameter.c:10-17`, `src/parameter.c:31-38`, `src/cconfigspace.c:44-51`) -/
  | .ccs_configuration_space_add_parameter => [.obj 0 .configurationSpace, .obj 1 .parameter, .may, .optObj 2 .distribution, .may]
  /- `src/configuration_space.c:715-732`: configuration_space, num_parameters, parameters, distributions -/
  | .ccs_configuration_space_add_parameters => [.obj 0 .configurationSpace, .ary 2 1, .may]
  /- `src/configuration_space.c:962-979`: configuration_space, configuration, is_valid_ret (through `src/configuration_space.c:915-960`, `src/configuration_space.c:890-913`) -/
  | .ccs_configuration_space_check_configuration => [.obj 0 .configurationSpace, .obj 1 .configuration, .may, .write 2, .may]
  /- `src/configuration_space.c:981-995`: configuration_space, num_values, values, is_valid_ret (through `src/configuration_space.c:915-960`, `src/configuration_space.c:890-913`) -/
  | .ccs_configuration_space_check_configuration_values => [.obj 0 .configurationSpace, .ary 2 1, .may, .write 3, .may]
  /- `src/configuration_space.c:1337-1352`: configuration_space, parameter_index, expression_ret -/
  | .ccs_configuration_space_get_condition => [.obj 0 .configurationSpace, .ptr 2, .may, .write 2]
  /- `src/configuration_space.c:1354-1383`: configuration_space, num_expressions, expressions, num_expressions_ret -/
  | .ccs_configuration_space_get_conditions => [.obj 0 .configurationSpace, .ary 2 1, .some [2, 3], .may]
  /- `src/configuration_space.c:860-888`: configuration_space, configuration_ret (through `src/configuration.c:86-140`, `src/configuration_space.c:734-743`, `src/context_internal.h:61-69`, `src/cconfigspace.c:44-51`, `src/configuration_space.c:834-858`) -/
  | .ccs_configuration_space_get_default_configuration => [.obj 0 .configurationSpace, .ptr 1, .may, .write 1]
  /- `src/configuration_space.c:1441-1455`: configuration_space, index, expression_ret -/
  | .ccs_configuration_space_get_forbidden_clause => [.obj 0 .configurationSpace, .ptr 2, .may, .write 2]
  /- `src/configuration_space.c:1457-1486`: configuration_space, num_expressions, expressions, num_expressions_ret -/
  | .ccs_configuration_space_get_forbidden_clauses => [.obj 0 .configurationSpace, .ary 2 1, .some [2, 3], .may]
  /- `src/configuration_space.c:378-387`: configuration_space, name_ret (through `src/context_internal.h:169-175`) -/
  | .ccs_configuration_space_get_name => [.obj 0 .configurationSpace, .ptr 1, .write 1]
  /- `src/configuration_space.c:734-743`: configuration_space, num_parameters_ret (through `src/context_internal.h:61-69`) -/
  | .ccs_configuration_space_get_num_parameters => [.obj 0 .configurationSpace, .ptr 1, .write 1]
  /- `src/configuration_space.c:745-755`: configuration_space, index, parameter_ret (through `src/context_internal.h:71-84`) -/
  | .ccs_configuration_space_get_parameter => [.obj 0 .configurationSpace, .ptr 2, .may, .write 2]
  /- `src/configuration_space.c:757-767`: configuration_space, name, parameter_ret (through `src/context_internal.h:86-101`) -/
  | .ccs_configuration_space_get_parameter_by_name => [.obj 0 .configurationSpace, .ptr 1, .ptr 2, .may, .write 2]
  /- `src/configuration_space.c:694-713`: configuration_space, index, distribution_ret, index_ret -/
  | .ccs_configuration_space_get_parameter_distribution => [.obj 0 .configurationSpace, .ptr 2, .ptr 3, .may, .write 2, .write 3]
  /- `src/configuration_space.c:781-791`: configuration_space, parameter, index_ret (through `src/context_internal.h:44-59`) -/
  | .ccs_configuration_space_get_parameter_index => [.obj 0 .configurationSpace, .ptr 2, .may, .write 2]
  /- `src/configuration_space.c:769-779`: configuration_space, name, index_ret (through `src/context_internal.h:103-118`) -/
  | .ccs_configuration_space_get_parameter_index_by_name => [.obj 0 .configurationSpace, .ptr 1, .ptr 2, .may, .write 2]
  /- `src/configuration_space.c:793-805`: configuration_space, num_parameters, parameters, indexes (through `src/context_internal.h:149-167`) -/
  | .ccs_configuration_space_get_parameter_indexes => [.obj 0 .configurationSpace, .ary 2 1, .ary 3 1, .may]
  /- `src/configuration_space.c:807-819`: configuration_space, num_parameters, parameters, num_parameters_ret (through `src/context_internal.h:120-147`) -/
  | .ccs_configuration_space_get_parameters => [.obj 0 .configurationSpace, .ary 2 1, .some [3, 2], .may]
  /- `src/configuration_space.c:403-412`: configuration_space, rng_ret -/
  | .ccs_configuration_space_get_rng => [.obj 0 .configurationSpace, .ptr 1, .write 1]
  /- `src/configuration_space.c:1051-1079`: configuration_space, configuration_ret (through `src/configuration.c:86-140`, `src/configuration_space.c:734-743`, `src/context_internal.h:61-69`, `src/cconfigspace.c:44-51`) -/
  | .ccs_configuration_space_sample => [.obj 0 .configurationSpace, .ptr 1, .may, .write 1]
  /- `src/configuration_space.c:1081-1122`: configuration_space, num_configurations, configurations -/
  | .ccs_configuration_space_samples => [.obj 0 .configurationSpace, .ary 2 1, .stopZero 1, .may]
  /- `src/configuration_space.c:1309-1335`: configuration_space, parameter_index, expression (through `src/cconfigspace.c:44-51`) -/
  | .ccs_configuration_space_set_condition => [.obj 0 .configurationSpace, .obj 2 .expression, .may]
  /- `src/configuration_space.c:547-692`: configuration_space, distribution, indexes (through `src/distribution.c:36-47`) -/
  | .ccs_configuration_space_set_distribution => [.obj 0 .configurationSpace, .obj 1 .distribution, .ptr 2, .may]
  /- `src/configuration_space.c:389-401`: configuration_space, rng (through `src/cconfigspace.c:44-51`, `src/cconfigspace.c:53-72`) -/
  | .ccs_configuration_space_set_rng => [.obj 0 .configurationSpace, .obj 1 .rng, .may]
  /- `src/configuration_space.c:821-832`: configuration_space, index, value, value_ret (through `src/context_internal.h:177-194`, `src/parameter.c:83-97`) -/
  | .ccs_configuration_space_validate_value => [.obj 0 .configurationSpace, .ptr 3, .may]
  /- `src/context.c:105-111`: context, name_ret (through `src/context_internal.h:169-175`) -/
  | .ccs_context_get_name => [.anyObj 0, .ptr 1, .use 0 contexts, .write 1]
  /- `src/context.c:22-29`: context, num_parameters_ret (through `src/context_internal.h:61-69`) -/
  | .ccs_context_get_num_parameters => [.anyObj 0, .ptr 1, .use 0 contexts, .write 1]
  /- `src/context.c:31-40`: context, index, parameter_ret (through `src/context_internal.h:71-84`) -/
  | .ccs_context_get_parameter => [.anyObj 0, .ptr 2, .use 0 contexts, .may, .write 2]
  /- `src/context.c:42-52`: context, name, parameter_ret (through `src/context_internal.h:86-101`) -/
  | .ccs_context_get_parameter_by_name => [.anyObj 0, .ptr 1, .ptr 2, .use 0 contexts, .may, .write 2]
  /- `src/context.c:10-20`: context, parameter, index_ret (through `src/context_internal.h:44-59`) -/
  | .ccs_context_get_parameter_index => [.anyObj 0, .ptr 2, .use 0 contexts, .may, .write 2]
  /- `src/context.c:54-64`: context, name, index_ret (through `src/context_internal.h:103-118`) -/
  | .ccs_context_get_parameter_index_by_name => [.anyObj 0, .ptr 1, .ptr 2, .use 0 contexts, .may, .write 2]
  /- `src/context.c:79-90`: context, num_parameters, parameters, indexes (through `src/context_internal.h:149-167`) -/
  | .ccs_context_get_parameter_indexes => [.anyObj 0, .ary 2 1, .ary 3 1, .use 0 contexts, .may]
  /- `src/context.c:66-77`: context, num_parameters, parameters, num_parameters_ret (through `src/context_internal.h:120-147`) -/
  | .ccs_context_get_parameters => [.anyObj 0, .ary 2 1, .some [3, 2], .use 0 contexts, .may]
  /- `src/context.c:92-103`: context, index, value, value_ret (through `src/context_internal.h:177-194`, `src/parameter.c:83-97`) -/
  | .ccs_context_validate_value => [.anyObj 0, .ptr 3, .use 0 contexts, .may]
  /- `src/expression.c:1555-1567`: type, node_left, node_right, expression_ret (through `src/expression.c:1460-1553`) -/
  | .ccs_create_binary_expression => [.may, .ptr 3, .may, .write 3, .may]
  /- `src/parameter_categorical.c:417-429`: name, num_possible_values, possible_values, default_value_index, parameter_ret (through `src/parameter_categorical.c:278-387`) -/
  | .ccs_create_categorical_parameter => [.ptr 0, .ptr 4, .ary 2 1, .may, .write 4]
  /- `src/configuration.c:86-140`: configuration_space, num_values, values, configuration_ret (through `src/configuration_space.c:734-743`, `src/context_internal.h:61-69`, `src/cconfigspace.c:44-51`) -/
  | .ccs_create_configuration => [.obj 0 .configurationSpace, .ptr 3, .ary 2 1, .may, .write 3]
  /- `src/configuration_space.c:330-376`: name, configuration_space_ret (through `src/rng.c:131-135`, `src/rng.c:104-129`) -/
  | .ccs_create_configuration_space => [.ptr 0, .ptr 1, .may, .write 1, .may]
  /- `src/parameter_categorical.c:497-509`: name, num_possible_values, possible_values, default_value_index, parameter_ret (through `src/parameter_categorical.c:278-387`) -/
  | .ccs_create_discrete_parameter => [.ptr 0, .ptr 4, .ary 2 1, .may, .write 4]
  /- `src/tree_space_dynamic.c:250-299`: name, tree, vector, tree_space_data, tree_space_ret (through `src/rng.c:131-135`, `src/rng.c:104-129`, `src/cconfigspace.c:44-51`) -/
  | .ccs_create_dynamic_tree_space => [.ptr 0, .obj 1 .tree, .ptr 2, .may, .ptr 4, .may, .write 4]
  /- `src/error_stack.c:117-130`: error_stack_ret, error_code, msg, ... -/
  | .ccs_create_error_stack => [.may, .write 0]
  /- `src/evaluation.c:166-225`: objective_space, configuration, result, num_values, values, evaluation_ret (through `src/objective_space.c:348-357`, `src/context_internal.h:61-69`, `src/cconfigspace.c:44-51`) -/
  | .ccs_create_evaluation => [.obj 0 .objectiveSpace, .obj 1 .configuration, .ptr 5, .ary 4 3, .may, .write 5]
  /- `src/expression.c:1460-1553`: type, num_nodes, nodes, expression_ret -/
  | .ccs_create_expression => [.ary 2 1, .ptr 3, .may, .write 3, .may]
  /- `src/features.c:86-140`: features_space, num_values, values, features_ret (through `src/features_space.c:220-229`, `src/context_internal.h:61-69`, `src/cconfigspace.c:44-51`) -/
  | .ccs_create_features => [.obj 0 .featuresSpace, .ptr 3, .ary 2 1, .may, .write 3]
  /- `src/features_evaluation.c:185-255`: objective_space, configuration, features, result, num_values, values, evaluation_ret (through `src/objective_space.c:348-357`, `src/context_internal.h:61-69`, `src/cconfigspace.c:44-51`) -/
  | .ccs_create_features_evaluation => [.obj 0 .objectiveSpace, .obj 1 .configuration, .obj 2 .features, .ptr 6, .ary 5 4, .may, .write 6]
  /- `src/features_space.c:90-123`: name, features_space_ret -/
  | .ccs_create_features_space => [.ptr 0, .ptr 1, .may, .write 1, .may]
  /- `src/parameter.c:200-213`: name, lower, upper, quantization, default_value, parameter_ret (through `src/parameter_numerical.c:274-345`) -/
  | .ccs_create_float_numerical_parameter => [.ptr 0, .ptr 5, .may, .write 5]
  /- `src/parameter.c:185-198`: name, lower, upper, quantization, default_value, parameter_ret (through `src/parameter_numerical.c:274-345`) -/
  | .ccs_create_int_numerical_parameter => [.ptr 0, .ptr 5, .may, .write 5]
  /- `src/expression.c:1386-1426`: value, expression_ret -/
  | .ccs_create_literal => [.may, .ptr 1, .may, .write 1]
  /- `src/map.c:147-161`: map_ret -/
  | .ccs_create_map => [.ptr 0, .may, .write 0]
  /- `src/distribution_mixture.c:182-336`: num_distributions, distributions, weights, distribution_ret (through `src/distribution.c:36-47`, `src/distribution.c:22-34`, `src/distribution.c:49-59`) -/
  | .ccs_create_mixture_distribution => [.ary 1 0, .ary 2 0, .ptr 3, .nonzero 0, .may, .write 3, .may]
  /- `src/distribution_multivariate.c:177-274`: num_distributions, distributions, distribution_ret -/
  | .ccs_create_multivariate_distribution => [.ary 1 0, .ptr 2, .nonzero 0, .may, .write 2, .may]
  /- `src/distribution_normal.c:531-587`: data_type, mu, sigma, scale_type, quantization, distribution_ret -/
  | .ccs_create_normal_distribution => [.ptr 5, .may, .write 5]
  /- `src/distribution.c:325-337`: mu, sigma, scale, quantization, distribution_ret -/
  | .ccs_create_normal_float_distribution => [.ptr 4, .may, .write 4]
  /- `src/distribution.c:339-351`: mu, sigma, scale, quantization, distribution_ret -/
  | .ccs_create_normal_int_distribution => [.ptr 4, .may, .write 4]
  /- `src/parameter_numerical.c:274-345`: name, data_type, lower, upper, quantization, default_value, parameter_ret -/
  | .ccs_create_numerical_parameter => [.ptr 0, .ptr 6, .may, .write 6]
  /- `src/objective_space.c:214-250`: name, objective_space_ret -/
  | .ccs_create_objective_space => [.ptr 0, .ptr 1, .may, .write 1, .may]
  /- `src/parameter_categorical.c:469-481`: name, num_possible_values, possible_values, default_value_index, parameter_ret (through `src/parameter_categorical.c:278-387`) -/
  | .ccs_create_ordinal_parameter => [.ptr 0, .ptr 4, .ary 2 1, .may, .write 4]
  /- `src/features_tuner_random.c:452-516`: name, configuration_space, features_space, objective_space, tuner_ret (through `src/cconfigspace.c:44-51`) -/
  | .ccs_create_random_features_tuner => [.ptr 0, .obj 1 .configurationSpace, .obj 2 .featuresSpace, .obj 3 .objectiveSpace, .ptr 4, .may, .write 4, .may]
  /- `src/tree_tuner_random.c:352-408`: name, tree_space, objective_space, tuner_ret (through `src/cconfigspace.c:44-51`) -/
  | .ccs_create_random_tree_tuner => [.ptr 0, .obj 1 .treeSpace, .obj 2 .objectiveSpace, .ptr 3, .may, .write 3, .may]
  /- `src/tuner_random.c:345-402`: name, configuration_space, objective_space, tuner_ret (through `src/cconfigspace.c:44-51`) -/
  | .ccs_create_random_tuner => [.ptr 0, .obj 1 .configurationSpace, .obj 2 .objectiveSpace, .ptr 3, .may, .write 3, .may]
  /- `src/rng.c:131-135`: rng_ret (through `src/rng.c:104-129`) -/
  | .ccs_create_rng => [.may, .ptr 0, .may, .write 0]
  /- `src/rng.c:104-129`: rng_type, rng_ret -/
  | .ccs_create_rng_with_type => [.ptr 0, .ptr 1, .may, .write 1]
  /- `src/distribution_roulette.c:233-277`: num_areas, areas, distribution_ret (through `src/distribution_internal.h:105-123`) -/
  | .ccs_create_roulette_distribution => [.ary 1 0, .ptr 2, .nonzero 0, .may, .write 2]
  /- `src/tree_space_static.c:171-213`: name, tree, tree_space_ret (through `src/rng.c:131-135`, `src/rng.c:104-129`, `src/cconfigspace.c:44-51`) -/
  | .ccs_create_static_tree_space => [.ptr 0, .obj 1 .tree, .ptr 2, .may, .write 2]
  /- `src/parameter_string.c:234-262`: name, parameter_ret -/
  | .ccs_create_string_parameter => [.ptr 0, .ptr 1, .may, .write 1]
  /- `src/error_stack.c:132-142`: error_code, msg, ... -/
  | .ccs_create_thread_error => []
  /- `src/tree.c:140-197`: arity, value, tree_ret -/
  | .ccs_create_tree => [.ptr 2, .may, .write 2]
  /- `src/tree_configuration.c:116-152`: tree_space, position_size, position, configuration_ret (through `src/cconfigspace.c:44-51`) -/
  | .ccs_create_tree_configuration => [.obj 0 .treeSpace, .ptr 3, .ary 2 1, .may, .write 3]
  /- `src/tree_evaluation.c:169-228`: objective_space, configuration, result, num_values, values, evaluation_ret (through `src/objective_space.c:348-357`, `src/context_internal.h:61-69`, `src/cconfigspace.c:44-51`) -/
  | .ccs_create_tree_evaluation => [.obj 0 .objectiveSpace, .obj 1 .treeConfiguration, .ptr 5, .ary 4 3, .may, .write 5]
  /- `src/expression.c:1569-1577`: type, node, expression_ret (through `src/expression.c:1460-1553`) -/
  | .ccs_create_unary_expression => [.may, .ptr 2, .may, .write 2, .may]
  /- `src/distribution_uniform.c:376-463`: data_type, lower, upper, scale_type, quantization, distribution_ret -/
  | .ccs_create_uniform_distribution => [.ptr 5, .may]
  /- `src/distribution.c:353-365`: lower, upper, scale, quantization, distribution_ret (through `src/distribution_uniform.c:376-463`) -/
  | .ccs_create_uniform_float_distribution => [.ptr 4, .may]
  /- `src/distribution.c:367-379`: lower, upper, scale, quantization, distribution_ret (through `src/distribution_uniform.c:376-463`) -/
  | .ccs_create_uniform_int_distribution => [.ptr 4, .may]
  /- `src/features_tuner_user_defined.c:323-386`: name, configuration_space, features_space, objective_space, vector, tuner_data, tuner_ret (through `src/cconfigspace.c:44-51`) -/
  | .ccs_create_user_defined_features_tuner => [.ptr 0, .obj 1 .configurationSpace, .obj 2 .featuresSpace, .obj 3 .objectiveSpace, .ptr 6, .ptr 4, .may, .write 6]
  /- `src/tree_tuner_user_defined.c:304-358`: name, tree_space, objective_space, vector, tuner_data, tuner_ret (through `src/cconfigspace.c:44-51`) -/
  | .ccs_create_user_defined_tree_tuner => [.ptr 0, .obj 1 .treeSpace, .obj 2 .objectiveSpace, .ptr 5, .ptr 3, .may, .write 5]
  /- `src/tuner_user_defined.c:298-353`: name, configuration_space, objective_space, vector, tuner_data, tuner_ret (through `src/cconfigspace.c:44-51`) -/
  | .ccs_create_user_defined_tuner => [.ptr 0, .obj 1 .configurationSpace, .obj 2 .objectiveSpace, .ptr 5, .ptr 3, .may, .write 5]
  /- `src/expression.c:1428-1458`: parameter, expression_ret (through `src/cconfigspace.c:44-51`) -/
  | .ccs_create_variable => [.obj 0 .parameter, .ptr 1, .may, .write 1]
  /- `src/parameter_categorical.c:511-523`: parameter, num_possible_values, possible_values, num_possible_values_ret (through `src/parameter_categorical.c:389-415`) -/
  | .ccs_discrete_parameter_get_values => [.obj 0 .parameter, .may, .ary 2 1, .some [2, 3], .may]
  /- `src/distribution.c:61-89`: distribution, intervals, oversamplings (through `src/distribution.c:49-59`) -/
  | .ccs_distribution_check_oversampling => [.obj 0 .distribution, .ptr 1, .ptr 2, .may]
  /- `src/distribution.c:49-59`: distribution, interval_ret -/
  | .ccs_distribution_get_bounds => [.obj 0 .distribution, .ptr 1, .may]
  /- `src/distribution.c:22-34`: distribution, data_types_ret -/
  | .ccs_distribution_get_data_types => [.obj 0 .distribution, .ptr 1]
  /- `src/distribution.c:36-47`: distribution, dimension_ret -/
  | .ccs_distribution_get_dimension => [.obj 0 .distribution, .ptr 1, .write 1]
  /- `src/distribution.c:10-20`: distribution, type_ret -/
  | .ccs_distribution_get_type => [.obj 0 .distribution, .ptr 1, .write 1]
  /- `src/distribution.c:313-323`: distribution, rng, parameters, results (through `src/distribution.c:164-311`, `src/distribution.c:61-89`, `src/distribution.c:49-59`) -/
  | .ccs_distribution_parameters_sample => [.obj 0 .distribution, .obj 1 .rng, .may, .ptr 2, .ptr 3, .may]
  /- `src/distribution.c:164-311`: distribution, rng, parameters, num_values, values (through `src/distribution.c:61-89`, `src/distribution.c:49-59`) -/
  | .ccs_distribution_parameters_samples => [.obj 0 .distribution, .obj 1 .rng, .stopZero 3, .ary 2 3, .ary 4 3, .may]
  /- `src/distribution.c:91-103`: distribution, rng, value_ret -/
  | .ccs_distribution_sample => [.obj 0 .distribution, .obj 1 .rng, .ptr 2, .may]
  /- `src/distribution.c:105-120`: distribution, rng, num_values, values -/
  | .ccs_distribution_samples => [.obj 0 .distribution, .obj 1 .rng, .stopZero 2, .ary 3 2, .may]
  /- `src/distribution.c:146-162`: distribution, rng, num_values, values -/
  | .ccs_distribution_soa_samples => [.obj 0 .distribution, .obj 1 .rng, .stopZero 2, .ary 3 2, .may]
  /- `src/distribution.c:122-144`: distribution, rng, num_values, stride, values -/
  | .ccs_distribution_strided_samples => [.obj 0 .distribution, .obj 1 .rng, .may, .stopZero 2, .ary 4 2, .may]
  /- `src/tree_space_dynamic.c:301-312`: tree_space, tree_space_data_ret -/
  | .ccs_dynamic_tree_space_get_tree_space_data => [.obj 0 .treeSpace, .may, .ptr 1, .write 1]
  /- `src/error_stack.c:208-218`: error_stack, error_code_ret -/
  | .ccs_error_stack_get_code => [.obj 0 .errorStack, .ptr 1, .write 1]
  /- `src/error_stack.c:178-194`: error_stack, num_elems_ret, elems -/
  | .ccs_error_stack_get_elems => [.obj 0 .errorStack, .ptr 1, .ptr 2, .write 1, .write 2]
  /- `src/error_stack.c:196-206`: error_stack, message_ret -/
  | .ccs_error_stack_get_message => [.obj 0 .errorStack, .ptr 1, .write 1]
  /- `src/error_stack.c:162-170`: error_stack, file, line, func (through `src/error_stack.c:149-160`) -/
  | .ccs_error_stack_push => [.obj 0 .errorStack]
  /- `src/evaluation.c:320-328`: evaluation, is_valid_ret (through `src/objective_space.c:460-472`, `src/objective_space.c:436-458`) -/
  | .ccs_evaluation_check => [.obj 0 .evaluation, .may, .write 1, .may]
  /- `src/evaluation.c:392-408`: evaluation, other_evaluation, cmp_ret -/
  | .ccs_evaluation_cmp => [.obj 0 .evaluation, .obj 1 .evaluation, .ptr 2, .may]
  /- `src/evaluation.c:425-487`: evaluation, other_evaluation, result_ret (through `src/objective_space.c:554-589`) -/
  | .ccs_evaluation_compare => [.obj 0 .evaluation, .obj 1 .evaluation, .ptr 2, .may, .write 2, .may]
  /- `src/evaluation.c:239-248`: evaluation, configuration_ret -/
  | .ccs_evaluation_get_configuration => [.obj 0 .evaluation, .ptr 1, .write 1]
  /- `src/evaluation.c:227-237`: evaluation, objective_space_ret (through `src/binding_internal.h:30-36`) -/
  | .ccs_evaluation_get_objective_space => [.obj 0 .evaluation, .ptr 1, .write 1]
  /- `src/evaluation.c:330-346`: evaluation, index, value_ret (through `src/objective_space.c:536-552`, `src/expression.c:1579-1591`) -/
  | .ccs_evaluation_get_objective_value => [.obj 0 .evaluation, .ptr 2, .may]
  /- `src/evaluation.c:348-381`: evaluation, num_values, values, num_values_ret (through `src/objective_space.c:554-589`) -/
  | .ccs_evaluation_get_objective_values => [.obj 0 .evaluation, .ary 2 1, .some [2, 3], .may]
  /- `src/evaluation.c:250-259`: evaluation, result_ret -/
  | .ccs_evaluation_get_result => [.obj 0 .evaluation, .ptr 1, .write 1]
  /- `src/evaluation.c:271-281`: evaluation, index, value_ret (through `src/binding_internal.h:38-50`) -/
  | .ccs_evaluation_get_value => [.obj 0 .evaluation, .ptr 2, .may, .write 2]
  /- `src/evaluation.c:308-318`: evaluation, name, value_ret (through `src/binding_internal.h:111-123`, `src/context.c:54-64`, `src/context_internal.h:103-118`, `src/binding_internal.h:38-50`) -/
  | .ccs_evaluation_get_value_by_name => [.obj 0 .evaluation, .ptr 1, .may, .ptr 2, .may, .write 2]
  /- `src/evaluation.c:295-306`: evaluation, num_values, values, num_values_ret (through `src/binding_internal.h:65-87`) -/
  | .ccs_evaluation_get_values => [.obj 0 .evaluation, .ary 2 1, .some [3, 2], .may]
  /- `src/evaluation.c:383-390`: evaluation, hash_ret -/
  | .ccs_evaluation_hash => [.obj 0 .evaluation, .may, .write 1]
  /- `src/evaluation.c:261-269`: evaluation, result -/
  | .ccs_evaluation_set_result => [.obj 0 .evaluation]
  /- `src/evaluation.c:283-293`: evaluation, index, value (through `src/binding_internal.h:52-63`) -/
  | .ccs_evaluation_set_value => [.obj 0 .evaluation, .may]
  /- `src/expression.c:1781-1812`: expression, context (through `src/expression.c:1698-1711`) -/
  | .ccs_expression_check_context => [.obj 0 .expression, .may]
  /- `src/expression.c:1579-1591`: expression, context, values, result_ret -/
  | .ccs_expression_eval => [.obj 0 .expression, .ptr 3, .may]
  /- `src/expression.c:1602-1624`: expression, num_nodes, nodes, num_nodes_ret -/
  | .ccs_expression_get_nodes => [.obj 0 .expression, .ary 2 1, .some [3, 2], .may]
  /- `src/expression.c:1593-1600`: expression, num_nodes_ret -/
  | .ccs_expression_get_num_nodes => [.obj 0 .expression, .ptr 1, .write 1]
  /- `src/expression.c:1728-1779`: expression, num_parameters, parameters, num_parameters_ret (through `src/expression.c:1698-1711`) -/
  | .ccs_expression_get_parameters => [.obj 0 .expression, .ary 2 1, .some [2, 3], .may]
  /- `src/expression.c:1649-1658`: expression, type_ret -/
  | .ccs_expression_get_type => [.obj 0 .expression, .ptr 1, .write 1]
  /- `src/expression.c:1626-1647`: expression, context, values, index, result (through `src/expression.c:211-227`, `src/expression.c:1579-1591`) -/
  | .ccs_expression_list_eval_node => [.obj 0 .expression, .ptr 4, .may, .write 4]
  /- `src/features.c:199-206`: features, is_valid_ret (through `src/features_space.c:345-360`, `src/features_space.c:321-343`) -/
  | .ccs_features_check => [.obj 0 .features, .may, .write 1, .may]
  /- `src/features.c:217-228`: features, other_features, cmp_ret -/
  | .ccs_features_cmp => [.obj 0 .features, .obj 1 .features, .may]
  /- `src/features_evaluation.c:361-371`: evaluation, is_valid_ret (through `src/objective_space.c:460-472`, `src/objective_space.c:436-458`) -/
  | .ccs_features_evaluation_check => [.obj 0 .featuresEvaluation, .may, .write 1, .may]
  /- `src/features_evaluation.c:452-469`: evaluation, other_evaluation, cmp_ret -/
  | .ccs_features_evaluation_cmp => [.obj 0 .featuresEvaluation, .obj 1 .featuresEvaluation, .ptr 2, .may]
  /- `src/features_evaluation.c:472-541`: evaluation, other_evaluation, result_ret (through `src/objective_space.c:554-589`, `src/features.c:217-228`) -/
  | .ccs_features_evaluation_compare => [.obj 0 .featuresEvaluation, .obj 1 .featuresEvaluation, .ptr 2, .may, .write 2, .may]
  /- `src/features_evaluation.c:269-278`: evaluation, configuration_ret -/
  | .ccs_features_evaluation_get_configuration => [.obj 0 .featuresEvaluation, .ptr 1, .write 1]
  /- `src/features_evaluation.c:280-289`: evaluation, features_ret -/
  | .ccs_features_evaluation_get_features => [.obj 0 .featuresEvaluation, .ptr 1, .write 1]
  /- `src/features_evaluation.c:257-267`: evaluation, objective_space_ret (through `src/binding_internal.h:30-36`) -/
  | .ccs_features_evaluation_get_objective_space => [.obj 0 .featuresEvaluation, .ptr 1, .write 1]
  /- `src/features_evaluation.c:373-389`: evaluation, index, value_ret (through `src/objective_space.c:536-552`, `src/expression.c:1579-1591`) -/
  | .ccs_features_evaluation_get_objective_value => [.obj 0 .featuresEvaluation, .ptr 2, .may]
  /- `src/features_evaluation.c:391-424`: evaluation, num_values, values, num_values_ret (through `src/objective_space.c:554-589`) -/
  | .ccs_features_evaluation_get_objective_values => [.obj 0 .featuresEvaluation, .ary 2 1, .some [2, 3], .may]
  /- `src/features_evaluation.c:291-300`: evaluation, result_ret -/
  | .ccs_features_evaluation_get_result => [.obj 0 .featuresEvaluation, .ptr 1, .write 1]
  /- `src/features_evaluation.c:312-322`: evaluation, index, value_ret (through `src/binding_internal.h:38-50`) -/
  | .ccs_features_evaluation_get_value => [.obj 0 .featuresEvaluation, .ptr 2, .may, .write 2]
  /- `src/features_evaluation.c:349-359`: evaluation, name, value_ret (through `src/binding_internal.h:111-123`, `src/context.c:54-64`, `src/context_internal.h:103-118`, `src/binding_internal.h:38-50`) -/
  | .ccs_features_evaluation_get_value_by_name => [.obj 0 .featuresEvaluation, .ptr 1, .may, .ptr 2, .may, .write 2]
  /- `src/features_evaluation.c:336-347`: evaluation, num_values, values, num_values_ret (through `src/binding_internal.h:65-87`) -/
  | .ccs_features_evaluation_get_values => [.obj 0 .featuresEvaluation, .ary 2 1, .some [3, 2], .may]
  /- `src/features_evaluation.c:440-450`: evaluation, hash_ret -/
  | .ccs_features_evaluation_hash => [.obj 0 .featuresEvaluation, .may, .write 1]
  /- `src/features_evaluation.c:302-310`: evaluation, result -/
  | .ccs_features_evaluation_set_result => [.obj 0 .featuresEvaluation]
  /- `src/features_evaluation.c:324-334`: evaluation, index, value (through `src/binding_internal.h:52-63`) -/
  | .ccs_features_evaluation_set_value => [.obj 0 .featuresEvaluation, .may]
  /- `src/features.c:142-151`: features, features_space_ret (through `src/binding_internal.h:30-36`) -/
  | .ccs_features_get_features_space => [.obj 0 .features, .ptr 1, .write 1]
  /- `src/features.c:153-163`: features, index, value_ret (through `src/binding_internal.h:38-50`) -/
  | .ccs_features_get_value => [.obj 0 .features, .ptr 2, .may, .write 2]
  /- `src/features.c:187-197`: features, name, value_ret (through `src/binding_internal.h:111-123`, `src/context.c:54-64`, `src/context_internal.h:103-118`, `src/binding_internal.h:38-50`) -/
  | .ccs_features_get_value_by_name => [.obj 0 .features, .ptr 1, .may, .ptr 2, .may, .write 2]
  /- `src/features.c:174-185`: features, num_values, values, num_values_ret (through `src/binding_internal.h:65-87`) -/
  | .ccs_features_get_values => [.obj 0 .features, .ary 2 1, .some [3, 2], .may]
  /- `src/features.c:208-215`: features, hash_ret -/
  | .ccs_features_hash => [.obj 0 .features, .ptr 1, .write 1]
  /- `src/features.c:165-172`: features, index, value (through `src/binding_internal.h:52-63`) -/
  | .ccs_features_set_value => [.obj 0 .features, .may]
  /- `src/features_space.c:150-202`: features_space, parameter (through `src/parameter.c:31-38`, `src/cconfigspace.c:44-51`) -/
  | .ccs_features_space_add_parameter => [.obj 0 .featuresSpace, .obj 1 .parameter, .may]
  /- `src/features_space.c:206-218`: features_space, num_parameters, parameters -/
  | .ccs_features_space_add_parameters => [.obj 0 .featuresSpace, .ary 2 1, .may]
  /- `src/features_space.c:345-360`: features_space, features, is_valid_ret (through `src/features_space.c:321-343`) -/
  | .ccs_features_space_check_features => [.obj 0 .featuresSpace, .obj 1 .features, .may, .write 2, .may]
  /- `src/features_space.c:362-374`: features_space, num_values, values, is_valid_ret (through `src/features_space.c:321-343`) -/
  | .ccs_features_space_check_features_values => [.obj 0 .configurationSpace, .ary 2 1, .use 0 [.featuresSpace], .may, .write 3]
  /- `src/features_space.c:125-134`: features_space, name_ret (through `src/context_internal.h:169-175`) -/
  | .ccs_features_space_get_name => [.obj 0 .featuresSpace, .ptr 1, .write 1]
  /- `src/features_space.c:220-229`: features_space, num_parameters_ret (through `src/context_internal.h:61-69`) -/
  | .ccs_features_space_get_num_parameters => [.obj 0 .featuresSpace, .ptr 1, .write 1]
  /- `src/features_space.c:231-241`: features_space, index, parameter_ret (through `src/context_internal.h:71-84`) -/
  | .ccs_features_space_get_parameter => [.obj 0 .featuresSpace, .ptr 2, .may, .write 2]
  /- `src/features_space.c:243-253`: features_space, name, parameter_ret (through `src/context_internal.h:86-101`) -/
  | .ccs_features_space_get_parameter_by_name => [.obj 0 .featuresSpace, .ptr 1, .ptr 2, .may, .write 2]
  /- `src/features_space.c:267-278`: features_space, parameter, index_ret (through `src/context_internal.h:44-59`) -/
  | .ccs_features_space_get_parameter_index => [.obj 0 .featuresSpace, .obj 1 .parameter, .ptr 2, .may, .write 2]
  /- `src/features_space.c:255-265`: features_space, name, index_ret (through `src/context_internal.h:103-118`) -/
  | .ccs_features_space_get_parameter_index_by_name => [.obj 0 .featuresSpace, .ptr 1, .ptr 2, .may, .write 2]
  /- `src/features_space.c:280-292`: features_space, num_parameters, parameters, indexes (through `src/context_internal.h:149-167`) -/
  | .ccs_features_space_get_parameter_indexes => [.obj 0 .featuresSpace, .ary 2 1, .ary 3 1, .may]
  /- `src/features_space.c:294-306`: features_space, num_parameters, parameters, num_parameters_ret (through `src/context_internal.h:120-147`) -/
  | .ccs_features_space_get_parameters => [.obj 0 .featuresSpace, .ary 2 1, .some [3, 2], .may]
  /- `src/features_space.c:308-319`: features_space, index, value, value_ret (through `src/context_internal.h:177-194`, `src/parameter.c:83-97`) -/
  | .ccs_features_space_validate_value => [.obj 0 .featuresSpace, .ptr 3, .may]
  /- `src/features_tuner.c:73-98`: tuner, features, num_configurations, configurations, num_configurations_ret (through `src/features_space.c:345-360`, `src/features_space.c:321-343`) -/
  | .ccs_features_tuner_ask => [.obj 0 .featuresTuner, .obj 1 .features, .ary 3 2, .some [3, 4], .may]
  /- `src/features_tuner.c:34-45`: tuner, configuration_space_ret -/
  | .ccs_features_tuner_get_configuration_space => [.obj 0 .featuresTuner, .ptr 1, .write 1]
  /- `src/features_tuner.c:60-71`: tuner, features_space_ret -/
  | .ccs_features_tuner_get_features_space => [.obj 0 .featuresTuner, .ptr 1, .write 1]
  /- `src/features_tuner.c:135-155`: tuner, features, num_evaluations, evaluations, num_evaluations_ret -/
  | .ccs_features_tuner_get_history => [.obj 0 .featuresTuner, .optObj 1 .features, .ary 3 2, .some [3, 4], .may]
  /- `src/features_tuner.c:23-32`: tuner, name_ret -/
  | .ccs_features_tuner_get_name => [.obj 0 .featuresTuner, .ptr 1, .write 1]
  /- `src/features_tuner.c:47-58`: tuner, objective_space_ret -/
  | .ccs_features_tuner_get_objective_space => [.obj 0 .featuresTuner, .ptr 1, .write 1]
  /- `src/features_tuner.c:113-133`: tuner, features, num_evaluations, evaluations, num_evaluations_ret -/
  | .ccs_features_tuner_get_optima => [.obj 0 .featuresTuner, .optObj 1 .features, .ary 3 2, .some [3, 4], .may]
  /- `src/features_tuner.c:10-21`: tuner, type_ret -/
  | .ccs_features_tuner_get_type => [.obj 0 .featuresTuner, .ptr 1, .write 1]
  /- `src/features_tuner.c:157-176`: tuner, features, configuration (through `src/features_space.c:345-360`, `src/features_space.c:321-343`) -/
  | .ccs_features_tuner_suggest => [.obj 0 .featuresTuner, .may, .obj 1 .features, .ptr 2, .may]
  /- `src/features_tuner.c:100-111`: tuner, num_evaluations, evaluations -/
  | .ccs_features_tuner_tell => [.obj 0 .featuresTuner, .ary 2 1, .may]
  /- `src/cconfigspace.c:26-30`:  -/
  | .ccs_fini => []
  /- `src/cconfigspace.c:997-1040`: result, name -/
  | .ccs_get_result_name => [.may, .write 1]
  /- `src/cconfigspace.c:19-24`:  -/
  | .ccs_init => []
  /- `src/interval.c:3-26`: interval, empty_ret -/
  | .ccs_interval_empty => [.ptr 0, .ptr 1]
  /- `src/interval.c:137-170`: interval1, interval2, equal_res -/
  | .ccs_interval_equal => [.ptr 0, .ptr 1, .ptr 2, .may]
  /- `src/interval.c:65-99`: interval1, interval2, interval_res -/
  | .ccs_interval_intersect => [.ptr 0, .ptr 1, .ptr 2, .may]
  /- `src/interval.c:101-135`: interval1, interval2, interval_res -/
  | .ccs_interval_union => [.ptr 0, .ptr 1, .ptr 2, .may]
  /- `src/expression.c:1660-1672`: expression, value_ret -/
  | .ccs_literal_get_value => [.obj 0 .expression, .ptr 1, .may, .write 1]
  /- `src/map.c:367-375`: map -/
  | .ccs_map_clear => [.obj 0 .map]
  /- `src/map.c:269-278`: map, key -/
  | .ccs_map_del => [.obj 0 .map, .may]
  /- `src/map.c:244-253`: map, key, exist -/
  | .ccs_map_exist => [.obj 0 .map, .ptr 2, .write 2]
  /- `src/map.c:255-267`: map, key, value_ret -/
  | .ccs_map_get => [.obj 0 .map, .ptr 2]
  /- `src/map.c:280-304`: map, num_keys, keys, num_keys_ret -/
  | .ccs_map_get_keys => [.obj 0 .map, .ary 2 1, .some [2, 3], .may]
  /- `src/map.c:333-365`: map, num_pairs, keys, values, num_pairs_ret -/
  | .ccs_map_get_pairs => [.obj 0 .map, .ary 2 1, .ary 3 1, .some [2, 4], .may]
  /- `src/map.c:306-331`: map, num_values, values, num_values_ret -/
  | .ccs_map_get_values => [.obj 0 .map, .ary 2 1, .some [2, 3], .may]
  /- `src/map.c:196-242`: map, key, value (through `src/map.c:171-180`) -/
  | .ccs_map_set => [.obj 0 .map, .may]
  /- `src/distribution_mixture.c:461-488`: distribution, num_distributions, distributions, num_distributions_ret -/
  | .ccs_mixture_distribution_get_distributions => [.obj 0 .distribution, .may, .ary 2 1, .some [2, 3], .may]
  /- `src/distribution_mixture.c:448-459`: distribution, num_distributions_ret -/
  | .ccs_mixture_distribution_get_num_distributions => [.obj 0 .distribution, .may, .ptr 1, .write 1]
  /- `src/distribution_mixture.c:490-515`: distribution, num_weights, weights, num_weights_ret -/
  | .ccs_mixture_distribution_get_weights => [.obj 0 .distribution, .may, .ary 2 1, .some [2, 3], .may]
  /- `src/distribution_multivariate.c:370-398`: distribution, num_distributions, distributions, num_distributions_ret -/
  | .ccs_multivariate_distribution_get_distributions => [.obj 0 .distribution, .may, .ary 2 1, .some [2, 3], .may]
  /- `src/distribution_multivariate.c:356-368`: distribution, num_distributions_ret -/
  | .ccs_multivariate_distribution_get_num_distributions => [.obj 0 .distribution, .may, .ptr 1, .write 1]
  /- `src/distribution_normal.c:589-613`: distribution, mu_ret, sigma_ret, scale_type_ret, quantization_ret -/
  | .ccs_normal_distribution_get_properties => [.obj 0 .distribution, .may, .some [1, 2, 3, 4]]
  /- `src/parameter_numerical.c:347-370`: parameter, data_type_ret, lower_ret, upper_ret, quantization_ret -/
  | .ccs_numerical_parameter_get_properties => [.obj 0 .parameter, .may, .some [1, 2, 3, 4]]
  /- `src/cconfigspace.c:949-990`: object_ret, format, operation, ... -/
  | .ccs_object_deserialize => [.ptr 0, .may]
  /- `src/cconfigspace.c:84-92`: object, refcount_ret -/
  | .ccs_object_get_refcount => [.given 0, .ptr 1, .write 1]
  /- `src/cconfigspace.c:74-82`: object, type_ret -/
  | .ccs_object_get_type => [.given 0, .ptr 1, .write 1]
  /- `src/cconfigspace.c:122-130`: object, user_data_ret -/
  | .ccs_object_get_user_data => [.given 0, .ptr 1, .write 1]
  /- `src/cconfigspace.c:469-516`: object, format, operation, ... -/
  | .ccs_object_serialize => [.given 0, .may]
  /- `src/cconfigspace.c:97-111`: object, callback, user_data -/
  | .ccs_object_set_destroy_callback => [.given 0, .ptr 1]
  /- `src/cconfigspace.c:132-143`: object, callback, user_data -/
  | .ccs_object_set_serialize_callback => [.given 0]
  /- `src/cconfigspace.c:113-120`: object, user_data -/
  | .ccs_object_set_user_data => [.given 0]
  /- `src/objective_space.c:494-509`: objective_space, expression, type (through `src/expression.c:1781-1812`, `src/expression.c:1698-1711`, `src/cconfigspace.c:44-51`) -/
  | .ccs_objective_space_add_objective => [.obj 0 .objectiveSpace, .obj 1 .expression, .may]
  /- `src/objective_space.c:511-532`: objective_space, num_objectives, expressions, types -/
  | .ccs_objective_space_add_objectives => [.obj 0 .objectiveSpace, .ary 2 1, .ary 3 1, .may]
  /- `src/objective_space.c:277-330`: objective_space, parameter (through `src/parameter.c:31-38`, `src/cconfigspace.c:44-51`) -/
  | .ccs_objective_space_add_parameter => [.obj 0 .objectiveSpace, .obj 1 .parameter, .may]
  /- `src/objective_space.c:334-346`: objective_space, num_parameters, parameters -/
  | .ccs_objective_space_add_parameters => [.obj 0 .objectiveSpace, .ary 2 1, .may]
  /- `src/objective_space.c:460-472`: objective_space, num_values, values, is_valid_ret (through `src/objective_space.c:436-458`) -/
  | .ccs_objective_space_check_evaluation_values => [.obj 0 .objectiveSpace, .ary 2 1, .may, .write 3, .may]
  /- `src/objective_space.c:252-261`: objective_space, name_ret (through `src/context_internal.h:169-175`) -/
  | .ccs_objective_space_get_name => [.obj 0 .objectiveSpace, .ptr 1, .write 1]
  /- `src/objective_space.c:348-357`: objective_space, num_parameters_ret (through `src/context_internal.h:61-69`) -/
  | .ccs_objective_space_get_num_parameters => [.obj 0 .objectiveSpace, .ptr 1, .write 1]
  /- `src/objective_space.c:536-552`: objective_space, index, expression_ret, type_ret -/
  | .ccs_objective_space_get_objective => [.obj 0 .objectiveSpace, .ptr 2, .ptr 3, .may, .write 2, .write 3]
  /- `src/objective_space.c:554-589`: objective_space, num_objectives, expressions, types, num_objectives_ret -/
  | .ccs_objective_space_get_objectives => [.obj 0 .objectiveSpace, .ary 2 1, .ary 3 1, .some [2, 4], .may]
  /- `src/objective_space.c:359-369`: objective_space, index, parameter_ret (through `src/context_internal.h:71-84`) -/
  | .ccs_objective_space_get_parameter => [.obj 0 .objectiveSpace, .ptr 2, .may, .write 2]
  /- `src/objective_space.c:371-381`: objective_space, name, parameter_ret (through `src/context_internal.h:86-101`) -/
  | .ccs_objective_space_get_parameter_by_name => [.obj 0 .objectiveSpace, .ptr 1, .ptr 2, .may, .write 2]
  /- `src/objective_space.c:395-406`: objective_space, parameter, index_ret (through `src/context_internal.h:44-59`) -/
  | .ccs_objective_space_get_parameter_index => [.obj 0 .objectiveSpace, .obj 1 .parameter, .ptr 2, .may, .write 2]
  /- `src/objective_space.c:383-393`: objective_space, name, index_ret (through `src/context_internal.h:103-118`) -/
  | .ccs_objective_space_get_parameter_index_by_name => [.obj 0 .objectiveSpace, .ptr 1, .ptr 2, .may, .write 2]
  /- `src/objective_space.c:408-420`: objective_space, num_parameters, parameters, indexes (through `src/context_internal.h:149-167`) -/
  | .ccs_objective_space_get_parameter_indexes => [.obj 0 .objectiveSpace, .ary 2 1, .ary 3 1, .may]
  /- `src/objective_space.c:422-434`: objective_space, num_parameters, parameters, num_parameters_ret (through `src/context_internal.h:120-147`) -/
  | .ccs_objective_space_get_parameters => [.obj 0 .objectiveSpace, .ary 2 1, .some [3, 2], .may]
  /- `src/objective_space.c:474-485`: objective_space, index, value, value_ret (through `src/context_internal.h:177-194`, `src/parameter.c:83-97`) -/
  | .ccs_objective_space_validate_value => [.obj 0 .objectiveSpace, .ptr 3, .may]
  /- `src/parameter_categorical.c:445-467`: parameter, value1, value2, comp_ret -/
  | .ccs_ordinal_parameter_compare_values => [.obj 0 .parameter, .may, .ptr 3, .may]
  /- `src/parameter_categorical.c:483-495`: parameter, num_possible_values, possible_values, num_possible_values_ret (through `src/parameter_categorical.c:389-415`) -/
  | .ccs_ordinal_parameter_get_values => [.obj 0 .parameter, .may, .ary 2 1, .some [2, 3], .may]
  /- `src/parameter.c:53-65`: parameter, value, result_ret -/
  | .ccs_parameter_check_value => [.obj 0 .parameter, .ptr 2, .may]
  /- `src/parameter.c:67-81`: parameter, num_values, values, results -/
  | .ccs_parameter_check_values => [.obj 0 .parameter, .ary 2 1, .ary 3 1, .may]
  /- `src/parameter.c:154-171`: parameter, oversampling, num_values, values, results -/
  | .ccs_parameter_convert_samples => [.obj 0 .parameter, .ary 3 2, .ary 4 2, .stopZero 2, .may]
  /- `src/parameter.c:40-51`: parameter, distribution_ret -/
  | .ccs_parameter_get_default_distribution => [.obj 0 .parameter, .ptr 1, .may]
  /- `src/parameter.c:19-29`: parameter, value_ret -/
  | .ccs_parameter_get_default_value => [.obj 0 .parameter, .ptr 1, .write 1]
  /- `src/parameter.c:31-38`: parameter, name_ret -/
  | .ccs_parameter_get_name => [.obj 0 .parameter, .ptr 1, .write 1]
  /- `src/parameter.c:10-17`: parameter, type_ret -/
  | .ccs_parameter_get_type => [.obj 0 .parameter, .ptr 1, .write 1]
  /- `src/parameter.c:117-132`: parameter, distribution, rng, value_ret -/
  | .ccs_parameter_sample => [.obj 0 .parameter, .obj 1 .distribution, .obj 2 .rng, .ptr 3, .may]
  /- `src/parameter.c:134-152`: parameter, distribution, rng, num_values, values -/
  | .ccs_parameter_samples => [.obj 0 .parameter, .obj 1 .distribution, .obj 2 .rng, .ary 4 3, .stopZero 3, .may]
  /- `src/parameter.c:173-183`: parameter, interval_ret -/
  | .ccs_parameter_sampling_interval => [.obj 0 .parameter, .ptr 1, .write 1]
  /- `src/parameter.c:83-97`: parameter, value, value_ret, result_ret -/
  | .ccs_parameter_validate_value => [.obj 0 .parameter, .ptr 2, .ptr 3, .may]
  /- `src/parameter.c:99-115`: parameter, num_values, values, values_ret, results -/
  | .ccs_parameter_validate_values => [.obj 0 .parameter, .ary 2 1, .ary 3 1, .ary 4 1, .may]
  /- `src/cconfigspace.c:53-72`: object -/
  | .ccs_release_object => [.given 0, .may]
  /- `src/cconfigspace.c:44-51`: object -/
  | .ccs_retain_object => [.given 0, .may]
  /- `src/rng.c:153-160`: rng, value_ret -/
  | .ccs_rng_get => [.obj 0 .rng, .ptr 1, .write 1]
  /- `src/rng.c:171-178`: rng, gsl_rng_ret -/
  | .ccs_rng_get_gsl_rng => [.obj 0 .rng, .ptr 1, .write 1]
  /- `src/rng.c:137-143`: rng, rng_type_ret -/
  | .ccs_rng_get_type => [.obj 0 .rng, .write 1]
  /- `src/rng.c:189-196`: rng, value_ret -/
  | .ccs_rng_max => [.obj 0 .rng, .ptr 1, .write 1]
  /- `src/rng.c:180-187`: rng, value_ret -/
  | .ccs_rng_min => [.obj 0 .rng, .ptr 1, .write 1]
  /- `src/rng.c:145-151`: rng, seed -/
  | .ccs_rng_set_seed => [.obj 0 .rng]
  /- `src/rng.c:162-169`: rng, value_ret -/
  | .ccs_rng_uniform => [.obj 0 .rng, .ptr 1, .write 1]
  /- `src/distribution_roulette.c:292-316`: distribution, num_areas, areas, num_areas_ret -/
  | .ccs_roulette_distribution_get_areas => [.obj 0 .distribution, .may, .ary 2 1, .some [2, 3], .may]
  /- `src/distribution_roulette.c:279-290`: distribution, num_areas_ret -/
  | .ccs_roulette_distribution_get_num_areas => [.obj 0 .distribution, .may, .ptr 1, .write 1]
  /- `src/error_stack.c:38-46`: error_stack -/
  | .ccs_set_thread_error => [.obj 0 .errorStack]
  /- `src/error_stack.c:172-176`: file, line, func (through `src/error_stack.c:149-160`) -/
  | .ccs_thread_error_stack_push => [.may]
  /- `src/tree_configuration.c:222-234`: configuration, is_valid_ret (through `src/tree_space.c:99-113`) -/
  | .ccs_tree_configuration_check => [.obj 0 .treeConfiguration, .ptr 1, .may]
  /- `src/tree_configuration.c:238-270`: configuration, other_configuration, cmp_ret -/
  | .ccs_tree_configuration_cmp => [.obj 0 .treeConfiguration, .obj 1 .treeConfiguration, .ptr 2, .write 2]
  /- `src/tree_configuration.c:209-220`: configuration, tree_ret (through `src/tree_space.c:66-80`) -/
  | .ccs_tree_configuration_get_node => [.obj 0 .treeConfiguration, .may, .ptr 1, .may]
  /- `src/tree_configuration.c:165-187`: configuration, position_size, position, position_size_ret -/
  | .ccs_tree_configuration_get_position => [.obj 0 .treeConfiguration, .ary 2 1, .some [2, 3], .may]
  /- `src/tree_configuration.c:154-163`: configuration, tree_space_ret -/
  | .ccs_tree_configuration_get_tree_space => [.obj 0 .treeConfiguration, .ptr 1, .write 1]
  /- `src/tree_configuration.c:189-207`: configuration, num_values, values, num_values_ret -/
  | .ccs_tree_configuration_get_values => [.obj 0 .treeConfiguration, .some [2, 3], .may]
  /- `src/tree_configuration.c:273-294`: configuration, hash_ret -/
  | .ccs_tree_configuration_hash => [.obj 0 .treeConfiguration, .ptr 1, .write 1]
  /- `src/tree_evaluation.c:323-333`: evaluation, is_valid_ret (through `src/objective_space.c:460-472`, `src/objective_space.c:436-458`) -/
  | .ccs_tree_evaluation_check => [.obj 0 .treeEvaluation, .may, .write 1, .may]
  /- `src/tree_evaluation.c:398-415`: evaluation, other_evaluation, cmp_ret -/
  | .ccs_tree_evaluation_cmp => [.obj 0 .treeEvaluation, .obj 1 .treeEvaluation, .ptr 2, .may]
  /- `src/tree_evaluation.c:432-494`: evaluation, other_evaluation, result_ret (through `src/objective_space.c:554-589`) -/
  | .ccs_tree_evaluation_compare => [.obj 0 .treeEvaluation, .obj 1 .treeEvaluation, .ptr 2, .may, .write 2, .may]
  /- `src/tree_evaluation.c:242-251`: evaluation, configuration_ret -/
  | .ccs_tree_evaluation_get_configuration => [.obj 0 .treeEvaluation, .ptr 1, .write 1]
  /- `src/tree_evaluation.c:230-240`: evaluation, objective_space_ret (through `src/binding_internal.h:30-36`) -/
  | .ccs_tree_evaluation_get_objective_space => [.obj 0 .treeEvaluation, .ptr 1, .write 1]
  /- `src/tree_evaluation.c:335-351`: evaluation, index, value_ret (through `src/objective_space.c:536-552`, `src/expression.c:1579-1591`) -/
  | .ccs_tree_evaluation_get_objective_value => [.obj 0 .treeEvaluation, .ptr 2, .may]
  /- `src/tree_evaluation.c:353-386`: evaluation, num_values, values, num_values_ret (through `src/objective_space.c:554-589`) -/
  | .ccs_tree_evaluation_get_objective_values => [.obj 0 .treeEvaluation, .ary 2 1, .some [2, 3], .may]
  /- `src/tree_evaluation.c:253-262`: evaluation, result_ret -/
  | .ccs_tree_evaluation_get_result => [.obj 0 .treeEvaluation, .ptr 1, .write 1]
  /- `src/tree_evaluation.c:274-284`: evaluation, index, value_ret (through `src/binding_internal.h:38-50`) -/
  | .ccs_tree_evaluation_get_value => [.obj 0 .treeEvaluation, .ptr 2, .may, .write 2]
  /- `src/tree_evaluation.c:311-321`: evaluation, name, value_ret (through `src/binding_internal.h:111-123`, `src/context.c:54-64`, `src/context_internal.h:103-118`, `src/binding_internal.h:38-50`) -/
  | .ccs_tree_evaluation_get_value_by_name => [.obj 0 .treeEvaluation, .ptr 1, .may, .ptr 2, .may, .write 2]
  /- `src/tree_evaluation.c:298-309`: evaluation, num_values, values, num_values_ret (through `src/binding_internal.h:65-87`) -/
  | .ccs_tree_evaluation_get_values => [.obj 0 .treeEvaluation, .ary 2 1, .some [3, 2], .may]
  /- `src/tree_evaluation.c:388-396`: evaluation, hash_ret -/
  | .ccs_tree_evaluation_hash => [.obj 0 .treeEvaluation, .may, .write 1]
  /- `src/tree_evaluation.c:264-272`: evaluation, result -/
  | .ccs_tree_evaluation_set_result => [.obj 0 .treeEvaluation]
  /- `src/tree_evaluation.c:286-296`: evaluation, index, value (through `src/binding_internal.h:52-63`) -/
  | .ccs_tree_evaluation_set_value => [.obj 0 .treeEvaluation, .may]
  /- `src/tree.c:208-215`: tree, arity_ret -/
  | .ccs_tree_get_arity => [.obj 0 .tree, .ptr 1, .write 1]
  /- `src/tree.c:358-365`: tree, bias_ret -/
  | .ccs_tree_get_bias => [.obj 0 .tree, .ptr 1, .write 1]
  /- `src/tree.c:294-303`: tree, index, child_ret -/
  | .ccs_tree_get_child => [.obj 0 .tree, .ptr 2, .may, .write 2]
  /- `src/tree.c:305-329`: tree, num_children, children, num_children_ret -/
  | .ccs_tree_get_children => [.obj 0 .tree, .ary 2 1, .some [2, 3], .may]
  /- `src/tree.c:506-522`: tree, position_size, position, tree_ret -/
  | .ccs_tree_get_node_at_position => [.obj 0 .tree, .ary 2 1, .ptr 3, .may, .write 3]
  /- `src/tree.c:383-393`: tree, parent_ret, index_ret -/
  | .ccs_tree_get_parent => [.obj 0 .tree, .ptr 1, .write 1]
  /- `src/tree.c:395-427`: tree, position_size, position, position_size_ret -/
  | .ccs_tree_get_position => [.obj 0 .tree, .ary 2 1, .some [2, 3], .may]
  /- `src/tree.c:199-206`: tree, value_ret -/
  | .ccs_tree_get_value => [.obj 0 .tree, .ptr 1, .write 1]
  /- `src/tree.c:429-459`: tree, num_values, values, num_values_ret -/
  | .ccs_tree_get_values => [.obj 0 .tree, .ary 2 1, .some [2, 3], .may]
  /- `src/tree.c:482-504`: tree, position_size, position, num_values, values -/
  | .ccs_tree_get_values_at_position => [.obj 0 .tree, .ary 2 1, .ary 4 3, .nonzero 3, .may]
  /- `src/tree.c:331-339`: tree, weight_ret -/
  | .ccs_tree_get_weight => [.obj 0 .tree, .ptr 1, .write 1]
  /- `src/tree.c:461-480`: tree, position_size, position, is_valid_ret -/
  | .ccs_tree_position_is_valid => [.obj 0 .tree, .ary 2 1, .ptr 3, .write 3]
  /- `src/tree.c:524-533`: tree, rng, index_ret (through `src/tree_internal.h:31-50`, `src/rng.c:171-178`) -/
  | .ccs_tree_sample => [.obj 0 .tree, .obj 1 .rng, .ptr 2, .may]
  /- `src/tree.c:535-548`: tree, rng, num_indices, indices (through `src/tree_internal.h:31-50`, `src/rng.c:171-178`) -/
  | .ccs_tree_samples => [.obj 0 .tree, .obj 1 .rng, .ary 3 2, .may]
  /- `src/tree.c:367-381`: tree, bias (through `src/tree.c:246-259`, `src/tree.c:217-244`) -/
  | .ccs_tree_set_bias => [.obj 0 .tree, .may]
  /- `src/tree.c:261-292`: tree, index, child (through `src/cconfigspace.c:44-51`, `src/tree.c:217-244`) -/
  | .ccs_tree_set_child => [.obj 0 .tree, .obj 2 .tree, .may]
  /- `src/tree.c:341-356`: tree, weight (through `src/tree.c:217-244`) -/
  | .ccs_tree_set_weight => [.obj 0 .tree, .may]
  /- `src/tree_space.c:115-132`: tree_space, configuration, is_valid_ret -/
  | .ccs_tree_space_check_configuration => [.obj 0 .treeSpace, .obj 1 .treeConfiguration, .may, .ptr 2, .may]
  /- `src/tree_space.c:99-113`: tree_space, position_size, position, is_valid_ret -/
  | .ccs_tree_space_check_position => [.obj 0 .treeSpace, .ary 2 1, .ptr 3, .may]
  /- `src/tree_space.c:24-31`: tree_space, name_ret -/
  | .ccs_tree_space_get_name => [.obj 0 .treeSpace, .ptr 1, .write 1]
  /- `src/tree_space.c:66-80`: tree_space, position_size, position, tree_ret -/
  | .ccs_tree_space_get_node_at_position => [.obj 0 .treeSpace, .ary 2 1, .ptr 3, .may]
  /- `src/tree_space.c:46-53`: tree_space, rng_ret -/
  | .ccs_tree_space_get_rng => [.obj 0 .treeSpace, .ptr 1, .write 1]
  /- `src/tree_space.c:55-62`: tree_space, tree_ret -/
  | .ccs_tree_space_get_tree => [.obj 0 .treeSpace, .ptr 1, .write 1]
  /- `src/tree_space.c:13-22`: tree_space, type_ret -/
  | .ccs_tree_space_get_type => [.obj 0 .treeSpace, .ptr 1, .write 1]
  /- `src/tree_space.c:82-97`: tree_space, position_size, position, num_values, values -/
  | .ccs_tree_space_get_values_at_position => [.obj 0 .treeSpace, .ary 2 1, .ary 4 3, .nonzero 3, .may]
  /- `src/tree_space.c:189-198`: tree_space, configuration_ret (through `src/tree_space.c:142-187`) -/
  | .ccs_tree_space_sample => [.obj 0 .treeSpace, .ptr 1, .may]
  /- `src/tree_space.c:200-213`: tree_space, num_configurations, configurations (through `src/tree_space.c:142-187`) -/
  | .ccs_tree_space_samples => [.obj 0 .treeSpace, .ary 2 1, .may]
  /- `src/tree_space.c:33-44`: tree_space, rng (through `src/cconfigspace.c:44-51`, `src/cconfigspace.c:53-72`) -/
  | .ccs_tree_space_set_rng => [.obj 0 .treeSpace, .obj 1 .rng, .may]
  /- `src/tree_tuner.c:58-75`: tuner, num_configurations, configurations, num_configurations_ret -/
  | .ccs_tree_tuner_ask => [.obj 0 .treeTuner, .ary 2 1, .some [2, 3], .may]
  /- `src/tree_tuner.c:110-126`: tuner, num_evaluations, evaluations, num_evaluations_ret -/
  | .ccs_tree_tuner_get_history => [.obj 0 .treeTuner, .ary 2 1, .some [2, 3], .may]
  /- `src/tree_tuner.c:21-30`: tuner, name_ret -/
  | .ccs_tree_tuner_get_name => [.obj 0 .treeTuner, .ptr 1, .write 1]
  /- `src/tree_tuner.c:45-56`: tuner, objective_space_ret -/
  | .ccs_tree_tuner_get_objective_space => [.obj 0 .treeTuner, .ptr 1, .write 1]
  /- `src/tree_tuner.c:92-108`: tuner, num_evaluations, evaluations, num_evaluations_ret -/
  | .ccs_tree_tuner_get_optima => [.obj 0 .treeTuner, .ary 2 1, .some [2, 3], .may]
  /- `src/tree_tuner.c:32-43`: tuner, tree_space_ret -/
  | .ccs_tree_tuner_get_tree_space => [.obj 0 .treeTuner, .ptr 1, .write 1]
  /- `src/tree_tuner.c:10-19`: tuner, type_ret -/
  | .ccs_tree_tuner_get_type => [.obj 0 .treeTuner, .ptr 1, .write 1]
  /- `src/tree_tuner.c:128-139`: tuner, configuration -/
  | .ccs_tree_tuner_suggest => [.obj 0 .treeTuner, .may, .ptr 1, .may]
  /- `src/tree_tuner.c:77-90`: tuner, num_evaluations, evaluations -/
  | .ccs_tree_tuner_tell => [.obj 0 .treeTuner, .ary 2 1, .may]
  /- `src/tuner.c:54-71`: tuner, num_configurations, configurations, num_configurations_ret -/
  | .ccs_tuner_ask => [.obj 0 .tuner, .ary 2 1, .some [2, 3], .may]
  /- `src/tuner.c:30-40`: tuner, configuration_space_ret -/
  | .ccs_tuner_get_configuration_space => [.obj 0 .tuner, .ptr 1, .write 1]
  /- `src/tuner.c:106-122`: tuner, num_evaluations, evaluations, num_evaluations_ret -/
  | .ccs_tuner_get_history => [.obj 0 .tuner, .ary 2 1, .some [2, 3], .may]
  /- `src/tuner.c:20-28`: tuner, name_ret -/
  | .ccs_tuner_get_name => [.obj 0 .tuner, .ptr 1, .write 1]
  /- `src/tuner.c:42-52`: tuner, objective_space_ret -/
  | .ccs_tuner_get_objective_space => [.obj 0 .tuner, .ptr 1, .write 1]
  /- `src/tuner.c:88-104`: tuner, num_evaluations, evaluations, num_evaluations_ret -/
  | .ccs_tuner_get_optima => [.obj 0 .tuner, .ary 2 1, .some [2, 3], .may]
  /- `src/tuner.c:10-18`: tuner, type_ret -/
  | .ccs_tuner_get_type => [.obj 0 .tuner, .ptr 1, .write 1]
  /- `src/tuner.c:124-133`: tuner, configuration -/
  | .ccs_tuner_suggest => [.obj 0 .tuner, .may, .ptr 1, .may]
  /- `src/tuner.c:73-86`: tuner, num_evaluations, evaluations -/
  | .ccs_tuner_tell => [.obj 0 .tuner, .ary 2 1, .may]
  /- `src/distribution_uniform.c:465-490`: distribution, lower_ret, upper_ret, scale_type_ret, quantization_ret -/
  | .ccs_uniform_distribution_get_properties => [.obj 0 .distribution, .may, .some [1, 2, 3, 4]]
  /- `src/features_tuner_user_defined.c:388-402`: tuner, tuner_data_ret -/
  | .ccs_user_defined_features_tuner_get_tuner_data => [.obj 0 .featuresTuner, .ptr 1, .may, .write 1]
  /- `src/tree_tuner_user_defined.c:360-374`: tuner, tuner_data_ret -/
  | .ccs_user_defined_tree_tuner_get_tuner_data => [.obj 0 .treeTuner, .ptr 1, .may, .write 1]
  /- `src/tuner_user_defined.c:355-367`: tuner, tuner_data_ret -/
  | .ccs_user_defined_tuner_get_tuner_data => [.obj 0 .tuner, .ptr 1, .may, .write 1]
  /- `src/expression.c:1674-1688`: expression, parameter_ret -/
  | .ccs_variable_get_parameter => [.obj 0 .expression, .ptr 1, .may, .write 1]

/-- A call. -/
def call (f : Fn) (args : Args) (o : List (Option Err)) : Out Unit := run args (steps f) o

end CCS.Api
