/-
The objects of the Python and Ruby bindings that stand for objects of the library, and the references they hold,
`bindings/python/cconfigspace/*.py`, `bindings/ruby/lib/cconfigspace/*.rb`.

A wrapper releases its object when it is collected (`bindings/python/cconfigspace/base.py:455-458`,
`bindings/ruby/lib/cconfigspace/base.rb:594-602,632-641`); when it is made it retains it or not.  The functions of the library either give
a reference to their caller, or lend one.

Simplifications: one object of the library is followed; wrappers of an object that is being destroyed, which hold nothing
(`bindings/python/cconfigspace/base.py:519-521`), are left out, as are the wrappers handed to callbacks (made by `from_handle` of a lent
handle); calls that fail make no wrapper.
-/
import Verif.Model.Api

namespace CCS.Py
open CCS.Api (Fn Kind)

/-- What the caller gets with a handle: a reference of its own, or the use of one that belongs to somebody else. -/
inductive Share where
  | given
  | lent
  deriving DecidableEq, Repr

/-- The functions that return handles, with the share of the caller, and the kind of the object (`none`: any kind).
The share is that of the cited code: creation, `ccs_object_deserialize`, default configurations and distributions, samples and
suggestions are new references; other getters copy a handle without retaining it. -/
def gives : Fn → Option (Share × Option Kind)
  /- src/binding.c:17-22 -/
  | .ccs_binding_get_context => some (.lent, none)
  /- src/configuration.c:143-152 -/
  | .ccs_configuration_get_configuration_space => some (.lent, some .configurationSpace)
  /- src/configuration_space.c:1338-1352 -/
  | .ccs_configuration_space_get_condition => some (.lent, some .expression)
  /- src/configuration_space.c:1355-1383 -/
  | .ccs_configuration_space_get_conditions => some (.lent, some .expression)
  /- src/configuration_space.c:861-888 -/
  | .ccs_configuration_space_get_default_configuration => some (.given, some .configuration)
  /- src/configuration_space.c:1442-1455 -/
  | .ccs_configuration_space_get_forbidden_clause => some (.lent, some .expression)
  /- src/configuration_space.c:1458-1486 -/
  | .ccs_configuration_space_get_forbidden_clauses => some (.lent, some .expression)
  /- src/configuration_space.c:746-755 -/
  | .ccs_configuration_space_get_parameter => some (.lent, some .parameter)
  /- src/configuration_space.c:758-767 -/
  | .ccs_configuration_space_get_parameter_by_name => some (.lent, some .parameter)
  /- src/configuration_space.c:694-714 -/
  | .ccs_configuration_space_get_parameter_distribution => some (.lent, some .distribution)
  /- src/configuration_space.c:808-819 -/
  | .ccs_configuration_space_get_parameters => some (.lent, some .parameter)
  /- src/configuration_space.c:404-412 -/
  | .ccs_configuration_space_get_rng => some (.lent, some .rng)
  /- src/configuration_space.c:1052-1079 -/
  | .ccs_configuration_space_sample => some (.given, some .configuration)
  /- src/configuration_space.c:1082-1122 -/
  | .ccs_configuration_space_samples => some (.given, some .configuration)
  /- src/context.c:32-40 -/
  | .ccs_context_get_parameter => some (.lent, some .parameter)
  /- src/context.c:43-52 -/
  | .ccs_context_get_parameter_by_name => some (.lent, some .parameter)
  /- src/context.c:67-77 -/
  | .ccs_context_get_parameters => some (.lent, some .parameter)
  /- src/expression.c:1556-1567 -/
  | .ccs_create_binary_expression => some (.given, some .expression)
  /- src/parameter_categorical.c:418-429 -/
  | .ccs_create_categorical_parameter => some (.given, some .parameter)
  /- src/configuration.c:87-140 -/
  | .ccs_create_configuration => some (.given, some .configuration)
  /- src/configuration_space.c:331-376 -/
  | .ccs_create_configuration_space => some (.given, some .configurationSpace)
  /- src/parameter_categorical.c:498-509 -/
  | .ccs_create_discrete_parameter => some (.given, some .parameter)
  /- src/tree_space_dynamic.c:251-299 -/
  | .ccs_create_dynamic_tree_space => some (.given, some .treeSpace)
  /- src/error_stack.c:118-130 -/
  | .ccs_create_error_stack => some (.given, some .errorStack)
  /- src/evaluation.c:167-225 -/
  | .ccs_create_evaluation => some (.given, some .evaluation)
  /- src/expression.c:1461-1553 -/
  | .ccs_create_expression => some (.given, some .expression)
  /- src/features.c:87-140 -/
  | .ccs_create_features => some (.given, some .features)
  /- src/features_evaluation.c:186-255 -/
  | .ccs_create_features_evaluation => some (.given, some .featuresEvaluation)
  /- src/features_space.c:91-123 -/
  | .ccs_create_features_space => some (.given, some .featuresSpace)
  /- src/parameter.c:201-213 -/
  | .ccs_create_float_numerical_parameter => some (.given, some .parameter)
  /- src/parameter.c:186-198 -/
  | .ccs_create_int_numerical_parameter => some (.given, some .parameter)
  /- src/expression.c:1387-1426 -/
  | .ccs_create_literal => some (.given, some .expression)
  /- src/map.c:148-161 -/
  | .ccs_create_map => some (.given, some .map)
  /- src/distribution_mixture.c:183-336 -/
  | .ccs_create_mixture_distribution => some (.given, some .distribution)
  /- src/distribution_multivariate.c:178-274 -/
  | .ccs_create_multivariate_distribution => some (.given, some .distribution)
  /- src/distribution_normal.c:531-585 -/
  | .ccs_create_normal_distribution => some (.given, some .distribution)
  /- src/distribution.c:326-337 -/
  | .ccs_create_normal_float_distribution => some (.given, some .distribution)
  /- src/distribution.c:340-351 -/
  | .ccs_create_normal_int_distribution => some (.given, some .distribution)
  /- src/parameter_numerical.c:275-345 -/
  | .ccs_create_numerical_parameter => some (.given, some .parameter)
  /- src/objective_space.c:215-250 -/
  | .ccs_create_objective_space => some (.given, some .objectiveSpace)
  /- src/parameter_categorical.c:470-481 -/
  | .ccs_create_ordinal_parameter => some (.given, some .parameter)
  /- src/features_tuner_random.c:453-516 -/
  | .ccs_create_random_features_tuner => some (.given, some .featuresTuner)
  /- src/tree_tuner_random.c:353-408 -/
  | .ccs_create_random_tree_tuner => some (.given, some .treeTuner)
  /- src/tuner_random.c:346-402 -/
  | .ccs_create_random_tuner => some (.given, some .tuner)
  /- src/rng.c:132-135 -/
  | .ccs_create_rng => some (.given, some .rng)
  /- src/rng.c:105-129 -/
  | .ccs_create_rng_with_type => some (.given, some .rng)
  /- src/distribution_roulette.c:234-277 -/
  | .ccs_create_roulette_distribution => some (.given, some .distribution)
  /- src/tree_space_static.c:172-213 -/
  | .ccs_create_static_tree_space => some (.given, some .treeSpace)
  /- src/parameter_string.c:234-261 -/
  | .ccs_create_string_parameter => some (.given, some .parameter)
  /- src/tree.c:141-197 -/
  | .ccs_create_tree => some (.given, some .tree)
  /- src/tree_configuration.c:117-152 -/
  | .ccs_create_tree_configuration => some (.given, some .treeConfiguration)
  /- src/tree_evaluation.c:170-228 -/
  | .ccs_create_tree_evaluation => some (.given, some .treeEvaluation)
  /- src/expression.c:1570-1577 -/
  | .ccs_create_unary_expression => some (.given, some .expression)
  /- src/distribution_uniform.c:377-463 -/
  | .ccs_create_uniform_distribution => some (.given, some .distribution)
  /- src/distribution.c:354-365 -/
  | .ccs_create_uniform_float_distribution => some (.given, some .distribution)
  /- src/distribution.c:368-379 -/
  | .ccs_create_uniform_int_distribution => some (.given, some .distribution)
  /- src/features_tuner_user_defined.c:324-386 -/
  | .ccs_create_user_defined_features_tuner => some (.given, some .featuresTuner)
  /- src/tree_tuner_user_defined.c:305-358 -/
  | .ccs_create_user_defined_tree_tuner => some (.given, some .treeTuner)
  /- src/tuner_user_defined.c:299-353 -/
  | .ccs_create_user_defined_tuner => some (.given, some .tuner)
  /- src/expression.c:1429-1458 -/
  | .ccs_create_variable => some (.given, some .expression)
  /- src/evaluation.c:240-248 -/
  | .ccs_evaluation_get_configuration => some (.lent, some .configuration)
  /- src/evaluation.c:228-237 -/
  | .ccs_evaluation_get_objective_space => some (.lent, some .objectiveSpace)
  /- src/expression.c:1603-1624 -/
  | .ccs_expression_get_nodes => some (.lent, some .expression)
  /- src/expression.c:1729-1779 -/
  | .ccs_expression_get_parameters => some (.lent, some .parameter)
  /- src/features_evaluation.c:270-278 -/
  | .ccs_features_evaluation_get_configuration => some (.lent, some .configuration)
  /- src/features_evaluation.c:281-289 -/
  | .ccs_features_evaluation_get_features => some (.lent, some .features)
  /- src/features_evaluation.c:258-267 -/
  | .ccs_features_evaluation_get_objective_space => some (.lent, some .objectiveSpace)
  /- src/features.c:143-151 -/
  | .ccs_features_get_features_space => some (.lent, some .featuresSpace)
  /- src/features_space.c:232-241 -/
  | .ccs_features_space_get_parameter => some (.lent, some .parameter)
  /- src/features_space.c:244-253 -/
  | .ccs_features_space_get_parameter_by_name => some (.lent, some .parameter)
  /- src/features_space.c:295-306 -/
  | .ccs_features_space_get_parameters => some (.lent, some .parameter)
  /- src/features_tuner.c:74-98 -/
  | .ccs_features_tuner_ask => some (.given, some .configuration)
  /- src/features_tuner.c:35-45 -/
  | .ccs_features_tuner_get_configuration_space => some (.lent, some .configurationSpace)
  /- src/features_tuner.c:61-71 -/
  | .ccs_features_tuner_get_features_space => some (.lent, some .featuresSpace)
  /- src/features_tuner.c:136-155 -/
  | .ccs_features_tuner_get_history => some (.lent, some .featuresEvaluation)
  /- src/features_tuner.c:48-58 -/
  | .ccs_features_tuner_get_objective_space => some (.lent, some .objectiveSpace)
  /- src/features_tuner.c:114-133 -/
  | .ccs_features_tuner_get_optima => some (.lent, some .featuresEvaluation)
  /- src/features_tuner.c:158-176 -/
  | .ccs_features_tuner_suggest => some (.given, some .configuration)
  /- src/distribution_mixture.c:462-488 -/
  | .ccs_mixture_distribution_get_distributions => some (.lent, some .distribution)
  /- src/distribution_multivariate.c:371-398 -/
  | .ccs_multivariate_distribution_get_distributions => some (.lent, some .distribution)
  /- src/cconfigspace.c:950-990 -/
  | .ccs_object_deserialize => some (.given, none)
  /- src/objective_space.c:537-552 -/
  | .ccs_objective_space_get_objective => some (.lent, some .expression)
  /- src/objective_space.c:555-589 -/
  | .ccs_objective_space_get_objectives => some (.lent, some .expression)
  /- src/objective_space.c:360-369 -/
  | .ccs_objective_space_get_parameter => some (.lent, some .parameter)
  /- src/objective_space.c:372-381 -/
  | .ccs_objective_space_get_parameter_by_name => some (.lent, some .parameter)
  /- src/objective_space.c:423-434 -/
  | .ccs_objective_space_get_parameters => some (.lent, some .parameter)
  /- src/parameter.c:41-51 -/
  | .ccs_parameter_get_default_distribution => some (.given, some .distribution)
  /- src/tree_configuration.c:210-220 -/
  | .ccs_tree_configuration_get_node => some (.lent, some .tree)
  /- src/tree_configuration.c:155-163 -/
  | .ccs_tree_configuration_get_tree_space => some (.lent, some .treeSpace)
  /- src/tree_evaluation.c:243-251 -/
  | .ccs_tree_evaluation_get_configuration => some (.lent, some .treeConfiguration)
  /- src/tree_evaluation.c:231-240 -/
  | .ccs_tree_evaluation_get_objective_space => some (.lent, some .objectiveSpace)
  /- src/tree.c:295-303 -/
  | .ccs_tree_get_child => some (.lent, some .tree)
  /- src/tree.c:306-329 -/
  | .ccs_tree_get_children => some (.lent, some .tree)
  /- src/tree.c:507-522 -/
  | .ccs_tree_get_node_at_position => some (.lent, some .tree)
  /- src/tree.c:384-393 -/
  | .ccs_tree_get_parent => some (.lent, some .tree)
  /- src/tree_space.c:67-80 -/
  | .ccs_tree_space_get_node_at_position => some (.lent, some .tree)
  /- src/tree_space.c:47-53 -/
  | .ccs_tree_space_get_rng => some (.lent, some .rng)
  /- src/tree_space.c:56-62 -/
  | .ccs_tree_space_get_tree => some (.lent, some .tree)
  /- src/tree_space.c:190-198 -/
  | .ccs_tree_space_sample => some (.given, some .treeConfiguration)
  /- src/tree_space.c:201-213 -/
  | .ccs_tree_space_samples => some (.given, some .treeConfiguration)
  /- src/tree_tuner.c:59-75 -/
  | .ccs_tree_tuner_ask => some (.given, some .treeConfiguration)
  /- src/tree_tuner.c:111-126 -/
  | .ccs_tree_tuner_get_history => some (.lent, some .treeEvaluation)
  /- src/tree_tuner.c:46-56 -/
  | .ccs_tree_tuner_get_objective_space => some (.lent, some .objectiveSpace)
  /- src/tree_tuner.c:93-108 -/
  | .ccs_tree_tuner_get_optima => some (.lent, some .treeEvaluation)
  /- src/tree_tuner.c:33-43 -/
  | .ccs_tree_tuner_get_tree_space => some (.lent, some .treeSpace)
  /- src/tree_tuner.c:129-139 -/
  | .ccs_tree_tuner_suggest => some (.given, some .treeConfiguration)
  /- src/tuner.c:55-71 -/
  | .ccs_tuner_ask => some (.given, some .configuration)
  /- src/tuner.c:31-40 -/
  | .ccs_tuner_get_configuration_space => some (.lent, some .configurationSpace)
  /- src/tuner.c:107-122 -/
  | .ccs_tuner_get_history => some (.lent, some .evaluation)
  /- src/tuner.c:43-52 -/
  | .ccs_tuner_get_objective_space => some (.lent, some .objectiveSpace)
  /- src/tuner.c:89-104 -/
  | .ccs_tuner_get_optima => some (.lent, some .evaluation)
  /- src/tuner.c:125-133 -/
  | .ccs_tuner_suggest => some (.given, some .configuration)
  /- src/expression.c:1675-1688 -/
  | .ccs_variable_get_parameter => some (.lent, some .parameter)
  | _ => none

/-- How a binding makes a wrapper of a handle: of a class, retaining or not; of the class that the table of classes has for the kind of
the object, retaining or not; or not at all, because the class is written with a name that is not defined. -/
inductive Made where
  | wrapper (retains : Bool) (cls : Kind)
  | byType (retains : Bool)
  | noName
  deriving DecidableEq, Repr

/-- The wrappers of the Python binding.  `from_handle` retains unless told otherwise; constructors called with `retain = False` do not.
Subclasses are not told apart: `from_handle` of `Distribution`, `Parameter`, `Expression`, the tuners and `TreeSpace` choose one by
asking the library. -/
def python : Fn → Option Made
  /- bindings/python/cconfigspace/binding.py:20-26 -/
  | .ccs_binding_get_context => some (.byType true)
  /- bindings/python/cconfigspace/configuration.py:37-43 -/
  | .ccs_configuration_get_configuration_space => some (.wrapper true .configurationSpace)
  /- bindings/python/cconfigspace/configuration_space.py:115-126 -/
  | .ccs_configuration_space_get_condition => some (.wrapper true .expression)
  /- bindings/python/cconfigspace/configuration_space.py:133-140 -/
  | .ccs_configuration_space_get_conditions => some (.wrapper true .expression)
  /- bindings/python/cconfigspace/configuration_space.py:212-216 -/
  | .ccs_configuration_space_get_default_configuration => some (.wrapper false .configuration)
  /- bindings/python/cconfigspace/configuration_space.py:169-173 -/
  | .ccs_configuration_space_get_forbidden_clause => some (.wrapper true .expression)
  /- bindings/python/cconfigspace/configuration_space.py:183-190 -/
  | .ccs_configuration_space_get_forbidden_clauses => some (.wrapper true .expression)
  /- bindings/python/cconfigspace/configuration_space.py:94-103 -/
  | .ccs_configuration_space_get_parameter_distribution => some (.wrapper true .distribution)
  /- bindings/python/cconfigspace/configuration_space.py:47-51 -/
  | .ccs_configuration_space_get_rng => some (.wrapper true .rng)
  /- bindings/python/cconfigspace/configuration_space.py:218-222 -/
  | .ccs_configuration_space_sample => some (.wrapper false .configuration)
  /- bindings/python/cconfigspace/configuration_space.py:224-230 -/
  | .ccs_configuration_space_samples => some (.wrapper false .configuration)
  /- bindings/python/cconfigspace/context.py:27-31 -/
  | .ccs_context_get_parameter => some (.wrapper true .parameter)
  /- bindings/python/cconfigspace/context.py:33-37 -/
  | .ccs_context_get_parameter_by_name => some (.wrapper true .parameter)
  /- bindings/python/cconfigspace/context.py:59-66 -/
  | .ccs_context_get_parameters => some (.wrapper true .parameter)
  /- bindings/python/cconfigspace/expression.py:184-380 -/
  | .ccs_create_binary_expression => some (.wrapper false .expression)
  /- bindings/python/cconfigspace/parameter.py:251-264 -/
  | .ccs_create_categorical_parameter => some (.wrapper false .parameter)
  /- bindings/python/cconfigspace/configuration.py:13-28 -/
  | .ccs_create_configuration => some (.wrapper false .configuration)
  /- bindings/python/cconfigspace/configuration_space.py:32-38 -/
  | .ccs_create_configuration_space => some (.wrapper false .configurationSpace)
  /- bindings/python/cconfigspace/parameter.py:328-341 -/
  | .ccs_create_discrete_parameter => some (.wrapper false .parameter)
  /- bindings/python/cconfigspace/tree_space.py:226-252 -/
  | .ccs_create_dynamic_tree_space => some (.wrapper false .treeSpace)
  /- bindings/python/cconfigspace/error_stack.py:19-28 -/
  | .ccs_create_error_stack => some (.wrapper false .errorStack)
  /- bindings/python/cconfigspace/evaluation.py:25-40 -/
  | .ccs_create_evaluation => some (.wrapper false .evaluation)
  /- bindings/python/cconfigspace/expression.py:455-466 -/
  | .ccs_create_expression => some (.wrapper false .expression)
  /- bindings/python/cconfigspace/features.py:13-28 -/
  | .ccs_create_features => some (.wrapper false .features)
  /- bindings/python/cconfigspace/features_evaluation.py:25-40 -/
  | .ccs_create_features_evaluation => some (.wrapper false .featuresEvaluation)
  /- bindings/python/cconfigspace/features_space.py:13-19 -/
  | .ccs_create_features_space => some (.wrapper false .featuresSpace)
  /- bindings/python/cconfigspace/parameter.py:214-224 -/
  | .ccs_create_float_numerical_parameter => some (.wrapper false .parameter)
  /- bindings/python/cconfigspace/parameter.py:231-241 -/
  | .ccs_create_int_numerical_parameter => some (.wrapper false .parameter)
  /- bindings/python/cconfigspace/expression.py:391-399 -/
  | .ccs_create_literal => some (.wrapper false .expression)
  /- bindings/python/cconfigspace/map.py:15-20 -/
  | .ccs_create_map => some (.wrapper false .map)
  /- bindings/python/cconfigspace/distribution.py:397-407 -/
  | .ccs_create_mixture_distribution => some (.wrapper false .distribution)
  /- bindings/python/cconfigspace/distribution.py:448-455 -/
  | .ccs_create_multivariate_distribution => some (.wrapper false .distribution)
  /- bindings/python/cconfigspace/distribution.py:323-329 -/
  | .ccs_create_normal_float_distribution => some (.wrapper false .distribution)
  /- bindings/python/cconfigspace/distribution.py:337-343 -/
  | .ccs_create_normal_int_distribution => some (.wrapper false .distribution)
  /- bindings/python/cconfigspace/objective_space.py:26-32 -/
  | .ccs_create_objective_space => some (.wrapper false .objectiveSpace)
  /- bindings/python/cconfigspace/parameter.py:285-298 -/
  | .ccs_create_ordinal_parameter => some (.wrapper false .parameter)
  /- bindings/python/cconfigspace/features_tuner.py:149-155 -/
  | .ccs_create_random_features_tuner => some (.wrapper false .featuresTuner)
  /- bindings/python/cconfigspace/tree_tuner.py:133-139 -/
  | .ccs_create_random_tree_tuner => some (.wrapper false .treeTuner)
  /- bindings/python/cconfigspace/tuner.py:133-139 -/
  | .ccs_create_random_tuner => some (.wrapper false .tuner)
  /- bindings/python/cconfigspace/rng.py:13-18 -/
  | .ccs_create_rng => some (.wrapper false .rng)
  /- bindings/python/cconfigspace/distribution.py:354-361 -/
  | .ccs_create_roulette_distribution => some (.wrapper false .distribution)
  /- bindings/python/cconfigspace/tree_space.py:130-136 -/
  | .ccs_create_static_tree_space => some (.wrapper false .treeSpace)
  /- bindings/python/cconfigspace/parameter.py:360-368 -/
  | .ccs_create_string_parameter => some (.wrapper false .parameter)
  /- bindings/python/cconfigspace/tree.py:26-34 -/
  | .ccs_create_tree => some (.wrapper false .tree)
  /- bindings/python/cconfigspace/tree_configuration.py:18-26 -/
  | .ccs_create_tree_configuration => some (.wrapper false .treeConfiguration)
  /- bindings/python/cconfigspace/tree_evaluation.py:19-34 -/
  | .ccs_create_tree_evaluation => some (.wrapper false .treeEvaluation)
  /- bindings/python/cconfigspace/expression.py:340-344, bindings/python/cconfigspace/expression.py:352-356, bindings/python/cconfigspace/expression.py:364-368 -/
  | .ccs_create_unary_expression => some (.wrapper false .expression)
  /- bindings/python/cconfigspace/distribution.py:220-226 -/
  | .ccs_create_uniform_float_distribution => some (.wrapper false .distribution)
  /- bindings/python/cconfigspace/distribution.py:233-239 -/
  | .ccs_create_uniform_int_distribution => some (.wrapper false .distribution)
  /- bindings/python/cconfigspace/features_tuner.py:348-386 -/
  | .ccs_create_user_defined_features_tuner => some (.wrapper false .featuresTuner)
  /- bindings/python/cconfigspace/tree_tuner.py:332-370 -/
  | .ccs_create_user_defined_tree_tuner => some (.wrapper false .treeTuner)
  /- bindings/python/cconfigspace/tuner.py:332-370 -/
  | .ccs_create_user_defined_tuner => some (.wrapper false .tuner)
  /- bindings/python/cconfigspace/expression.py:429-435 -/
  | .ccs_create_variable => some (.wrapper false .expression)
  /- bindings/python/cconfigspace/evaluation.py:59-65 -/
  | .ccs_evaluation_get_configuration => some (.wrapper true .configuration)
  /- bindings/python/cconfigspace/evaluation.py:49-55 -/
  | .ccs_evaluation_get_objective_space => some (.wrapper true .objectiveSpace)
  /- bindings/python/cconfigspace/expression.py:123-130 -/
  | .ccs_expression_get_nodes => some (.wrapper true .expression)
  /- bindings/python/cconfigspace/expression.py:134-147 -/
  | .ccs_expression_get_parameters => some (.wrapper true .parameter)
  /- bindings/python/cconfigspace/features_evaluation.py:59-65 -/
  | .ccs_features_evaluation_get_configuration => some (.wrapper true .configuration)
  /- bindings/python/cconfigspace/features_evaluation.py:69-75 -/
  | .ccs_features_evaluation_get_features => some (.wrapper true .features)
  /- bindings/python/cconfigspace/features_evaluation.py:49-55 -/
  | .ccs_features_evaluation_get_objective_space => some (.wrapper true .objectiveSpace)
  /- bindings/python/cconfigspace/features.py:37-43 -/
  | .ccs_features_get_features_space => some .noName
  /- bindings/python/cconfigspace/features_tuner.py:92-98 -/
  | .ccs_features_tuner_ask => some (.wrapper false .configuration)
  /- bindings/python/cconfigspace/features_tuner.py:83-89 -/
  | .ccs_features_tuner_get_configuration_space => some (.wrapper true .configurationSpace)
  /- bindings/python/cconfigspace/features_tuner.py:73-79 -/
  | .ccs_features_tuner_get_features_space => some (.wrapper true .featuresSpace)
  /- bindings/python/cconfigspace/features_tuner.py:114-121 -/
  | .ccs_features_tuner_get_history => some (.wrapper true .featuresEvaluation)
  /- bindings/python/cconfigspace/features_tuner.py:63-69 -/
  | .ccs_features_tuner_get_objective_space => some (.wrapper true .objectiveSpace)
  /- bindings/python/cconfigspace/features_tuner.py:131-138 -/
  | .ccs_features_tuner_get_optima => some (.wrapper true .featuresEvaluation)
  /- bindings/python/cconfigspace/features_tuner.py:140-144 -/
  | .ccs_features_tuner_suggest => some (.wrapper false .configuration)
  /- bindings/python/cconfigspace/distribution.py:432-438 -/
  | .ccs_mixture_distribution_get_distributions => some (.wrapper true .distribution)
  /- bindings/python/cconfigspace/distribution.py:470-476 -/
  | .ccs_multivariate_distribution_get_distributions => some (.wrapper true .distribution)
  /- bindings/python/cconfigspace/base.py:563-602 -/
  | .ccs_object_deserialize => some (.byType false)
  /- bindings/python/cconfigspace/objective_space.py:76-81 -/
  | .ccs_objective_space_get_objective => some (.wrapper true .expression)
  /- bindings/python/cconfigspace/objective_space.py:91-97 -/
  | .ccs_objective_space_get_objectives => some (.wrapper true .expression)
  /- bindings/python/cconfigspace/parameter.py:82-88 -/
  | .ccs_parameter_get_default_distribution => some (.wrapper true .distribution)
  /- bindings/python/cconfigspace/tree_configuration.py:78-84 -/
  | .ccs_tree_configuration_get_node => some (.wrapper true .tree)
  /- bindings/python/cconfigspace/tree_configuration.py:35-41 -/
  | .ccs_tree_configuration_get_tree_space => some (.wrapper true .treeSpace)
  /- bindings/python/cconfigspace/tree_evaluation.py:53-59 -/
  | .ccs_tree_evaluation_get_configuration => some (.wrapper true .treeConfiguration)
  /- bindings/python/cconfigspace/tree_evaluation.py:43-49 -/
  | .ccs_tree_evaluation_get_objective_space => some (.wrapper true .objectiveSpace)
  /- bindings/python/cconfigspace/tree.py:90-94 -/
  | .ccs_tree_get_child => some (.wrapper true .tree)
  /- bindings/python/cconfigspace/tree.py:97-104 -/
  | .ccs_tree_get_children => some (.wrapper true .tree)
  /- bindings/python/cconfigspace/tree.py:161-167 -/
  | .ccs_tree_get_node_at_position => some (.wrapper true .tree)
  /- bindings/python/cconfigspace/tree.py:107-111 -/
  | .ccs_tree_get_parent => some (.wrapper true .tree)
  /- bindings/python/cconfigspace/tree_space.py:81-87 -/
  | .ccs_tree_space_get_node_at_position => some (.wrapper true .tree)
  /- bindings/python/cconfigspace/tree_space.py:60-64 -/
  | .ccs_tree_space_get_rng => some (.wrapper true .rng)
  /- bindings/python/cconfigspace/tree_space.py:72-78 -/
  | .ccs_tree_space_get_tree => some (.wrapper true .tree)
  /- bindings/python/cconfigspace/tree_space.py:111-115 -/
  | .ccs_tree_space_sample => some (.wrapper false .treeConfiguration)
  /- bindings/python/cconfigspace/tree_space.py:117-123 -/
  | .ccs_tree_space_samples => some (.wrapper false .treeConfiguration)
  /- bindings/python/cconfigspace/tree_tuner.py:79-85 -/
  | .ccs_tree_tuner_ask => some (.wrapper false .treeConfiguration)
  /- bindings/python/cconfigspace/tree_tuner.py:101-106 -/
  | .ccs_tree_tuner_get_history => some (.wrapper true .treeEvaluation)
  /- bindings/python/cconfigspace/tree_tuner.py:60-66 -/
  | .ccs_tree_tuner_get_objective_space => some (.wrapper true .objectiveSpace)
  /- bindings/python/cconfigspace/tree_tuner.py:116-121 -/
  | .ccs_tree_tuner_get_optima => some (.wrapper true .treeEvaluation)
  /- bindings/python/cconfigspace/tree_tuner.py:70-76 -/
  | .ccs_tree_tuner_get_tree_space => some (.wrapper true .treeSpace)
  /- bindings/python/cconfigspace/tree_tuner.py:124-128 -/
  | .ccs_tree_tuner_suggest => some (.wrapper false .treeConfiguration)
  /- bindings/python/cconfigspace/tuner.py:79-85 -/
  | .ccs_tuner_ask => some (.wrapper false .configuration)
  /- bindings/python/cconfigspace/tuner.py:70-76 -/
  | .ccs_tuner_get_configuration_space => some (.wrapper true .configurationSpace)
  /- bindings/python/cconfigspace/tuner.py:101-106 -/
  | .ccs_tuner_get_history => some (.wrapper true .evaluation)
  /- bindings/python/cconfigspace/tuner.py:60-66 -/
  | .ccs_tuner_get_objective_space => some (.wrapper true .objectiveSpace)
  /- bindings/python/cconfigspace/tuner.py:116-121 -/
  | .ccs_tuner_get_optima => some (.wrapper true .evaluation)
  /- bindings/python/cconfigspace/tuner.py:124-128 -/
  | .ccs_tuner_suggest => some (.wrapper false .configuration)
  /- bindings/python/cconfigspace/expression.py:440-446 -/
  | .ccs_variable_get_parameter => some (.wrapper true .parameter)
  | _ => none

/-- The wrappers of the Ruby binding; `add_handle_property` (`bindings/ruby/lib/cconfigspace/base.rb:616-626`) goes through
`Object::from_handle`. -/
def ruby : Fn → Option Made
  /- bindings/ruby/lib/cconfigspace/binding.rb:17 -/
  | .ccs_binding_get_context => some (.byType true)
  /- bindings/ruby/lib/cconfigspace/configuration_space.rb:117-127 -/
  | .ccs_configuration_space_get_condition => some (.wrapper true .expression)
  /- bindings/ruby/lib/cconfigspace/configuration_space.rb:130-135 -/
  | .ccs_configuration_space_get_conditions => some (.wrapper true .expression)
  /- bindings/ruby/lib/cconfigspace/configuration_space.rb:212-215 -/
  | .ccs_configuration_space_get_default_configuration => some (.wrapper false .configuration)
  /- bindings/ruby/lib/cconfigspace/configuration_space.rb:176-179 -/
  | .ccs_configuration_space_get_forbidden_clause => some (.wrapper true .expression)
  /- bindings/ruby/lib/cconfigspace/configuration_space.rb:188-192 -/
  | .ccs_configuration_space_get_forbidden_clauses => some (.wrapper true .expression)
  /- bindings/ruby/lib/cconfigspace/configuration_space.rb:74-84 -/
  | .ccs_configuration_space_get_parameter_distribution => some (.wrapper true .distribution)
  /- bindings/ruby/lib/cconfigspace/configuration_space.rb:39-42 -/
  | .ccs_configuration_space_get_rng => some (.wrapper true .rng)
  /- bindings/ruby/lib/cconfigspace/configuration_space.rb:218-221 -/
  | .ccs_configuration_space_sample => some (.wrapper false .configuration)
  /- bindings/ruby/lib/cconfigspace/configuration_space.rb:224-228 -/
  | .ccs_configuration_space_samples => some (.wrapper false .configuration)
  /- bindings/ruby/lib/cconfigspace/context.rb:23-26 -/
  | .ccs_context_get_parameter => some (.wrapper true .parameter)
  /- bindings/ruby/lib/cconfigspace/context.rb:29-33 -/
  | .ccs_context_get_parameter_by_name => some (.wrapper true .parameter)
  /- bindings/ruby/lib/cconfigspace/context.rb:49-54 -/
  | .ccs_context_get_parameters => some (.wrapper true .parameter)
  /- bindings/ruby/lib/cconfigspace/expression.rb:135-141,216-430 -/
  | .ccs_create_binary_expression => some (.wrapper false .expression)
  /- bindings/ruby/lib/cconfigspace/parameter.rb:221-234 -/
  | .ccs_create_categorical_parameter => some (.wrapper false .parameter)
  /- bindings/ruby/lib/cconfigspace/configuration.rb:9-26 -/
  | .ccs_create_configuration => some (.wrapper false .configuration)
  /- bindings/ruby/lib/cconfigspace/configuration_space.rb:24-31 -/
  | .ccs_create_configuration_space => some (.wrapper false .configurationSpace)
  /- bindings/ruby/lib/cconfigspace/parameter.rb:298-311 -/
  | .ccs_create_discrete_parameter => some (.wrapper false .parameter)
  /- bindings/ruby/lib/cconfigspace/tree_space.rb:196-212 -/
  | .ccs_create_dynamic_tree_space => some (.wrapper false .treeSpace)
  /- bindings/ruby/lib/cconfigspace/error_stack.rb:33-41 -/
  | .ccs_create_error_stack => some (.wrapper false .errorStack)
  /- bindings/ruby/lib/cconfigspace/evaluation.rb:27-44 -/
  | .ccs_create_evaluation => some (.wrapper false .evaluation)
  /- bindings/ruby/lib/cconfigspace/expression.rb:552-563 -/
  | .ccs_create_expression => some (.wrapper false .expression)
  /- bindings/ruby/lib/cconfigspace/features.rb:10-27 -/
  | .ccs_create_features => some (.wrapper false .features)
  /- bindings/ruby/lib/cconfigspace/features_evaluation.rb:17-34 -/
  | .ccs_create_features_evaluation => some (.wrapper false .featuresEvaluation)
  /- bindings/ruby/lib/cconfigspace/features_space.rb:9-16 -/
  | .ccs_create_features_space => some (.wrapper false .featuresSpace)
  /- bindings/ruby/lib/cconfigspace/parameter.rb:141-149 -/
  | .ccs_create_float_numerical_parameter => some (.wrapper false .parameter)
  /- bindings/ruby/lib/cconfigspace/parameter.rb:157-165 -/
  | .ccs_create_int_numerical_parameter => some (.wrapper false .parameter)
  /- bindings/ruby/lib/cconfigspace/expression.rb:491-498 -/
  | .ccs_create_literal => some (.wrapper false .expression)
  /- bindings/ruby/lib/cconfigspace/map.rb:12-18 -/
  | .ccs_create_map => some (.wrapper false .map)
  /- bindings/ruby/lib/cconfigspace/distribution.rb:357-373 -/
  | .ccs_create_mixture_distribution => some (.wrapper false .distribution)
  /- bindings/ruby/lib/cconfigspace/distribution.rb:403-412 -/
  | .ccs_create_multivariate_distribution => some (.wrapper false .distribution)
  /- bindings/ruby/lib/cconfigspace/distribution.rb:248-255 -/
  | .ccs_create_normal_float_distribution => some (.wrapper false .distribution)
  /- bindings/ruby/lib/cconfigspace/distribution.rb:263-270 -/
  | .ccs_create_normal_int_distribution => some (.wrapper false .distribution)
  /- bindings/ruby/lib/cconfigspace/objective_space.rb:32-39 -/
  | .ccs_create_objective_space => some (.wrapper false .objectiveSpace)
  /- bindings/ruby/lib/cconfigspace/parameter.rb:256-269 -/
  | .ccs_create_ordinal_parameter => some (.wrapper false .parameter)
  /- bindings/ruby/lib/cconfigspace/features_tuner.rb:103-110 -/
  | .ccs_create_random_features_tuner => some (.wrapper false .featuresTuner)
  /- bindings/ruby/lib/cconfigspace/tree_tuner.rb:102-109 -/
  | .ccs_create_random_tree_tuner => some (.wrapper false .treeTuner)
  /- bindings/ruby/lib/cconfigspace/tuner.rb:102-109 -/
  | .ccs_create_random_tuner => some (.wrapper false .tuner)
  /- bindings/ruby/lib/cconfigspace/rng.rb:14-20 -/
  | .ccs_create_rng => some (.wrapper false .rng)
  /- bindings/ruby/lib/cconfigspace/distribution.rb:324-333 -/
  | .ccs_create_roulette_distribution => some (.wrapper false .distribution)
  /- bindings/ruby/lib/cconfigspace/tree_space.rb:109-116 -/
  | .ccs_create_static_tree_space => some (.wrapper false .treeSpace)
  /- bindings/ruby/lib/cconfigspace/parameter.rb:331-339 -/
  | .ccs_create_string_parameter => some (.wrapper false .parameter)
  /- bindings/ruby/lib/cconfigspace/tree.rb:27-34 -/
  | .ccs_create_tree => some (.wrapper false .tree)
  /- bindings/ruby/lib/cconfigspace/tree_configuration.rb:18-28 -/
  | .ccs_create_tree_configuration => some (.wrapper false .treeConfiguration)
  /- bindings/ruby/lib/cconfigspace/tree_evaluation.rb:16-33 -/
  | .ccs_create_tree_evaluation => some (.wrapper false .treeEvaluation)
  /- bindings/ruby/lib/cconfigspace/expression.rb:143-149,440-478 -/
  | .ccs_create_unary_expression => some (.wrapper false .expression)
  /- bindings/ruby/lib/cconfigspace/distribution.rb:148-155 -/
  | .ccs_create_uniform_float_distribution => some (.wrapper false .distribution)
  /- bindings/ruby/lib/cconfigspace/distribution.rb:163-170 -/
  | .ccs_create_uniform_int_distribution => some (.wrapper false .distribution)
  /- bindings/ruby/lib/cconfigspace/features_tuner.rb:265-286 -/
  | .ccs_create_user_defined_features_tuner => some (.wrapper false .featuresTuner)
  /- bindings/ruby/lib/cconfigspace/tree_tuner.rb:265-286 -/
  | .ccs_create_user_defined_tree_tuner => some (.wrapper false .treeTuner)
  /- bindings/ruby/lib/cconfigspace/tuner.rb:265-286 -/
  | .ccs_create_user_defined_tuner => some (.wrapper false .tuner)
  /- bindings/ruby/lib/cconfigspace/expression.rb:527-534 -/
  | .ccs_create_variable => some (.wrapper false .expression)
  /- bindings/ruby/lib/cconfigspace/evaluation.rb:24 -/
  | .ccs_evaluation_get_configuration => some (.byType true)
  /- bindings/ruby/lib/cconfigspace/expression.rb:151-155 -/
  | .ccs_expression_get_nodes => some (.wrapper true .expression)
  /- bindings/ruby/lib/cconfigspace/expression.rb:174-184 -/
  | .ccs_expression_get_parameters => some .noName
  /- bindings/ruby/lib/cconfigspace/features_evaluation.rb:13 -/
  | .ccs_features_evaluation_get_configuration => some (.byType true)
  /- bindings/ruby/lib/cconfigspace/features_evaluation.rb:14 -/
  | .ccs_features_evaluation_get_features => some (.byType true)
  /- bindings/ruby/lib/cconfigspace/features_tuner.rb:52-57 -/
  | .ccs_features_tuner_ask => some (.wrapper false .configuration)
  /- bindings/ruby/lib/cconfigspace/features_tuner.rb:27 -/
  | .ccs_features_tuner_get_configuration_space => some (.byType true)
  /- bindings/ruby/lib/cconfigspace/features_tuner.rb:28 -/
  | .ccs_features_tuner_get_features_space => some (.byType true)
  /- bindings/ruby/lib/cconfigspace/features_tuner.rb:74-78 -/
  | .ccs_features_tuner_get_history => some (.wrapper true .featuresEvaluation)
  /- bindings/ruby/lib/cconfigspace/features_tuner.rb:29 -/
  | .ccs_features_tuner_get_objective_space => some (.byType true)
  /- bindings/ruby/lib/cconfigspace/features_tuner.rb:87-91 -/
  | .ccs_features_tuner_get_optima => some (.wrapper true .featuresEvaluation)
  /- bindings/ruby/lib/cconfigspace/features_tuner.rb:94-97 -/
  | .ccs_features_tuner_suggest => some (.wrapper false .configuration)
  /- bindings/ruby/lib/cconfigspace/distribution.rb:386-391 -/
  | .ccs_mixture_distribution_get_distributions => some (.wrapper true .distribution)
  /- bindings/ruby/lib/cconfigspace/distribution.rb:416-421 -/
  | .ccs_multivariate_distribution_get_distributions => some (.wrapper true .distribution)
  /- bindings/ruby/lib/cconfigspace/base.rb:707-740 -/
  | .ccs_object_deserialize => some (.byType false)
  /- bindings/ruby/lib/cconfigspace/objective_space.rb:97-101 -/
  | .ccs_objective_space_get_objective => some (.wrapper true .expression)
  /- bindings/ruby/lib/cconfigspace/objective_space.rb:110-116 -/
  | .ccs_objective_space_get_objectives => some (.wrapper true .expression)
  /- bindings/ruby/lib/cconfigspace/parameter.rb:79-83 -/
  | .ccs_parameter_get_default_distribution => some (.byType true)
  /- bindings/ruby/lib/cconfigspace/tree_configuration.rb:15 -/
  | .ccs_tree_configuration_get_node => some (.byType true)
  /- bindings/ruby/lib/cconfigspace/tree_configuration.rb:14 -/
  | .ccs_tree_configuration_get_tree_space => some (.byType true)
  /- bindings/ruby/lib/cconfigspace/tree_evaluation.rb:13 -/
  | .ccs_tree_evaluation_get_configuration => some (.byType true)
  /- bindings/ruby/lib/cconfigspace/tree.rb:63-67 -/
  | .ccs_tree_get_child => some (.wrapper true .tree)
  /- bindings/ruby/lib/cconfigspace/tree.rb:70-75 -/
  | .ccs_tree_get_children => some (.wrapper true .tree)
  /- bindings/ruby/lib/cconfigspace/tree.rb:131-137 -/
  | .ccs_tree_get_node_at_position => some (.wrapper true .tree)
  /- bindings/ruby/lib/cconfigspace/tree.rb:78-82 -/
  | .ccs_tree_get_parent => some (.wrapper true .tree)
  /- bindings/ruby/lib/cconfigspace/tree_space.rb:56-62 -/
  | .ccs_tree_space_get_node_at_position => some (.wrapper true .tree)
  /- bindings/ruby/lib/cconfigspace/tree_space.rb:27 -/
  | .ccs_tree_space_get_rng => some (.byType true)
  /- bindings/ruby/lib/cconfigspace/tree_space.rb:28 -/
  | .ccs_tree_space_get_tree => some (.byType true)
  /- bindings/ruby/lib/cconfigspace/tree_space.rb:90-93 -/
  | .ccs_tree_space_sample => some (.wrapper false .treeConfiguration)
  /- bindings/ruby/lib/cconfigspace/tree_space.rb:96-100 -/
  | .ccs_tree_space_samples => some (.wrapper false .treeConfiguration)
  /- bindings/ruby/lib/cconfigspace/tree_tuner.rb:49-54 -/
  | .ccs_tree_tuner_ask => some (.wrapper false .treeConfiguration)
  /- bindings/ruby/lib/cconfigspace/tree_tuner.rb:71-75 -/
  | .ccs_tree_tuner_get_history => some (.wrapper true .treeEvaluation)
  /- bindings/ruby/lib/cconfigspace/tree_tuner.rb:26 -/
  | .ccs_tree_tuner_get_objective_space => some (.byType true)
  /- bindings/ruby/lib/cconfigspace/tree_tuner.rb:84-88 -/
  | .ccs_tree_tuner_get_optima => some (.wrapper true .treeEvaluation)
  /- bindings/ruby/lib/cconfigspace/tree_tuner.rb:25 -/
  | .ccs_tree_tuner_get_tree_space => some (.byType true)
  /- bindings/ruby/lib/cconfigspace/tree_tuner.rb:91-94 -/
  | .ccs_tree_tuner_suggest => some (.wrapper false .treeConfiguration)
  /- bindings/ruby/lib/cconfigspace/tuner.rb:49-54 -/
  | .ccs_tuner_ask => some (.wrapper false .configuration)
  /- bindings/ruby/lib/cconfigspace/tuner.rb:25 -/
  | .ccs_tuner_get_configuration_space => some (.byType true)
  /- bindings/ruby/lib/cconfigspace/tuner.rb:71-75 -/
  | .ccs_tuner_get_history => some (.wrapper true .evaluation)
  /- bindings/ruby/lib/cconfigspace/tuner.rb:26 -/
  | .ccs_tuner_get_objective_space => some (.byType true)
  /- bindings/ruby/lib/cconfigspace/tuner.rb:84-88 -/
  | .ccs_tuner_get_optima => some (.wrapper true .evaluation)
  /- bindings/ruby/lib/cconfigspace/tuner.rb:91-94 -/
  | .ccs_tuner_suggest => some (.wrapper false .configuration)
  /- bindings/ruby/lib/cconfigspace/expression.rb:538-541 -/
  | .ccs_variable_get_parameter => some (.wrapper true .parameter)
  | _ => none

/-- `Object.CLASS_MAP`, `bindings/python/cconfigspace/base.py:767-788`. -/
def pythonClass : Kind → Kind
  | .rng => .rng
  | .distribution => .distribution
  | .parameter => .parameter
  | .expression => .expression
  | .configurationSpace => .configurationSpace
  | .configuration => .configuration
  | .featuresSpace => .configurationSpace
  | .features => .features
  | .objectiveSpace => .objectiveSpace
  | .evaluation => .evaluation
  | .featuresEvaluation => .featuresEvaluation
  | .tuner => .tuner
  | .featuresTuner => .featuresTuner
  | .map => .map
  | .errorStack => .errorStack
  | .tree => .tree
  | .treeSpace => .treeSpace
  | .treeConfiguration => .treeConfiguration
  | .treeEvaluation => .treeEvaluation
  | .treeTuner => .treeTuner

/-- `Object.class_map`, `bindings/ruby/lib/cconfigspace/base.rb:569-592`. -/
def rubyClass : Kind → Kind
  | .rng => .rng
  | .distribution => .distribution
  | .parameter => .parameter
  | .expression => .expression
  | .configurationSpace => .configurationSpace
  | .configuration => .configuration
  | .featuresSpace => .featuresSpace
  | .features => .features
  | .objectiveSpace => .objectiveSpace
  | .evaluation => .evaluation
  | .featuresEvaluation => .featuresEvaluation
  | .tuner => .tuner
  | .featuresTuner => .featuresTuner
  | .map => .map
  | .errorStack => .errorStack
  | .tree => .tree
  | .treeSpace => .treeSpace
  | .treeConfiguration => .treeConfiguration
  | .treeEvaluation => .treeEvaluation
  | .treeTuner => .treeTuner

/-- A binding: its wrappers and its table of classes. -/
structure Language where
  makes : Fn → Option Made
  classOf : Kind → Kind

/-- `bindings/python/cconfigspace`. -/
def pythonBinding : Language := ⟨python, pythonClass⟩

/-- `bindings/ruby/lib/cconfigspace`. -/
def rubyBinding : Language := ⟨ruby, rubyClass⟩

/-- The class of the wrapper made of an object of kind `k`; `none` when an exception is raised instead
(`bindings/python/cconfigspace/base.py:503-511`). -/
def Language.cls (l : Language) (m : Made) (k : Kind) : Option Kind :=
  match m with
  | .wrapper _ c => some c
  | .byType _ => some (l.classOf k)
  | .noName => none

/-- An object of the library: its reference count (`src/cconfigspace_internal.h:47`; 0: not in memory), the references other objects of
the library have to it, and the wrappers that will release it. -/
structure Held where
  count : Nat
  inner : Nat
  wrappers : Nat
  deriving DecidableEq, Repr

/-- No object yet. -/
def Held.start : Held := ⟨0, 0, 0⟩

/-- What bears on the references to an object: a method that calls `f` and wraps the object; a wrapper is collected; the object is
passed to the library, which keeps it in another object; the library lets go of it. -/
inductive Event where
  | call (f : Fn)
  | drop
  | keep
  | letGo

/-- The wrapper is made, `bindings/python/cconfigspace/base.py:446-453`, `bindings/ruby/lib/cconfigspace/base.rb:632-641`, with
`ccs_retain_object`, `src/cconfigspace.c:43-50`. -/
def Held.wrap (h : Held) : Made → Held
  | .wrapper r _ | .byType r => { h with count := if r then h.count + 1 else h.count, wrappers := h.wrappers + 1 }
  | .noName => h

/-- One event, with `ccs_retain_object` and `ccs_release_object`, `src/cconfigspace.c:43-72`.  Touching an object that was freed is
undefined.  `.err`: the event cannot happen (nothing to lend, no wrapper to collect, …). -/
def Held.step (l : Language) (h : Held) : Event → Out Held
  | .call f =>
    match gives f, l.makes f with
    | some (.given, _), some m =>
      if h.count = 0 ∧ (h.inner ≠ 0 ∨ h.wrappers ≠ 0) then .ub
      else .ok (({ h with count := h.count + 1 } : Held).wrap m)
    | some (.lent, _), some m =>
      if h.count = 0 then (if h.inner = 0 ∧ h.wrappers = 0 then .err .invalidObject else .ub)
      else .ok (h.wrap m)
    | _, _ => .err .invalidValue
  | .drop =>
    if h.wrappers = 0 then .err .invalidValue
    else if h.count = 0 then .ub
    else .ok { h with count := h.count - 1, wrappers := h.wrappers - 1 }
  | .keep =>
    if h.wrappers = 0 then .err .invalidValue
    else if h.count = 0 then .ub
    else .ok { h with count := h.count + 1, inner := h.inner + 1 }
  | .letGo =>
    if h.inner = 0 then .err .invalidValue
    else if h.count = 0 then .ub
    else .ok { h with count := h.count - 1, inner := h.inner - 1 }

/-- A sequence of events. -/
def Held.run (l : Language) : Held → List Event → Out Held
  | h, [] => .ok h
  | h, e :: es => h.step l e >>= fun h' => h'.run l es

end CCS.Py
