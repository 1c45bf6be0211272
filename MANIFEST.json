{
 "claims": [
  {
   "property": "C01",
   "status": "proved",
   "theorems": [
    "CCS.Props.C01_unsigned32_round_trip",
    "CCS.Props.C01_unsigned64_round_trip",
    "CCS.Props.C01_size_round_trip"
   ],
   "note": "All 32/64-bit unsigned values and sizes, with exact announced size and refused truncation."
  },
  {
   "property": "C02",
   "status": "proved",
   "theorems": [
    "CCS.Props.C02_signed64_round_trip",
    "CCS.Props.C02_signed32_round_trip",
    "CCS.Props.C02_zigzag_is_small"
   ],
   "note": "All 32/64-bit signed values; small magnitudes take few bytes."
  },
  {
   "property": "C03",
   "status": "proved",
   "theorems": [
    "CCS.Props.C03_fixed64_round_trip",
    "CCS.Props.C03_fixed32_round_trip",
    "CCS.Props.C03_bytes_independent_of_host"
   ],
   "note": "Fixed-width 32/64-bit values; written bytes do not depend on the host byte order."
  },
  {
   "property": "C04",
   "status": "proved",
   "theorems": [
    "CCS.Props.C04_announced_size_exact",
    "CCS.Props.C04_object_size_exact"
   ],
   "note": "Every primitive, string, blob, datum, interval, header and object prefix announces exactly what it writes, and a writer given fewer bytes refuses."
  },
  {
   "property": "C05",
   "status": "proved",
   "theorems": [
    "CCS.Props.C05_string_round_trip",
    "CCS.Props.C05_blob_round_trip",
    "CCS.Props.C05_userData_round_trip"
   ],
   "note": "Strings without NUL, blobs and user data of any length below 2^64."
  },
  {
   "property": "C06",
   "status": "proved",
   "theorems": [
    "CCS.Props.C06_datum_round_trip",
    "CCS.Props.C06_wide_boolean_truncated"
   ],
   "note": "Every writable datum reads back the same; a boolean stored with bits above 32 is truncated (stated)."
  },
  {
   "property": "C07",
   "status": "proved",
   "theorems": [
    "CCS.Props.C07_interval_round_trip"
   ],
   "note": "Every interval with any flags."
  },
  {
   "property": "C08",
   "status": "partial",
   "theorems": [
    "CCS.Props.C08_what_follows_is_not_read",
    "CCS.Props.C08_no_part_is_accepted",
    "CCS.Props.C08_cut_messages",
    "CCS.Props.C08_same_object",
    "CCS.Props.C08_truncation_refused",
    "CCS.Props.C08_userData_truncation_undefined"
   ],
   "note": "Proved for every modelled primitive and composite, and for objects of all 19 kinds and any bytes accepted: no part of what was read is accepted, the answer being NOT_ENOUGH_DATA where it is defined (C08_no_part_is_accepted, C08_cut_messages), and what follows an object is not looked at (C08_what_follows_is_not_read). It fails for the user-data block, whose truncation is undefined behaviour (C08_userData_truncation_undefined)."
  },
  {
   "property": "C09",
   "status": "partial",
   "theorems": [
    "CCS.Props.C09_depth_is_no_limit",
    "CCS.Props.C09_roulette_overflow",
    "CCS.Props.C09_map_overflow",
    "CCS.Props.C09_parameter_overflow",
    "CCS.Props.C09_arbitrary_bytes_undefined",
    "CCS.Props.C09_leb_undefined_iff",
    "CCS.Props.C09_fixed_readers_defined_partial"
   ],
   "note": "Violated: the variable-length integer reader and the user-data reader have undefined behaviour on crafted bytes (C09_arbitrary_bytes_undefined, exact condition in C09_leb_undefined_iff). Fixed-width readers are proved defined. Also, proved: a crafted number of values (2^60 or more) or of map entries (2^59 or more) makes the size of the array wrap around, and the reader writes outside of it (C09_parameter_overflow, C09_map_overflow)."
  },
  {
   "property": "C10",
   "status": "proved",
   "theorems": [
    "CCS.Props.C10_header_round_trip",
    "CCS.Props.C10_header_decision",
    "CCS.Props.C10_refused_header_creates_nothing",
    "CCS.Props.C10_memory_round_trip"
   ],
   "note": "Header round trip, exact decision, and no object created from a refused header."
  },
  {
   "property": "C11",
   "status": "partial",
   "theorems": [
    "CCS.Props.C11_round_trip_partial",
    "CCS.Props.C11_same_evaluation_partial",
    "CCS.Props.C11_variable_needs_map",
    "CCS.Props.C11_null_string",
    "CCS.Props.C11_wide_boolean",
    "CCS.Props.C11_crafted_literal"
   ],
   "note": "Round trip, exact size and identical evaluation for every built expression, any depth, any byte order, given a handle map. Excluded literals shown to fail: NULL strings (undefined behaviour) and booleans wider than 32 bits (read back as another boolean)."
  },
  {
   "property": "C12",
   "status": "partial",
   "theorems": [
    "CCS.Props.C12_round_trip_partial",
    "CCS.Props.C12_areas_partial",
    "CCS.Props.C12_samples_partial",
    "CCS.Props.C12_nan_total",
    "CCS.Props.C12_wide_boolean"
   ],
   "note": "Proved for every forest reachable by the library calls, every byte order on either side and every receiving process: writing uses exactly the reported size, reading gives a valid tree with the same positions and bit-identical node contents (C12_round_trip_partial); with IEEE arithmetic totals are bit-identical and areas equal wherever the total is positive (C12_areas_partial), and sampling with the same draws is identical unless a total is NaN (C12_samples_partial). The full claim is false: C12_nan_total (stale areas when the total is NaN) and C12_wide_boolean (boolean values wider than 32 bits)."
  },
  {
   "property": "C13",
   "status": "partial",
   "theorems": [
    "CCS.Props.C13_parameter_round_trip_partial",
    "CCS.Props.C13_default_changes"
   ],
   "note": "Round trip of every creatable parameter (any byte order on either side, fewer than 2^60 values) proved when no other listed value is numerically indistinguishable from a float default; C13_default_changes proves the full claim false (values 0.0 and -0.0)."
  },
  {
   "property": "C14",
   "status": "proved",
   "theorems": [
    "CCS.Props.C14_map_round_trip",
    "CCS.Props.C14_null_string_undefined"
   ],
   "note": "Any entries (fewer than 2^59, what the address space can hold) with distinct keys and writable data; a NULL string value is undefined behaviour when written (stated)."
  },
  {
   "property": "C15",
   "status": "proved",
   "theorems": [
    "CCS.Props.C15_blocking_write_delivers_exactly",
    "CCS.Props.C15_blocking_write_completes"
   ],
   "note": "Every schedule of write results; never-returning calls are covered by the prefix statement."
  },
  {
   "property": "C16",
   "status": "partial",
   "theorems": [
    "CCS.Props.C16_resumed_write_never_right",
    "CCS.Props.C16_uninitialised_pointer_freed",
    "CCS.Props.C16_uninterrupted_partial"
   ],
   "note": "Violated: a resumed write never delivers the right stream (C16_resumed_write_never_right, for every encoding and schedule), and may free an uninitialised pointer. Proved for a call that is never told to try again."
  },
  {
   "property": "C17",
   "status": "partial",
   "theorems": [
    "CCS.Props.C17_reads_exactly_the_object",
    "CCS.Props.C17_read_completes",
    "CCS.Props.C17_truncated_stream_never_returns",
    "CCS.Props.C17_small_announced_size_undefined",
    "CCS.Props.C17_nonblocking_read_partial",
    "CCS.Props.C17_nonblocking_read_moved_undefined"
   ],
   "note": "Exact assembly proved for every schedule, blocking and (when realloc does not move) non-blocking. Violated at end of file (never returns), for announced sizes smaller than the header and for moved buffers (undefined)."
  },
  {
   "property": "C18",
   "status": "proved",
   "theorems": [
    "CCS.Props.C18_alive_while_referenced",
    "CCS.Props.C18_destroyed_exactly_once",
    "CCS.Props.C18_failed_destructor_leaks"
   ],
   "note": "All histories of retain, release and callback attachment on one object, callbacks not re-entering the object; also states what happens when the destructor fails."
  },
  {
   "property": "C19",
   "status": "proved",
   "theorems": [
    "CCS.Props.C19_destruction_events"
   ],
   "note": "Exact destruction trace."
  },
  {
   "property": "C20",
   "status": "partial",
   "theorems": [
    "CCS.Props.C20_failure_reported_partial",
    "CCS.Props.C20_no_failure_is_success",
    "CCS.Props.C20_every_history",
    "CCS.Props.C20_take_clears",
    "CCS.Props.C20_unrecorded_error_shows_stale_stack",
    "CCS.Props.C20_failing_cleanup_replaces_error"
   ],
   "note": "Proved for every nesting of the error macros; violated when a cleanup fails or a user callback returns an unrecorded error (witnesses)."
  },
  {
   "property": "C21",
   "status": "proved",
   "theorems": [
    "CCS.Props.C21_datum_identity_total_order",
    "CCS.Props.C21_reflexive"
   ],
   "note": "For both byte orders."
  },
  {
   "property": "C22",
   "status": "proved",
   "theorems": [
    "CCS.Props.C22_equal_hash_equal"
   ],
   "note": "For every byte hash function."
  },
  {
   "property": "C23",
   "status": "partial",
   "theorems": [
    "CCS.Props.C23_nan_breaks_order",
    "CCS.Props.C23_public_total_order_partial",
    "CCS.Props.C23_numbers_in_order"
   ],
   "note": "Violated for NaN (C23_nan_breaks_order); total order proved on every other datum."
  },
  {
   "property": "C24",
   "status": "proved",
   "theorems": [
    "CCS.Props.C24_lookup_after_any_history",
    "CCS.Props.C24_delete_refused_iff_absent",
    "CCS.Props.C24_set_refused_only_null",
    "CCS.Props.C24_clear"
   ],
   "note": "All histories of set/delete/clear refine a finite function."
  },
  {
   "property": "C25",
   "status": "partial",
   "theorems": [
    "CCS.Props.C25_get_keys_returns_values",
    "CCS.Props.C25_enumeration_partial"
   ],
   "note": "Violated: ccs_map_get_keys returns the values (C25_get_keys_returns_values). Values and pairs enumeration, counts and padding proved."
  },
  {
   "property": "C26",
   "status": "proved",
   "theorems": [
    "CCS.Props.C26_references_match_occurrences",
    "CCS.Props.C26_new_map",
    "CCS.Props.C26_destroy_releases_all",
    "CCS.Props.C26_histories_defined"
   ],
   "note": "Reference balance over all histories and destruction."
  },
  {
   "property": "C27",
   "status": "proved",
   "theorems": [
    "CCS.Props.C27_membership_exact",
    "CCS.Props.C27_empty_has_no_member",
    "CCS.Props.C27_nonempty_has_member"
   ],
   "note": "Bit-exact floats and 64-bit integers."
  },
  {
   "property": "C28",
   "status": "proved",
   "theorems": [
    "CCS.Props.C28_intersection_exact",
    "CCS.Props.C28_type_mismatch_refused",
    "CCS.Props.C28_nan_bound_lost"
   ],
   "note": "For number bounds; the NaN-bound counterexample is stated."
  },
  {
   "property": "C29",
   "status": "partial",
   "theorems": [
    "CCS.Props.C29_union_loses_tied_bound",
    "CCS.Props.C29_union_partial",
    "CCS.Props.C29_union_misses_only_tied_bounds_partial"
   ],
   "note": "Violated when tied bounds have different inclusions (C29_union_loses_tied_bound); convex hull proved otherwise, and only tied bounds can be missing."
  },
  {
   "property": "C30",
   "status": "partial",
   "theorems": [
    "CCS.Props.C30_equal_same_values",
    "CCS.Props.C30_integer_equality_partial",
    "CCS.Props.C30_equality_not_set_equality"
   ],
   "note": "Equal implies same values for all intervals; exact for integer intervals with a member and no extreme open bound; violated otherwise (C30_equality_not_set_equality)."
  },
  {
   "property": "C31",
   "status": "proved",
   "theorems": [
    "CCS.Props.C31_no_oversampling_contained",
    "CCS.Props.C31_all_dimensions",
    "CCS.Props.C31_nan_domain_not_detected"
   ],
   "note": "For domains with number bounds; the NaN-domain counterexample is stated."
  },
  {
   "property": "C32",
   "status": "partial",
   "theorems": [
    "CCS.Props.C32_int_creation_exact",
    "CCS.Props.C32_int_default_legal",
    "CCS.Props.C32_float_default_legal_partial",
    "CCS.Props.C32_nan_default_accepted",
    "CCS.Props.C32_nan_bounds_accepted",
    "CCS.Props.C32_wide_domain_undefined"
   ],
   "note": "Proved for integers (with exact creation condition) and for doubles that are numbers. NaN defaults and NaN bounds are accepted (proved), and a too wide integer domain makes the creation test overflow (proved undefined)."
  },
  {
   "property": "C33",
   "status": "proved",
   "theorems": [
    "CCS.Props.C33_creation_exact",
    "CCS.Props.C33_created_is_the_set"
   ],
   "note": "Creation succeeds iff non-empty, listable, pairwise different values and index in range; check/validate exact."
  },
  {
   "property": "C34",
   "status": "proved",
   "theorems": [
    "CCS.Props.C34_order_of_declaration",
    "CCS.Props.C34_unlisted_refused",
    "CCS.Props.C34_strict_total_order"
   ],
   "note": "Order of declaration, strict total order, unlisted values refused."
  },
  {
   "property": "C35",
   "status": "proved",
   "theorems": [
    "CCS.Props.C35_check_exact",
    "CCS.Props.C35_validate_agrees",
    "CCS.Props.C35_validated_not_transient",
    "CCS.Props.C35_many_agrees"
   ],
   "note": "Check exact w.r.t. Legal; validation agrees; lists agree element-wise."
  },
  {
   "property": "C36",
   "status": "proved",
   "theorems": [
    "CCS.Props.C36_samples_legal",
    "CCS.Props.C36_failures",
    "CCS.Props.C36_defined",
    "CCS.Props.C36_draws_bounded"
   ],
   "note": "Any distribution given as an oracle of batches respecting its declared bounds; domain bounds must be numbers (Proper); failures enumerated; draws bounded extensionally (at most six requests of at most 32n numbers)."
  },
  {
   "property": "C37",
   "status": "proved",
   "theorems": [
    "CCS.Props.C37_numerical_in_place",
    "CCS.Props.C37_categorical_in_place"
   ],
   "note": "Word-level model of the array of datums, both expansion loops."
  },
  {
   "property": "C38",
   "status": "partial",
   "theorems": [
    "CCS.Props.C38_get_values_partial",
    "CCS.Props.C38_remaining_entries_not_set"
   ],
   "note": "Values in order and refusal of small arrays proved; C38_remaining_entries_not_set proves that remaining entries keep their previous contents."
  },
  {
   "property": "C39",
   "status": "proved",
   "theorems": [
    "CCS.Props.C39_depends_on_reported_only",
    "CCS.Props.C39_across_contexts",
    "CCS.Props.C39_closed"
   ],
   "note": "Same context, different contexts, and closed expressions in any environment."
  },
  {
   "property": "C40",
   "status": "proved",
   "theorems": [
    "CCS.Props.C40_reported_exactly",
    "CCS.Props.C40_canonical",
    "CCS.Props.C40_check_context",
    "CCS.Props.C40_checked_variables_found"
   ],
   "note": "Sorted, duplicate free, exact membership, NULL padding, count, canonical; context check exact."
  },
  {
   "property": "C41",
   "status": "partial",
   "theorems": [
    "CCS.Props.C41_or_table",
    "CCS.Props.C41_not_table",
    "CCS.Props.C41_and_table_partial",
    "CCS.Props.C41_and_hides_bad_operand",
    "CCS.Props.C41_symmetric",
    "CCS.Props.C41_no_short_circuit"
   ],
   "note": "OR and NOT exact; AND exact except that an inactive operand hides a non boolean one (C41_and_hides_bad_operand)."
  },
  {
   "property": "C42",
   "status": "proved",
   "theorems": [
    "CCS.Props.C42_not_equal_negates",
    "CCS.Props.C42_equal_boolean"
   ],
   "note": "Full outcome equality."
  },
  {
   "property": "C43",
   "status": "partial",
   "theorems": [
    "CCS.Props.C43_or_equal_negates",
    "CCS.Props.C43_swap_partial",
    "CCS.Props.C43_two_ordinals",
    "CCS.Props.C43_numbers",
    "CCS.Props.C43_ordinal"
   ],
   "note": "Negation laws proved for all outcomes; exchange proved except for two different ordinal parameters, where C43_two_ordinals is a counterexample; meaning on numbers and ordinals."
  },
  {
   "property": "C44",
   "status": "partial",
   "theorems": [
    "CCS.Props.C44_equal_iff",
    "CCS.Props.C44_reflexive",
    "CCS.Props.C44_symmetric",
    "CCS.Props.C44_transitive_partial",
    "CCS.Props.C44_not_transitive"
   ],
   "note": "Reflexive and symmetric; transitive on plain values; C44_not_transitive gives counterexamples (large integers, signed zeros)."
  },
  {
   "property": "C45",
   "status": "partial",
   "theorems": [
    "CCS.Props.C45_shape",
    "CCS.Props.C45_membership_partial",
    "CCS.Props.C45_membership_applies",
    "CCS.Props.C45_in_order",
    "CCS.Props.C45_variable_inactive_item"
   ],
   "note": "Membership proved when the items are acceptable operands; C45_variable_inactive_item shows that an inactive item is refused for variables on numerical or discrete parameters."
  },
  {
   "property": "C46",
   "status": "partial",
   "theorems": [
    "CCS.Props.C46_exact_partial",
    "CCS.Props.C46_unary_partial",
    "CCS.Props.C46_overflow"
   ],
   "note": "Exact when the result fits, zero divisor refused; every overflow, INT64_MIN % -1 and -INT64_MIN proved undefined (C46_overflow)."
  },
  {
   "property": "C47",
   "status": "partial",
   "theorems": [
    "CCS.Props.C47_inactive_operand",
    "CCS.Props.C47_inactive_unary",
    "CCS.Props.C47_inactive_ordering_partial",
    "CCS.Props.C47_categorical_refused"
   ],
   "note": "All strict operators; orderings refuse inactive variables on categorical parameters (C47_categorical_refused)."
  },
  {
   "property": "C48",
   "status": "proved",
   "theorems": [
    "CCS.Props.C48_accepted_exactly",
    "CCS.Props.C48_refusals",
    "CCS.Props.C48_order_after_acceptance",
    "CCS.Props.C48_always_acyclic",
    "CCS.Props.C48_order_settled"
   ],
   "note": "Every reachable space, every built expression: accepted exactly when known and acyclic, reasons of refusals, order complete and right after acceptance and in every settled space (no refused condition since the last check, sample or accepted condition)."
  },
  {
   "property": "C49",
   "status": "partial",
   "theorems": [
    "CCS.Props.C49_default_partial",
    "CCS.Props.C49_default_exists",
    "CCS.Props.C49_wrong_after_refusal",
    "CCS.Props.C49_sample"
   ],
   "note": "Proved for sampled configurations of every reachable space, and for the default configuration of every settled space (with uniqueness and existence). Violated for the default configuration after a refused cyclic condition (C49_wrong_after_refusal)."
  },
  {
   "property": "C50",
   "status": "partial",
   "theorems": [
    "CCS.Props.C50_sample_valid_partial",
    "CCS.Props.C50_samples_valid_partial",
    "CCS.Props.C50_nan_bound"
   ],
   "note": "Proved for every reachable space, random stream and well-behaved distributions, when parameters have bounds that are numbers. Violated with a NaN bound, which the API accepts (C50_nan_bound)."
  },
  {
   "property": "C51",
   "status": "proved",
   "theorems": [
    "CCS.Props.C51_check_exact",
    "CCS.Props.C51_check_decides",
    "CCS.Props.C51_check_errors"
   ],
   "note": "Exact characterisation of the answers true and false and of the errors, on every reachable space."
  },
  {
   "property": "C52",
   "status": "partial",
   "theorems": [
    "CCS.Props.C52_not_forbidden_partial",
    "CCS.Props.C52_default_valid_partial",
    "CCS.Props.C52_forbidden_after_refusal"
   ],
   "note": "Proved for every settled space, whatever the order of additions (by monotonicity of evaluation under deactivation). Violated after a refused cyclic condition (C52_forbidden_after_refusal)."
  },
  {
   "property": "C53",
   "status": "partial",
   "theorems": [
    "CCS.Props.C53_definition_kept",
    "CCS.Props.C53_default_kept_partial",
    "CCS.Props.C53_checks_kept",
    "CCS.Props.C53_default_after_check",
    "CCS.Props.C53_sampling_kept",
    "CCS.Props.C53_default_changes"
   ],
   "note": "The definition, the lookups, checks and sampling are proved kept by every refusal; the default configuration by every refusal but those for a cycle, which change it until the next check (C53_default_changes, C53_default_after_check)."
  },
  {
   "property": "C54",
   "status": "proved",
   "theorems": [
    "CCS.Props.C54_partition",
    "CCS.Props.C54_redistribution",
    "CCS.Props.C54_refusal"
   ],
   "note": "Every list of calls; callers give at least dim positions and dim > 0; spaces below 2^32 parameters. Never undefined when default distributions are defined."
  },
  {
   "property": "C55",
   "status": "partial",
   "theorems": [
    "CCS.Props.C55_lookups_agree",
    "CCS.Props.C55_names_unique",
    "CCS.Props.C55_indexes_stable",
    "CCS.Props.C55_addition_exact",
    "CCS.Props.C55_out_of_bounds",
    "CCS.Props.C55_index_wraps"
   ],
   "note": "Agreement, uniqueness, density and stability for positions below 2^32; C55_index_wraps proves that larger positions are reduced modulo 2^32 instead of refused."
  },
  {
   "property": "C56",
   "status": "proved",
   "theorems": [
    "CCS.Props.C56_one_sample",
    "CCS.Props.C56_many_samples",
    "CCS.Props.C56_none"
   ],
   "note": "Exact number of attempts and outcome for one and for several configurations; 100*n must fit in a size_t."
  },
  {
   "property": "C57",
   "status": "proved",
   "theorems": [
    "CCS.Props.C57_binding_total_order",
    "CCS.Props.C57_binding_hash",
    "CCS.Props.C57_evaluation_total_order",
    "CCS.Props.C57_evaluation_hash",
    "CCS.Props.C57_features_evaluation_total_order",
    "CCS.Props.C57_features_evaluation_hash"
   ],
   "note": "Configurations, features, evaluations and features evaluations, any heap, any byte hash function, both endiannesses."
  },
  {
   "property": "C58",
   "status": "proved",
   "theorems": [
    "CCS.Props.C58_set_outcome",
    "CCS.Props.C58_step",
    "CCS.Props.C58_history",
    "CCS.Props.C58_get",
    "CCS.Props.C58_by_name",
    "CCS.Props.C58_bulk_read",
    "CCS.Props.C58_create"
   ],
   "note": "Any sequence of writes by index, name, parameter or in bulk, on any space built by the API (below 2^32 parameters) possibly growing in between; values compared without flags."
  },
  {
   "property": "C59",
   "status": "partial",
   "theorems": [
    "CCS.Props.C59_refused_partial",
    "CCS.Props.C59_changes",
    "CCS.Props.C59_witness"
   ],
   "note": "Violated: values before the first refused one are stored (C59_changes, C59_witness). Proved for wrong lengths and from the refused position on."
  },
  {
   "property": "C60",
   "status": "partial",
   "theorems": [
    "CCS.Props.C60_pareto_partial",
    "CCS.Props.C60_not_numbers",
    "CCS.Props.C60_refusals",
    "CCS.Props.C60_nan",
    "CCS.Props.C60_features"
   ],
   "note": "Proved for all evaluations with objective values that are numbers (exact characterisation of the four answers), for other values and for the refusals, with and without features. Violated for NaN, EQUIVALENT to every double (C60_nan)."
  },
  {
   "property": "C61",
   "status": "partial",
   "theorems": [
    "CCS.Props.C61_swap",
    "CCS.Props.C61_asymmetric",
    "CCS.Props.C61_transitive_partial",
    "CCS.Props.C61_equivalent_symmetric",
    "CCS.Props.C61_nan_better",
    "CCS.Props.C61_nan_equivalent"
   ],
   "note": "Swap, asymmetry, reflexivity and symmetry hold for all evaluations; transitivity of BETTER and EQUIVALENT and of their mixes without NaN. Violated with NaN (C61_nan_better, C61_nan_equivalent)."
  },
  {
   "property": "C62",
   "status": "partial",
   "theorems": [
    "CCS.Props.C62_exact_size_partial",
    "CCS.Props.C62_larger_refused",
    "CCS.Props.C62_smaller_overflows"
   ],
   "note": "Violated: the test of the size is reversed; every larger array is refused (C62_larger_refused) and every smaller one overflows (C62_smaller_overflows). Proved for the exact size."
  },
  {
   "property": "C63",
   "status": "partial",
   "theorems": [
    "CCS.Props.C63_pareto_front_partial",
    "CCS.Props.C63_covered_partial",
    "CCS.Props.C63_listing",
    "CCS.Props.C63_nan_blocks",
    "CCS.Props.C63_nan_front"
   ],
   "note": "Proved for every sequence of batches of evaluations of one objective space with numeric objective values, as the exact list of history positions kept (C63_pareto_front_partial). Violated with NaN (C63_nan_front, C63_nan_blocks)."
  },
  {
   "property": "C64",
   "status": "partial",
   "theorems": [
    "CCS.Props.C64_history",
    "CCS.Props.C64_optima_kept_partial",
    "CCS.Props.C64_becomes_optimum_partial",
    "CCS.Props.C64_failure_removes",
    "CCS.Props.C64_witness"
   ],
   "note": "The history is complete whatever happens. Optima are kept when no comparison fails; violated when one does: the optimum compared is dropped and the new evaluation is not added (C64_failure_removes, C64_witness)."
  },
  {
   "property": "C65",
   "status": "proved",
   "theorems": [
    "CCS.Props.C65_from_optima",
    "CCS.Props.C65_fresh",
    "CCS.Props.C65_features"
   ],
   "note": "Tuner and features tuner: every draw gives an optimum, every optimum is reachable by a draw, otherwise exactly one fresh sample."
  },
  {
   "property": "C66",
   "status": "partial",
   "theorems": [
    "CCS.Props.C66_independent",
    "CCS.Props.C66_front_partial"
   ],
   "note": "Independence of other features holds whatever the values (C66_independent); the front per features value for numeric objective values (C66_front_partial). Violated with NaN like C63."
  },
  {
   "property": "C67",
   "status": "partial",
   "theorems": [
    "CCS.Props.C67_always_refused",
    "CCS.Props.C67_check_features_partial"
   ],
   "note": "Violated: the check of plain vectors tests for the type of configuration spaces and always answers INVALID_OBJECT on a features space (C67_always_refused). Proved for features objects."
  },
  {
   "property": "C68",
   "status": "proved",
   "theorems": [
    "CCS.Props.C68_totals",
    "CCS.Props.C68_set_weight",
    "CCS.Props.C68_set_bias",
    "CCS.Props.C68_attach",
    "CCS.Props.C68_areas"
   ],
   "note": "Every sequence of successful calls that attaches no node below itself, any floating point addition and multiplication. The weight recorded for a slot is the biased total up to the sign of a zero (the code skips equal updates)."
  },
  {
   "property": "C69",
   "status": "proved",
   "theorems": [
    "CCS.Props.C69_leads_back",
    "CCS.Props.C69_distinct",
    "CCS.Props.C69_unique"
   ],
   "note": "Every forest so obtained: one root, one position per node, exactly reported, leading back, with the values along it."
  },
  {
   "property": "C70",
   "status": "partial",
   "theorems": [
    "CCS.Props.C70_node_valid",
    "CCS.Props.C70_invalid_refused",
    "CCS.Props.C70_valid_partial",
    "CCS.Props.C70_missing_child"
   ],
   "note": "Violated when the last child of the position is missing: reported valid, yet refused (C70_missing_child, for every such position). Proved for all other positions."
  },
  {
   "property": "C71",
   "status": "partial",
   "theorems": [
    "CCS.Props.C71_forest_partial",
    "CCS.Props.C71_terminates_partial",
    "CCS.Props.C71_no_ub",
    "CCS.Props.C71_cycle",
    "CCS.Props.C71_endless"
   ],
   "note": "Violated: attaching a root below itself succeeds when its biased total is 1.0 and makes a cycle (C71_cycle); otherwise the call never returns (C71_endless). Proved for histories without such attachments."
  },
  {
   "property": "C72",
   "status": "partial",
   "theorems": [
    "CCS.Props.C72_valid",
    "CCS.Props.C72_positive_partial",
    "CCS.Props.C72_tiny_total",
    "CCS.Props.C72_nan_weight"
   ],
   "note": "C72_valid: for any arithmetic and any weights sampling ends and every sampled position is valid (or INVALID_DISTRIBUTION when a total is zero). C72_positive_partial: with IEEE arithmetic and totals whose inverse is finite each step has an area holding the draw and a non-zero weight. The full claim is false in the code: C72_tiny_total (subnormal total, infinite inverse) and C72_nan_weight (NaN weight accepted, stale areas) sample children of weight zero."
  },
  {
   "property": "C73",
   "status": "partial",
   "theorems": [
    "CCS.Props.C73_same_answers",
    "CCS.Props.C73_callback_once_partial",
    "CCS.Props.C73_failed_retried",
    "CCS.Props.C73_node_stays",
    "CCS.Props.C73_values_stay",
    "CCS.Props.C73_valid_stays"
   ],
   "note": "C73_same_answers: for any sequence of node, values and validity queries a dynamic space answers as the static space over the complete tree (value, arity, weight and bias of the nodes; values; validity), and no position is passed to the callback twice. C73_callback_once_partial: for any callback, a position on which it succeeds is passed at most once. C73_node_stays, C73_values_stay, C73_valid_stays: once the space has answered for a position, that answer stays, with no callback call, whatever is asked in between and even if the callback then behaves otherwise. Missing: positions on which the callback fails are passed again by each query (C73_failed_retried). The callback is a function of the position, as the property requires for a complete tree to exist."
  },
  {
   "property": "C74",
   "status": "partial",
   "theorems": [
    "CCS.Props.C74_sorted_partial",
    "CCS.Props.C74_unique_partial",
    "CCS.Props.C74_selection_partial",
    "CCS.Props.C74_terminates",
    "CCS.Props.C74_zero_width_partial",
    "CCS.Props.C74_guess",
    "CCS.Props.C74_samples_in_bounds",
    "CCS.Props.C74_roulette_partial",
    "CCS.Props.C74_nan_area",
    "CCS.Props.C74_last_zero_selected"
   ],
   "note": "Proved for all bounds that are numbers, sorted or not, and for roulette distributions with a finite total under IEEE-754 arithmetic (including the initial guess, up to 2^53 areas). Violated with an infinite area, which creation accepts: bounds are NaN and a zero area is selected (C74_nan_area); a zero area given last can be selected by the largest draw (C74_last_zero_selected). With a total of at most 2^1022 the bounds are sorted from 0 to 1 (C74_sorted_partial), so the returned area is the only one that holds the draw (C74_unique_partial)."
  },
  {
   "property": "C75",
   "status": "partial",
   "theorems": [
    "CCS.Props.C75_uniform_int_partial",
    "CCS.Props.C75_every_value_partial",
    "CCS.Props.C75_fair",
    "CCS.Props.C75_wide_bounds",
    "CCS.Props.C75_wide_aborts"
   ],
   "note": "C75_uniform_int_partial: under the contract of gsl_rng_uniform_int, every sample of an accepted linear integer distribution is in [lower, upper), at least a step below upper, on the grid, in every layout, without overflow; C75_every_value_partial: each such value is drawn for one answer of the generator. Fails for bounds at least 2^63 apart (signed overflow at creation, C75_wide_bounds) and when there are more values than the generator can choose from (accepted, then the GSL error handler ends the program, C75_wide_aborts; 2^32-1 for the default generator)."
  },
  {
   "property": "C76",
   "status": "partial",
   "theorems": [
    "CCS.Props.C76_bounds_partial",
    "CCS.Props.C76_loses_largest",
    "CCS.Props.C76_memory_partial",
    "CCS.Props.C76_heap_overflow",
    "CCS.Props.C76_heap_overflow_witness"
   ],
   "note": "C76_bounds_partial: for any nesting, column by column, every value within the bounds of a component is within those of the mixture, except a bound included by one component and excluded by another (C76_loses_largest). C76_memory_partial: no write outside memory when 7*dimension <= 8*components or with one component. Otherwise the temporary block, sized by the number of components instead of the dimension, overflows: C76_heap_overflow, C76_heap_overflow_witness."
  },
  {
   "property": "C77",
   "status": "partial",
   "theorems": [
    "CCS.Props.C77_layouts_partial",
    "CCS.Props.C77_multivariate_partial",
    "CCS.Props.C77_mixture_partial",
    "CCS.Props.C77_outcome_unique",
    "CCS.Props.C77_unset_pointers",
    "CCS.Props.C77_null_column"
   ],
   "note": "C77_layouts_partial: every distribution, however nested, gives the same samples in the three layouts, writes all the cells asked and nothing else. C77_multivariate_partial, C77_mixture_partial: the samples are those of the components, each in its columns. C77_outcome_unique: the specification determines the result. Fails when a mixture is asked for some columns only: C77_unset_pointers, C77_null_column."
  },
  {
   "property": "C78",
   "status": "proved",
   "theorems": [
    "CCS.Props.C78_rows_intact",
    "CCS.Props.C78_cells_legal",
    "CCS.Props.C78_failures",
    "CCS.Props.C78_draws_bounded"
   ],
   "note": "Any distribution given as an oracle of rows within its declared bounds, any parameters created by the API whose domain bounds are numbers; rows intact and in draw order, every cell legal, failures classified, at most six draws of at most 32n rows."
  },
  {
   "property": "C79",
   "status": "partial",
   "theorems": [
    "CCS.Props.C79_nonempty_without_member",
    "CCS.Props.C79_nonempty_exact_partial"
   ],
   "note": "Violated (C79_nonempty_without_member); the failing cases are characterised exactly."
  },
  {
   "property": "C80",
   "status": "proved",
   "theorems": [
    "CCS.Props.C80_check_evaluation"
   ],
   "note": "Every objective space and vector."
  },
  {
   "property": "C81",
   "status": "partial",
   "theorems": [
    "CCS.Props.C81_add_objective",
    "CCS.Props.C81_add_objectives",
    "CCS.Props.C81_variables_found_partial",
    "CCS.Props.C81_reads_past"
   ],
   "note": "Acceptance and order proved; no out of bounds read for evaluations with one value per parameter. Violated for evaluations created before a parameter was added (C81_reads_past)."
  },
  {
   "property": "C82",
   "status": "partial",
   "theorems": [
    "CCS.Props.C82_cmp",
    "CCS.Props.C82_order",
    "CCS.Props.C82_hash",
    "CCS.Props.C82_position_partial",
    "CCS.Props.C82_not_padded"
   ],
   "note": "C82_cmp, C82_order, C82_hash: equality, total order and hash. C82_position_partial: reported position. The documented padding of extra room with 0 is not done by the code: C82_not_padded."
  },
  {
   "property": "C83",
   "status": "partial",
   "theorems": [
    "CCS.Props.C83_uniform_int_partial",
    "CCS.Props.C83_roulette_partial",
    "CCS.Props.C83_multivariate",
    "CCS.Props.C83_mixture_partial",
    "CCS.Props.C83_float_upper",
    "CCS.Props.C83_normal_int_overflow",
    "CCS.Props.C83_float_closed_partial",
    "CCS.Props.C83_float_wide",
    "CCS.Props.C83_log_float_lower",
    "CCS.Props.C83_log_int_lower",
    "CCS.Props.C83_normal_int_bounds",
    "CCS.Props.C83_normal_int_partial",
    "CCS.Props.C83_lognormal_int_lower",
    "CCS.Props.C83_normal_int_defined_partial"
   ],
   "note": "Linear uniform integers, roulettes, multivariate distributions of those, and mixtures without disputed bounds: C83_uniform_int_partial, C83_roulette_partial, C83_multivariate, C83_mixture_partial. Fails for uniform doubles, which can give the excluded upper bound (C83_float_upper) but nothing else outside when the width and the number of steps are finite (C83_float_closed_partial, quantized or not; IEEE arithmetic, gsl_ran_flat from one draw); with an infinite width no sample is finite (C83_float_wide). Logarithmic uniform distributions go below the lower bound even with correctly rounded log and exp: from 16, a draw of 0 gives 15 (C83_log_int_lower, C83_log_float_lower). A normal integer distribution can convert 2^63 (C83_normal_int_overflow), and without quantization this and NaN are the only draws for which sampling is undefined: all others beyond the integers are drawn again (C83_normal_int_defined_partial). Linear normal integer distributions keep their bounds and their quantization whatever the draws (C83_normal_int_partial), and the bounds they report are the last multiples of the quantization among the integers (C83_normal_int_bounds); logarithmic ones go below the lower bound: with quantization 32 and mean log 16 a deviation of 0 gives 0 (C83_lognormal_int_lower). Not covered: how far logarithmic samples can be out; normal doubles are not bounded."
  },
  {
   "property": "C84",
   "status": "partial",
   "theorems": [
    "CCS.Props.C84_reads_as_recreated",
    "CCS.Props.C84_round_trip_partial",
    "CCS.Props.C84_mixture",
    "CCS.Props.C84_not_a_number_refused",
    "CCS.Props.C84_roulette_changes",
    "CCS.Props.C84_not_a_number_reachable",
    "CCS.Props.C84_negative_area",
    "CCS.Props.C84_roulette_accepted_partial"
   ],
   "note": "Reading has exactly the outcome of creating the distribution again from what it reports, for any arithmetic; with IEEE arithmetic the result is identical for uniform, normal, multivariate, every mixture without NaN bound, and roulettes whose bounds are multiples of 2^-52. False in general: areas 1,5,1 come back with other bounds, roulettes and mixtures with a NaN bound and roulettes with a bound above 1 are refused; all proved. Roulettes with a total of at most 2^1022 are never refused and keep their number of areas (C84_roulette_accepted_partial)."
  },
  {
   "property": "C85",
   "status": "partial",
   "theorems": [
    "CCS.Props.C85_weights_refused",
    "CCS.Props.C85_two_components_partial"
   ],
   "note": "False: weights 19, 11, 7, 0 are refused (proved). True for two components with a total between 2^-1022 and 2^1022."
  },
  {
   "property": "C86",
   "status": "partial",
   "theorems": [
    "CCS.Props.C86_read_distribution",
    "CCS.Props.C86_read_samples",
    "CCS.Props.C86_parameter",
    "CCS.Props.C86_expression",
    "CCS.Props.C86_tree",
    "CCS.Props.C86_map",
    "CCS.Props.C86_space",
    "CCS.Props.C86_features_space",
    "CCS.Props.C86_objective_space",
    "CCS.Props.C86_binding",
    "CCS.Props.C86_evaluation",
    "CCS.Props.C86_tree_space",
    "CCS.Props.C86_tree_evaluation",
    "CCS.Props.C86_tuner_not_created"
   ],
   "note": "Proved for parameters, expressions, trees, maps, distributions, configuration, features and objective spaces, tree spaces, configurations, features and evaluations: whatever the bytes, what is read is what creation functions and accepted calls make (spaces: the reading process gives different addresses to the parameters it creates). Violated for tuners (C86_tuner_not_created, see C102): bytes are accepted that give a tuner that no results lead to."
  },
  {
   "property": "C87",
   "status": "partial",
   "theorems": [
    "CCS.Props.C87_reads_as_rebuilt",
    "CCS.Props.C87_rebuilt_exactly",
    "CCS.Props.C87_round_trip_partial",
    "CCS.Props.C87_same_behaviour",
    "CCS.Props.C87_shared_undefined",
    "CCS.Props.C87_clause_refused"
   ],
   "note": "Outcome of reading proved for every reachable space with distinct addresses: what making the same calls again gives; this succeeds exactly when the generator type is known, the distributions can be created again and the clauses have a value on the default configuration, and gives the same space up to addresses, with the same default, check and samples. False in general, proved: an expression used twice makes reading undefined (double release), a clause without a value on the default makes it refused. Checking and sampling compared for processes of the same byte order."
  },
  {
   "property": "C88",
   "status": "proved",
   "theorems": [
    "CCS.Props.C88_rng_outcome"
   ],
   "note": "Both byte orders, all states; the loss of the state without error is part of the statement."
  },
  {
   "property": "C89",
   "status": "partial",
   "theorems": [
    "CCS.Props.C89_outcome",
    "CCS.Props.C89_round_trip_partial",
    "CCS.Props.C89_grown_refused",
    "CCS.Props.C89_empty_blank",
    "CCS.Props.C89_illegal_refused"
   ],
   "note": "Exact outcome for every storable object, every map and both byte orders, and round trip when the values fit the space found. False in general, proved with objects made by the calls: an object whose space got parameters since is refused, one made for an empty space comes back with blank values, one with a string that is not legal (accepted when not transient) is refused."
  },
  {
   "property": "C90",
   "status": "partial",
   "theorems": [
    "CCS.Props.C90_features_space",
    "CCS.Props.C90_objective_space_partial",
    "CCS.Props.C90_shared_undefined",
    "CCS.Props.C90_same_objective",
    "CCS.Props.C90_same_objectives",
    "CCS.Props.C90_same_comparison",
    "CCS.Props.C90_same_features_comparison"
   ],
   "note": "Features spaces: full. Objective spaces: full when no object serves twice; false otherwise, proved: one expression used for two objectives makes reading undefined (double release). Same objective values and comparisons proved for the spaces read back."
  },
  {
   "property": "C91",
   "status": "partial",
   "theorems": [
    "CCS.Props.C91_outcome",
    "CCS.Props.C91_round_trip_partial",
    "CCS.Props.C91_grown_refused"
   ],
   "note": "Exact outcome for every storable evaluation and map, and round trip when the values fit the spaces found; false in general as for C89, proved."
  },
  {
   "property": "C92",
   "status": "partial",
   "theorems": [
    "CCS.Props.C92_round_trip_partial",
    "CCS.Props.C92_told_twice_refused",
    "CCS.Props.C92_foreign_refused",
    "CCS.Props.C92_grown_refused",
    "CCS.Props.C92_space_refused",
    "CCS.Props.C92_same_view",
    "CCS.Props.C92_same_features_view",
    "CCS.Props.C92_same_continuation",
    "CCS.Props.C92_same_suggestion"
   ],
   "note": "Round trip for tuners whose evaluations belong to their spaces and were told once; later tell calls give the same answers and optima, and suggestions drawn from the optima are the same. False in general, proved: an evaluation told twice, one of another space, or one made before its space grew, makes the tuner unreadable. Suggestions of a tuner without optima are those of the configuration space (C87). User defined tuners: C99-C101."
  },
  {
   "property": "C93",
   "status": "partial",
   "theorems": [
    "CCS.Props.C93_static_partial",
    "CCS.Props.C93_generator_lost",
    "CCS.Props.C93_same_answers",
    "CCS.Props.C93_same_configuration",
    "CCS.Props.C93_same_samples_partial",
    "CCS.Props.C93_dynamic_misread",
    "CCS.Props.C93_dynamic_refused"
   ],
   "note": "Static spaces: announced size, name, user data and tree (same answers to every query, same samples on the same draws when no total is NaN) for every tree made by calls; refused on a known handle. False, proved for all the inputs concerned: the generator of a static space is replaced by a new one of the default type; a dynamic space is read with its state as user data, its state callback is called with an empty state, and its user data stay unread."
  },
  {
   "property": "C94",
   "status": "partial",
   "theorems": [
    "CCS.Props.C94_outcome",
    "CCS.Props.C94_huge_position"
   ],
   "note": "Exact outcome and round trip for every configuration, map and following bytes. False, proved: a message that announces 2^61 indexes or more makes the library write outside of its array."
  },
  {
   "property": "C95",
   "status": "partial",
   "theorems": [
    "CCS.Props.C95_outcome",
    "CCS.Props.C95_round_trip_partial",
    "CCS.Props.C95_grown_refused"
   ],
   "note": "Exact outcome for every storable tree evaluation and map, and round trip when the values fit the objective space found; false in general as for C91, proved."
  },
  {
   "property": "C96",
   "status": "partial",
   "theorems": [
    "CCS.Props.C96_round_trip_partial",
    "CCS.Props.C96_told_twice_refused",
    "CCS.Props.C96_foreign_refused",
    "CCS.Props.C96_dynamic_unreadable",
    "CCS.Props.C96_same_view",
    "CCS.Props.C96_same_continuation",
    "CCS.Props.C96_same_suggestion"
   ],
   "note": "Round trip for tuners over static spaces whose evaluations belong to their spaces and were told once; later tell calls, optima and suggestions the same. False in general, proved: an evaluation told twice or of another tree space makes the tuner unreadable, and a tuner over a dynamic tree space never comes back, unless the user data of its space has 6 bytes. User defined tree tuners: C99 on."
  },
  {
   "property": "C97",
   "status": "proved",
   "theorems": [
    "CCS.Props.C97_total_order",
    "CCS.Props.C97_hash"
   ],
   "note": "All tree evaluations."
  },
  {
   "property": "C98",
   "status": "partial",
   "theorems": [
    "CCS.Props.C98_asked_valid",
    "CCS.Props.C98_accepted_values_partial",
    "CCS.Props.C98_complete_tree",
    "CCS.Props.C98_hole",
    "CCS.Props.C98_how_many",
    "CCS.Props.C98_from_optima",
    "CCS.Props.C98_fresh"
   ],
   "note": "Number, space, check and termination proved for every tree with arities below 2^53 and every draws; values can be fetched unless the last step goes to a missing child, hence always on complete trees. False in general, proved: the free slot of a node is sampled, accepted, and has no values."
  },
  {
   "property": "C99",
   "status": "proved",
   "theorems": [
    "CCS.Props.C99_created",
    "CCS.Props.C99_call",
    "CCS.Props.C99_trace",
    "CCS.Props.C99_pointer"
   ],
   "note": "Any callbacks on any type of state, any list of calls. The checks on features are an arbitrary function of the handle."
  },
  {
   "property": "C100",
   "status": "partial",
   "theorems": [
    "CCS.Props.C100_written",
    "CCS.Props.C100_round_trip_partial",
    "CCS.Props.C100_state_lost",
    "CCS.Props.C100_callback_error",
    "CCS.Props.C100_vector_refused",
    "CCS.Props.C100_told_twice_refused",
    "CCS.Props.C100_foreign_optimum_refused"
   ],
   "note": "Announced size, state of the user unchanged, and round trip for callbacks that show a history without repetition whose evaluations belong to the spaces, and optima in it; callback errors and missing callbacks. False in general, proved: repeated evaluations or optima outside of the history make the message unreadable; without deserialize_state the optima and the state are lost."
  },
  {
   "property": "C101",
   "status": "partial",
   "theorems": [
    "CCS.Props.C101_written",
    "CCS.Props.C101_round_trip_partial",
    "CCS.Props.C101_vector_refused",
    "CCS.Props.C101_told_twice_refused",
    "CCS.Props.C101_foreign_optimum_refused",
    "CCS.Props.C101_dynamic_undefined"
   ],
   "note": "As C100 over static tree spaces. False, proved: over a dynamic tree space reading is undefined with any complete callbacks, since the callbacks of the tuner are called as those of the space."
  },
  {
   "property": "C102",
   "status": "partial",
   "theorems": [
    "CCS.Props.C102_optima_partial",
    "CCS.Props.C102_tree_optima_partial",
    "CCS.Props.C102_space_as_optimum",
    "CCS.Props.C102_any_optima"
   ],
   "note": "Proved for all bytes: optima are evaluations of the history or spaces of the tuner. False, proved: the configuration space is accepted as an optimum, and so is any list of evaluations of the history."
  },
  {
   "property": "C103",
   "status": "proved",
   "theorems": [
    "CCS.Own.Props.C103_safe",
    "CCS.Own.Props.C103_next",
    "CCS.Own.Props.C103_reachable",
    "CCS.Own.Props.C103_borrowed"
   ],
   "note": "All programs of fair calls (Spec/Own.lean) on every kind of object, any verdicts of the checks on values, counts below 2^31. NULL arguments, allocation failures, destruction callbacks and reuse of addresses are left out; deserialization is not among the calls."
  },
  {
   "property": "C104",
   "status": "partial",
   "theorems": [
    "CCS.Own.Props.C104_no_garbage_partial",
    "CCS.Own.Props.C104_freed_partial",
    "CCS.Own.Props.C104_all_released_partial",
    "CCS.Own.Props.C104_cycle_leaks",
    "CCS.Own.Props.C104_failed_del_leaks"
   ],
   "note": "An object that exists can be reached from a reference of the client, from a reference lost by a failed call (at most one per call, of five kinds only), or from a map that contains itself; without these and without failing user destructors, memory is exactly what can be reached. False in general, proved: a map put into itself and a tuner whose user destructor fails are never freed."
  },
  {
   "property": "C105",
   "status": "partial",
   "theorems": [
    "CCS.Own.Props.C105_refused_partial",
    "CCS.Own.Props.C105_configuration_leaks",
    "CCS.Own.Props.C105_samples_leak",
    "CCS.Own.Props.C105_dynamic_child_leaks",
    "CCS.Own.Props.C105_at_most_one",
    "CCS.Own.Props.C105_objectives_partial",
    "CCS.Own.Props.C105_objectives_stay",
    "CCS.Own.Props.C105_tell_partial",
    "CCS.Own.Props.C105_tell_stays",
    "CCS.Own.Props.C105_tree_samples_partial",
    "CCS.Own.Props.C105_tree_samples_given",
    "CCS.Own.Props.C105_release_partial"
   ],
   "note": "Proved for all calls except refused configurations, samples, ask, suggest and dynamic children (C105_refused_partial), and calls that handle several objects in turn or run a destructor of the user. False, proved: a refused configuration, unsuccessful samples and a refused dynamic child each lose one reference, never more than one (C105_at_most_one); add_objectives and tell keep what came before the object refused (C105_objectives_stay, C105_tell_stays), tree samples hand over what was drawn before the failure (C105_tree_samples_given). What these leave is exactly the state after the successful part of the call (C105_objectives_partial, C105_tell_partial, C105_tree_samples_partial), and a release that fails leaves the state of one that succeeds except for the object itself, which is neither freed nor usable (C105_release_partial)."
  },
  {
   "property": "C106",
   "status": "proved",
   "theorems": [
    "CCS.Own.Props.C106_frame",
    "CCS.Own.Props.C106_fresh"
   ],
   "note": "All calls and states. A tree that loses its parent had a parent that was freed, or that the call is about."
  },
  {
   "property": "C107",
   "status": "proved",
   "theorems": [
    "CCS.Props.C107_one_message",
    "CCS.Props.C107_one_object"
   ],
   "note": "Options other than the non-blocking one; blocking descriptors (C15, C17). Files on a system that accepts all calls; C108 is about the others."
  },
  {
   "property": "C108",
   "status": "partial",
   "theorems": [
    "CCS.Props.C108_refused_leaves_files_partial",
    "CCS.Props.C108_other_files",
    "CCS.Props.C108_success",
    "CCS.Props.C108_system_codes",
    "CCS.Props.C108_reading_codes",
    "CCS.Props.C108_previous_content_lost",
    "CCS.Props.C108_failure_empties_file"
   ],
   "note": "Other files are never touched; refused calls leave the file; success gives the announced size and the bytes of the memory operation. False, proved: once the file is opened its previous contents are lost whatever happens next, and a failing callback leaves an empty file, which cannot be read."
  },
  {
   "property": "C109",
   "status": "proved",
   "theorems": [
    "CCS.Props.C109_chosen_by_type",
    "CCS.Props.C109_reads_what_the_kind_reads",
    "CCS.Props.C109_kind_is_the_one_announced",
    "CCS.Props.C109_unknown_type",
    "CCS.Props.C109_round_trips"
   ],
   "note": "All messages and the nineteen kinds, over the readers of the other modules."
  },
  {
   "property": "C110",
   "status": "proved",
   "theorems": [
    "CCS.Props.C110_serialization_options",
    "CCS.Props.C110_deserialization_options",
    "CCS.Props.C110_refused_options_do_nothing"
   ],
   "note": "All lists of options for all operations."
  },
  {
   "property": "C111",
   "status": "partial",
   "theorems": [
    "CCS.Props.C111_size_respected",
    "CCS.Props.C111_data_written",
    "CCS.Props.C111_data_read",
    "CCS.Props.C111_data_arrives",
    "CCS.Props.C111_empty_data_not_reported"
   ],
   "note": "Proved for data that is not empty. False, proved: data that serializes to nothing is not reported to the callback of the reader, like no data at all."
  },
  {
   "property": "C112",
   "status": "partial",
   "theorems": [
    "CCS.Props.C112_reading_errors_partial",
    "CCS.Props.C112_user_data_leaks",
    "CCS.Props.C112_dangling"
   ],
   "note": "Proved for errors while the object is read. False, proved: when the user data cannot be read or its callback fails, the error comes with a live object; when the handle is already in the map given, seven kinds leave a pointer to the freed object."
  },
  {
   "property": "C113",
   "status": "partial",
   "theorems": [
    "CCS.Props.C113_exists",
    "CCS.Props.C113_string",
    "CCS.Props.C113_no_filter",
    "CCS.Props.C113_samples_legal_partial",
    "CCS.Props.C113_every_value",
    "CCS.Props.C113_float_sample_illegal",
    "CCS.Props.C113_float_closed_partial"
   ],
   "note": "All parameters creation accepts: existence, dimension, bounds, no filtering; samples of integer and categorical parameters legal, every categorical value drawn (integers: C75). False, proved: the default distribution of a double parameter can round up to the excluded bound, and the sample is not filtered; it is the only illegal value it gives (C113_float_closed_partial, finite width and number of steps)."
  },
  {
   "property": "C114",
   "status": "partial",
   "theorems": [
    "CCS.Props.C114_set",
    "CCS.Props.C114_int_domain_partial",
    "CCS.Props.C114_int_accepted_partial",
    "CCS.Props.C114_int_exact_partial",
    "CCS.Props.C114_int_drawn_partial",
    "CCS.Props.C114_int_all_drawn_partial",
    "CCS.Props.C114_last_step_missed",
    "CCS.Props.C114_closed_upper",
    "CCS.Props.C114_single_value",
    "CCS.Props.C114_rounded_upper",
    "CCS.Props.C114_step_overflow",
    "CCS.Props.C114_unbounded_int",
    "CCS.Props.C114_strings",
    "CCS.Props.C114_unbounded_double_partial",
    "CCS.Props.C114_double_closed_upper"
   ],
   "note": "Sets: exact. Integer ranges with excluded upper bound or a step: the domain, candidates legal, drawn values are candidates, and which are drawn. False, proved: an included upper bound without step is never legal (integers up to 2^53, doubles from 2^-25), a one-value range ends the program, larger integer bounds are rounded, INT64_MAX and step overflow undefined, unbounded integers undefined, the last candidate before an excluded bound is never drawn when the step does not divide the length."
  },
  {
   "property": "C115",
   "status": "partial",
   "theorems": [
    "CCS.Props.C115_fence_partial",
    "CCS.Props.C115_no_fence_outside_partial",
    "CCS.Props.C115_before_init",
    "CCS.Props.C115_twice",
    "CCS.Props.C115_wrong_order",
    "CCS.Props.C115_twice_happens"
   ],
   "note": "Refinement to a ledger of open and measured contexts, for all callbacks that are properly nested (each context asks once and ends before those opened earlier). False otherwise, proved: before initialization the stack is empty (undefined); a context that asks twice leaves kernels fenced after its end; when contexts end in another order a measured context can be left without fences."
  },
  {
   "property": "C116",
   "status": "partial",
   "theorems": [
    "CCS.Props.C116_history_partial",
    "CCS.Props.C116_bound_partial"
   ],
   "note": "For properly nested callbacks the size of the history of each region is the number of its measured contexts; at most 500 when no context contains one of its own region."
  },
  {
   "property": "C117",
   "status": "partial",
   "theorems": [
    "CCS.Props.C117_same_tuner_partial",
    "CCS.Props.C117_kept"
   ],
   "note": "For properly nested callbacks: same tuner iff same set of variables, whatever the order. Kept until finalization: for all callbacks."
  },
  {
   "property": "C118",
   "status": "partial",
   "theorems": [
    "CCS.Props.C118_values_sent",
    "CCS.Props.C118_candidates",
    "CCS.Props.C118_integers_partial",
    "CCS.Props.C118_doubles_partial"
   ],
   "note": "All callbacks of programs that declare their variables once before use, with the type they give in requests, on a host that does not put new objects where others are. Each value is a legal value of the parameter of the declaration (exact for sets). For ranges: within the range when the upper bound is excluded; with an included one up to one step more for integers, and nothing is said of included bounds of doubles (C114 shows these are not handled)."
  },
  {
   "property": "C119",
   "status": "proved",
   "theorems": [
    "CCS.Props.C119_recorded"
   ],
   "note": "Same programs and hosts as C118; contexts may be nested in any way."
  },
  {
   "property": "C120",
   "status": "proved",
   "theorems": [
    "CCS.Props.C120_best"
   ],
   "note": "Same programs and hosts as C118. The example is a program of 500 contexts evaluated in the model by the kernel."
  },
  {
   "property": "C121",
   "status": "partial",
   "theorems": [
    "CCS.Props.C121_conditions",
    "CCS.Props.C121_clauses",
    "CCS.Props.C121_nodes",
    "CCS.Props.C121_components",
    "CCS.Props.C121_components_refused",
    "CCS.Props.C121_objectives",
    "CCS.Props.C121_objectives_otherwise",
    "CCS.Props.C121_elements",
    "CCS.Props.C121_position_wraps",
    "CCS.Props.C121_position_wraps_case",
    "CCS.Props.C121_list_items"
   ],
   "note": "Listing is proved whole for conditions, clauses, objectives, nodes and components, and equal to the calls by position for positions below 2^32.  Violated beyond: the position is reduced modulo 2^32 (src/configuration_space.c:1348,1451, src/objective_space.c:547), so that position 2^32 gives the first element (C121_position_wraps, C121_position_wraps_case)."
  },
  {
   "property": "C122",
   "status": "proved",
   "theorems": [
    "CCS.Props.C122_space_is_its_accepted_calls",
    "CCS.Props.C122_space_lists",
    "CCS.Props.C122_objectives_are_accepted",
    "CCS.Props.C122_several_objectives",
    "CCS.Props.C122_several_clauses",
    "CCS.Props.C122_expression",
    "CCS.Props.C122_literal_variable",
    "CCS.Props.C122_uniform",
    "CCS.Props.C122_normal",
    "CCS.Props.C122_components",
    "CCS.Props.C122_numerical"
   ],
   "note": "Refinement: the content of a configuration space equals the record of the calls answered with success, by induction over histories (positions below 2^32, see C121).  Creation followed by reading back for expressions, distributions and numerical parameters."
  },
  {
   "property": "C123",
   "status": "proved",
   "theorems": [
    "CCS.Props.C123_owned_stacks",
    "CCS.Props.C123_nothing_left",
    "CCS.Props.C123_reads",
    "CCS.Props.C123_binding_set",
    "CCS.Props.C123_given_away_twice"
   ],
   "note": "Invariant over all schedules of the calls of any number of threads: the count of a stack is the number of references held by the program and by the threads, and it is in memory iff that number is not zero.  The ownership rule is the documented one; C123_given_away_twice shows that it is necessary.  Each call is one step (no data races inside a call), allocation succeeds."
  },
  {
   "property": "C124",
   "status": "proved",
   "theorems": [
    "CCS.Props.C124_threads_are_independent",
    "CCS.Props.C124_raised_error_is_got"
   ],
   "note": "Refinement: for every schedule, what a thread sees is the one-thread model of C20 run on its own calls alone.  Hypothesis: no thread adds frames to a stack that is at that moment the error of another thread (a program can do this with a shared handle)."
  },
  {
   "property": "C125",
   "status": "partial",
   "theorems": [
    "CCS.Props.C125_reporting_ends_partial",
    "CCS.Props.C125_reporting_never_ends"
   ],
   "note": "Proved to end unless the replaced stack is destroyed and has a destruction callback that meets an error.  Violated in that case (C125_reporting_never_ends): the stack is released before the variable of the thread is reset (src/error_stack.c:27-29), so that the nested error releases the same stack, whose count is 0, which is an error, and so on: unbounded recursion."
  },
  {
   "property": "C126",
   "status": "partial",
   "theorems": [
    "CCS.Props.C126_text_partial",
    "CCS.Props.C126_text_same_partial",
    "CCS.Props.C126_terminals",
    "CCS.Props.C126_parentheses",
    "CCS.Props.C126_text_unambiguous",
    "CCS.Props.C126_text_grouped",
    "CCS.Props.C126_text_variables",
    "CCS.Props.C126_text_violated"
   ],
   "note": "Proved for all expressions the grammar can express in which no right operand is made with an operator of the same precedence (C126_text_partial; the same expression when no negative number occurs outside of lists, C126_text_same_partial), and the exact grouping that is read in general (C126_text_grouped).  Violated otherwise: Expression.__str__ puts parentheses only around operands of strictly lower precedence, so 5 - (2 - 1) prints as 5 - 2 - 1; a negative literal on the left of # is read as the opposite of the test; lists with computed items, empty strings, infinities have no text in the grammar.  The Python parser is given no context, so it reads no text with a variable (C126_text_variables).  Terminals are taken as given (white space and the printing of numbers by the language are not modelled); the parser generator is modelled as a shift-reduce parser with the priorities and associativities of the grammar."
  },
  {
   "property": "C127",
   "status": "partial",
   "theorems": [
    "CCS.Props.C127_refused_partial",
    "CCS.Props.C127_reason",
    "CCS.Props.C127_complete",
    "CCS.Props.C127_gaps",
    "CCS.Props.C127_null_written"
   ],
   "note": "Table of the argument checks of all 330 documented public functions against the table of the 734 refusals their documentation announces.  Proved for every function, every combination of arguments and every state: a documented condition that is met makes the call fail unless it is one of 35 listed gaps (C127_refused_partial), with the code of a condition that is met (C127_reason); complete for the functions without gaps (C127_complete).  Violated, each gap with arguments (C127_gaps): NULL results are written through by ccs_rng_get_type, ccs_get_result_name, ccs_create_error_stack, ccs_evaluation_hash, ccs_features_evaluation_hash, ccs_tree_evaluation_hash (and ccs_binding_hash of an evaluation), ccs_configuration_space_check_configuration (C127_null_written); NULL is accepted by ccs_object_set_serialize_callback, ccs_tree_configuration_get_values, ccs_map_get_pairs, ccs_distribution_soa_samples (count 0); the ccs_binding_* and ccs_context_* functions take an object of any kind; ccs_features_space_check_features_values wants a configuration space (C67).  What a call does after its checks is not part of this property."
  },
  {
   "property": "C128",
   "status": "partial",
   "theorems": [
    "CCS.Props.C128_used_alive",
    "CCS.Props.C128_destroyed_partial",
    "CCS.Props.C128_first_callback_freed"
   ],
   "note": "Proved for every history of attachments on plain and user defined objects: data and serialization callbacks are used alive and are the last ones attached; on destruction each destroy callback is called once, last one first, alive, and the registry forgets the object, unless a destroy callback was the first thing attached.  Violated in that case, whatever else is done (C128_first_callback_freed): the cleanup of the registry is itself a destroy callback registered after it, destroy callbacks run in reverse order, so that the callback is freed before it is called."
  },
  {
   "property": "C129",
   "status": "partial",
   "theorems": [
    "CCS.Props.C129_restored_partial",
    "CCS.Props.C129_data_refused"
   ],
   "note": "Proved for user defined objects without user data.  Violated with user data, whatever they are (C129_data_refused): restoring the data registers the new object, and _register_vector then refuses an object that is already registered."
  },
  {
   "property": "C130",
   "status": "partial",
   "theorems": [
    "CCS.Props.C130_alive",
    "CCS.Props.C130_freed_partial",
    "CCS.Props.C130_default_distribution_leaks"
   ],
   "note": "Tables of the 113 functions of the library that return handles (reference given or lent), and of the 100 Python and 96 Ruby wrappers made of them.  Proved for all sequences of calls and collections: no freed object is touched, needed objects are in memory, and objects nobody needs are freed.  Violated by Parameter.default_distribution in both bindings: the new reference of ccs_parameter_get_default_distribution is retained once more by the wrapper and never freed (C130_default_distribution_leaks)."
  },
  {
   "property": "C131",
   "status": "partial",
   "theorems": [
    "CCS.Props.C131_class_partial",
    "CCS.Props.C131_features_space",
    "CCS.Props.C131_expression_parameters"
   ],
   "note": "Proved for all wrappers but three.  Violated in Python: Features.features_space names a class that is not imported (NameError), and a features space read back or got as a context is a ConfigurationSpace, whose 18 own functions all refuse it (C131_features_space, with the checks of C127); in Ruby: Expression#parameters names a class that does not exist (C131_expression_parameters)."
  },
  {
   "property": "C132",
   "status": "partial",
   "theorems": [
    "CCS.Props.C132_value_partial",
    "CCS.Props.C132_int_wraps",
    "CCS.Props.C132_string_cut",
    "CCS.Props.C132_strings_copied",
    "CCS.Props.C132_map_partial",
    "CCS.Props.C132_refusals_partial",
    "CCS.Props.C132_keys_collide",
    "CCS.Props.C132_has_key_fails"
   ],
   "note": "Proved for all values the library can represent (64-bit integers, strings without NUL, floats, booleans, None, inactive) and all histories.  Violated: other integers are silently reduced modulo 2^64 (C132_int_wraps), strings are silently cut at a NUL (C132_string_cut), so that different keys of a map become one (C132_keys_collide); Map.has_key always raises, as it uses a name its module does not import (C132_has_key_fails)."
  },
  {
   "property": "C133",
   "status": "partial",
   "theorems": [
    "CCS.Props.C133_python_partial",
    "CCS.Props.C133_evaluations",
    "CCS.Props.C133_ruby_partial",
    "CCS.Props.C133_raised",
    "CCS.Props.C133_written_outside",
    "CCS.Props.C133_ruby_padding",
    "CCS.Props.C133_references_lost"
   ],
   "note": "Proved at the level of bytes for every size of array and every list: Python ask, get_optima and get_history in both languages, Ruby ask when as many configurations are given as asked for.  Violated: a count within bounds with more configurations writes past the array in both languages (C133_written_outside); Ruby pads with NULL at offset 9*i instead of 8*i, past the end of every array of two or more places (C133_ruby_padding; trusts that FFI pointers given to callbacks have elements of one byte); an element that is not a configuration loses the references taken before it (C133_references_lost)."
  },
  {
   "property": "C134",
   "status": "partial",
   "theorems": [
    "CCS.Props.C134_python_state_partial",
    "CCS.Props.C134_python_buffer",
    "CCS.Props.C134_never_read",
    "CCS.Props.C134_ruby_never_written"
   ],
   "note": "Proved: the state given by Python is what is written.  Violated: no message is ever read with a callback for the state, in either language (C134_never_read: undefined names POINTER and c_byte, a c_void_p that is indexed, p_p_history, a method called instead of the callback), and a Ruby tuner with a callback for its state is never written (C134_ruby_never_written)."
  },
  {
   "property": "C135",
   "status": "partial",
   "theorems": [
    "CCS.Props.C135_strings_of_maps_partial",
    "CCS.Props.C135_own_key_is_freed",
    "CCS.Props.C135_own_value_is_freed"
   ],
   "note": "Memory model of the strings of a map (blocks, pointers, buffers of the program).  Proved for all programs that pass strings as documented (transient, or in buffers left alone).  Violated for strings taken from the map: setting another value for a key that ccs_map_get_pairs returned reads the key after it was freed, in every such state (C135_own_key_is_freed: src/map.c:225-227 remove the old entry before HASH_ADD hashes the key that is stored in it); a value of the map stored under another key dangles when the first key is deleted (C135_own_value_is_freed)."
  },
  {
   "property": "C136",
   "status": "proved",
   "theorems": [
    "CCS.Props.C136_strings_of_bindings",
    "CCS.Props.C136_one_copy"
   ],
   "note": "Same memory model, one string parameter and any number of bindings.  The parameter outlives the bindings that use it (C103).  Strings taken from another parameter without the transient flag are not kept; the documentation asks that they stay allocated."
  },
  {
   "property": "C137",
   "status": "partial",
   "theorems": [
    "CCS.Props.C137_value_partial",
    "CCS.Props.C137_integers_refused",
    "CCS.Props.C137_strings_copied",
    "CCS.Props.C137_text_differs",
    "CCS.Props.C137_string_cut",
    "CCS.Props.C137_identifier_refused",
    "CCS.Props.C137_identifier_read",
    "CCS.Props.C137_map_read_back",
    "CCS.Props.C137_map_partial",
    "CCS.Props.C137_no_enumeration"
   ],
   "note": "Proved for all 64-bit integers (others are refused), ASCII strings without NUL, floats, booleans, nil, inactive and objects, and for all programs that use []=, [], include? and size.  Violated: strings that are not ASCII come back in the binary encoding and are not equal (C137_text_differs, trusts FFI's read_string); strings are cut at a NUL (C137_string_cut); the bitmask of the flags lacks CCS_DATUM_FLAG_ID, so identifiers are refused (C137_identifier_refused) and read as live objects, which is undefined for those of a map that was read back (C137_identifier_read, C137_map_read_back); keys, values, pairs and each call a method that does not exist (C137_no_enumeration)."
  },
  {
   "property": "C138",
   "status": "partial",
   "theorems": [
    "CCS.Props.C138_surfaces_partial",
    "CCS.Props.C138_silent",
    "CCS.Props.C138_silent_success",
    "CCS.Props.C138_exit",
    "CCS.Props.C138_text_cut"
   ],
   "note": "Proved for all programs whose exceptions have a text without NUL and derive from Exception, with callbacks nested to any depth, handled or not, and whatever ctypes leaves in the result of a callback that raises.  Violated for exceptions without a text (assert, raise ValueError()): ErrorStack passes the empty str to c_char_p, which raises in the handler, so the result of the callback is not written and if it reads as a success the call succeeds (C138_silent, C138_silent_success); the same for KeyboardInterrupt and SystemExit (C138_exit); a text is cut at a NUL (C138_text_cut)."
  },
  {
   "property": "C139",
   "status": "proved",
   "theorems": [
    "CCS.Props.C139_shares"
   ],
   "note": "For every draw in [0, 1), with IEEE double arithmetic as the code computes it; the draws that select an area are exactly those of an interval, and its width is within (n+1)/2^49 of the share.  That draws are uniform is GSL's business.  Sums of weights that overflow are excluded by the statement (see C72)."
  },
  {
   "property": "C140",
   "status": "proved",
   "theorems": [
    "CCS.Props.C140_positions",
    "CCS.Props.C140_shares",
    "CCS.Props.C140_uniform"
   ],
   "note": "For every forest built by calls (GrownForest), every node, and draws in [0, 1): the sequences of samples are exactly the draws in a product of boxes (C140_shares, which gives independence), the positions are exactly the valid ones (C140_positions), and with weights and biases of 1 the shares are equal (C140_uniform).  Tame says that totals are finite, zero or with a finite inverse, and that no product with a bias is subnormal; trees outside are the subject of C72 and C74."
  },
  {
   "property": "C141",
   "status": "proved",
   "theorems": [
    "CCS.Props.C141_shares"
   ],
   "note": "Any components, IEEE arithmetic; the intervals of the components follow each other from 0 to 1, a draw in the interval of a component gives a sample of that component with the rest of the generator, then the other samples.  Weights whose sum overflows are excluded by the statement; mixtures refused because of rounding are C85."
  },
  {
   "property": "C142",
   "status": "proved",
   "theorems": [
    "CCS.Props.C142_tuner",
    "CCS.Props.C142_features_tuner",
    "CCS.Props.C142_tree_tuner"
   ],
   "note": "The draws are counted (Nat.count over the range of the generator); the features tuner counts among the optima whose features are the same binding.  That the generator gives all numbers equally often is GSL's business."
  },
  {
   "property": "C143",
   "status": "partial",
   "theorems": [
    "CCS.Props.C143_python_get",
    "CCS.Props.C143_python_set_partial",
    "CCS.Props.C143_python_name_crashes",
    "CCS.Props.C143_python_unknown",
    "CCS.Props.C143_python_position_wraps",
    "CCS.Props.C143_python_no_hash",
    "CCS.Props.C143_python_validate",
    "CCS.Props.C143_python_validate_position",
    "CCS.Props.C143_python_values",
    "CCS.Props.C143_python_set_values",
    "CCS.Props.C143_python_asdict",
    "CCS.Props.C143_python_asdict_grown",
    "CCS.Props.C143_ruby_get_partial",
    "CCS.Props.C143_ruby_no_parameter",
    "CCS.Props.C143_ruby_set",
    "CCS.Props.C143_ruby_set_values",
    "CCS.Props.C143_ruby_validate",
    "CCS.Props.C143_ruby_to_h"
   ],
   "note": "Python: reading by all three ways, setting by parameter and position, in bulk, dictionary of a space that did not grow, validation by position. Ruby: setting by all ways, reading by name, symbol and position, dictionary, validation. Values that are objects of the library are left out. False, proved: setting by name from Python ends the program (a pointer is given to ctypes where a structure is expected; CPython 3.11), Python has no hash for configurations, validates by position only, has no dictionary once the space has grown, and takes positions modulo 2^64; Ruby cannot read by parameter."
  },
  {
   "property": "C144",
   "status": "partial",
   "theorems": [
    "CCS.Props.C144_python_sample",
    "CCS.Props.C144_ruby_sample",
    "CCS.Props.C144_ruby_samples",
    "CCS.Props.C144_python_samples_partial",
    "CCS.Props.C144_python_samples_refused",
    "CCS.Props.C144_bounds_partial",
    "CCS.Props.C144_bounds_overflow"
   ],
   "note": "sample of both languages, samples of Ruby, and for distributions of one dimension samples of Python, bounds and is_oversampling. False, proved, for all distributions of several dimensions: samples of Python always raises an exception (ctypes refuses the array of arrays), bounds of both languages lets the library write past the end of one interval, is_oversampling reads past it."
  },
  {
   "property": "C145",
   "status": "partial",
   "theorems": [
    "CCS.Props.C145_python_build",
    "CCS.Props.C145_ruby_build",
    "CCS.Props.C145_literal",
    "CCS.Props.C145_python_eval_partial",
    "CCS.Props.C145_ruby_eval",
    "CCS.Props.C145_counts",
    "CCS.Props.C145_python_no_parameters",
    "CCS.Props.C145_parameters_fail"
   ],
   "note": "Building, literals, evaluation and refused counts in both languages. False, proved: in Python nothing can be evaluated in a context without parameters (an empty list is false), and in neither language can the parameters of an expression that has some be asked for (an attribute and a class that do not exist). Values that are objects of the library are left out."
  },
  {
   "property": "C146",
   "status": "proved",
   "theorems": [
    "CCS.Props.C146_created",
    "CCS.Props.C146_undefined_only_by_overflow",
    "CCS.Props.C146_defined"
   ],
   "note": "Creation: `C146_created` (accepted exactly when the operator, the number and the kind of the operands are right; the operands are those given). Evaluation of any expression built through the API: `C146_undefined_only_by_overflow` and its corollary `C146_defined`. The caller owes a value for each parameter of the context. That an overflow is not refused is the violation recorded under C46."
  },
  {
   "property": "C147",
   "status": "partial",
   "theorems": [
    "CCS.Props.C147_python_condition",
    "CCS.Props.C147_python_lists",
    "CCS.Props.C147_python_distribution_count",
    "CCS.Props.C147_python_distribution",
    "CCS.Props.C147_python_additions_partial",
    "CCS.Props.C147_python_no_distributions",
    "CCS.Props.C147_ruby_condition",
    "CCS.Props.C147_ruby_lists",
    "CCS.Props.C147_ruby_distribution_count",
    "CCS.Props.C147_ruby_distribution_partial",
    "CCS.Props.C147_ruby_distribution_by_name",
    "CCS.Props.C147_ruby_additions_partial",
    "CCS.Props.C147_ruby_default_distribution"
   ],
   "note": "Proved for conditions (both languages), lists and counts (both languages) and distributions from Python. Violated, and proved so: from Ruby a list of parameters in which one is named by its name always fails (undefined variable in the block, C147_ruby_distribution_by_name), a list of distributions with nil is refused (C147_ruby_default_distribution), and from Python an empty list of distributions is taken for none (C147_python_no_distributions)."
  },
  {
   "property": "C148",
   "status": "partial",
   "theorems": [
    "CCS.Props.Kinds.C148_outcome",
    "CCS.Props.Kinds.C148_total_order_partial",
    "CCS.Props.Kinds.C148_hash",
    "CCS.Props.Kinds.C148_confused",
    "CCS.Props.Kinds.C148_refused",
    "CCS.Props.Kinds.C148_not_a_binding"
   ],
   "note": "`C148_outcome` says, for any two bindings of a well-typed heap, exactly when comparing answers, when it is refused and when it is undefined; `C148_total_order_partial` and `C148_hash` are the order and the hash. Violated, and proved so: an evaluation and an evaluation with features of the same space and values are read as each other (C148_confused), an evaluation and a tree evaluation are refused (C148_refused), and any object is taken for a binding (C148_not_a_binding)."
  },
  {
   "property": "C149",
   "status": "partial",
   "theorems": [
    "CCS.Props.BoundOrder.C149_python_order_partial",
    "CCS.Props.BoundOrder.C149_python_tree_order",
    "CCS.Props.BoundOrder.C149_python_tree_hash",
    "CCS.Props.BoundOrder.C149_python_hash",
    "CCS.Props.BoundOrder.C149_strangers",
    "CCS.Props.BoundOrder.C149_ruby_order",
    "CCS.Props.BoundOrder.C149_ruby_hash",
    "CCS.Props.BoundOrder.C149_ruby_evaluations_partial",
    "CCS.Props.BoundOrder.C149_ruby_features_evaluations",
    "CCS.Props.BoundOrder.C149_ruby_failed",
    "CCS.Props.BoundOrder.C149_ruby_keys",
    "CCS.Props.BoundOrder.C149_ruby_equal_evaluations",
    "CCS.Props.BoundOrder.C149_languages_differ"
   ],
   "note": "Proved: the order of bindings from Python (`C149_python_order_partial`, without clashes as for C148), of tree configurations from Python with their hash, of configurations and features from Ruby with their hash, and what the operators mean for evaluations in Ruby. Violated, and proved so: nothing but tree configurations can be hashed in Python (C149_python_hash), comparing with None or nil raises (C149_strangers), in Ruby evaluations of different configurations are equal with different hashes (C149_ruby_equal_evaluations), failed ones cannot be compared (C149_ruby_failed), equal configurations are never the same key (C149_ruby_keys), and the languages disagree on evaluations (C149_languages_differ)."
  },
  {
   "property": "C150",
   "status": "partial",
   "theorems": [
    "CCS.Props.BoundInterval.C150_read_back_partial",
    "CCS.Props.BoundInterval.C150_include_partial",
    "CCS.Props.BoundInterval.C150_empty",
    "CCS.Props.BoundInterval.C150_intersect",
    "CCS.Props.BoundInterval.C150_equal",
    "CCS.Props.BoundInterval.C150_not_empty_partial",
    "CCS.Props.BoundInterval.C150_equal_integers_partial",
    "CCS.Props.BoundInterval.C150_ruby_refused",
    "CCS.Props.BoundInterval.C150_python_wraps",
    "CCS.Props.BoundInterval.C150_ruby_truncates"
   ],
   "note": "Proved in both languages for numbers of the type of the interval that 64 bits hold, and that Ruby refuses larger integers. Violated, and proved so: Python takes integers modulo 2^64, so 2^64 + 3 is inside from 0 to 10 (C150_python_wraps), and Ruby looks for the integer part of a float, so 10.5 is inside from 0 to 10 (C150_ruby_truncates)."
  },
  {
   "property": "C151",
   "status": "partial",
   "theorems": [
    "CCS.Props.BoundSerial.C151_serialize_partial",
    "CCS.Props.BoundSerial.C151_options_partial",
    "CCS.Props.BoundSerial.C151_round_trip_partial",
    "CCS.Props.BoundSerial.C151_one_source",
    "CCS.Props.BoundSerial.C151_callbacks_in_bounds",
    "CCS.Props.BoundSerial.C151_user_data",
    "CCS.Props.BoundSerial.C151_python_zero",
    "CCS.Props.BoundSerial.C151_python_cut_path",
    "CCS.Props.BoundSerial.C151_python_not_passed",
    "CCS.Props.BoundSerial.C151_python_unterminated",
    "CCS.Props.BoundSerial.C151_python_large"
   ],
   "note": "Proved: one message in all channels and both languages (`C151_serialize_partial`), reading it back in either language (`C151_round_trip_partial`), the options passed on (`C151_options_partial`), one source only, user data through the default callbacks (`C151_user_data`) and callbacks that stay in their place (`C151_callbacks_in_bounds`). Violated in Python, and proved so: descriptor 0 and empty paths count as none (C151_python_zero), paths are cut at a NUL (C151_python_cut_path), an empty handle map and data that count as false are not passed on (C151_python_not_passed), user data without a NUL are read beyond their end (C151_python_unterminated), and messages of 4 GB or more cannot be returned (C151_python_large)."
  },
  {
   "property": "C152",
   "status": "partial",
   "theorems": [
    "CCS.Props.BoundTree.C152_python_created_partial",
    "CCS.Props.BoundTree.C152_ruby_created_partial",
    "CCS.Props.BoundTree.C152_get_child_partial",
    "CCS.Props.BoundTree.C152_ruby_get_child",
    "CCS.Props.BoundTree.C152_python_wraps",
    "CCS.Props.BoundTree.C152_children",
    "CCS.Props.BoundTree.C152_position",
    "CCS.Props.BoundTree.C152_speaks",
    "CCS.Props.BoundTree.C152_set_child",
    "CCS.Props.BoundTree.C152_samples"
   ],
   "note": "Proved in both languages for all grown forests: creation (`C152_python_created_partial`, `C152_ruby_created_partial`), children, parents and places (`C152_children`, `C152_get_child_partial`), attaching (`C152_set_child`), depth, position and values with the way back (`C152_position`), samples (`C152_samples`). Violated, and proved so: from Python integers count modulo 2^64, so that get_child(2**64) is get_child(0) (C152_python_wraps); Ruby refuses them (C152_ruby_get_child). Values that no language or library represents are C132 and C137."
  },
  {
   "property": "C153",
   "status": "partial",
   "theorems": [
    "CCS.Props.BoundEval.C153_result_partial",
    "CCS.Props.BoundEval.C153_ruby_result",
    "CCS.Props.BoundEval.C153_python_result_wraps",
    "CCS.Props.BoundEval.C153_add_objective",
    "CCS.Props.BoundEval.C153_add_objectives_partial",
    "CCS.Props.BoundEval.C153_empty_types",
    "CCS.Props.BoundEval.C153_ruby_get_objective",
    "CCS.Props.BoundEval.C153_python_get_objective",
    "CCS.Props.BoundEval.C153_python_create",
    "CCS.Props.BoundEval.C153_ruby_create",
    "CCS.Props.BoundEval.C153_create_empty",
    "CCS.Props.BoundEval.C153_empty_values",
    "CCS.Props.BoundEval.C153_shows",
    "CCS.Props.BoundEval.C153_objective_values_partial",
    "CCS.Props.BoundEval.C153_kept",
    "CCS.Props.BoundEval.C153_stale",
    "CCS.Props.BoundEval.C153_stale_reached",
    "CCS.Props.BoundEval.C153_check_partial",
    "CCS.Props.BoundEval.C153_python_features_check",
    "CCS.Props.BoundEval.C153_python_check_values",
    "CCS.Props.BoundEval.C153_ruby_check_values",
    "CCS.Props.BoundEval.C153_compare"
   ],
   "note": "Proved in both languages: adding objectives (C153_add_objective, `C153_add_objectives_partial`), creation (C153_python_create, C153_ruby_create, C153_create_empty), results (`C153_result_partial`, C153_ruby_result), objective values while no objective was added since the first question (`C153_objective_values_partial`; C153_kept for all programs), checks (`C153_check_partial`, C153_python_check_values, C153_ruby_check_values), comparisons (C153_compare), the objective at a position in Ruby (C153_ruby_get_objective). Violated, and proved so: an evaluation asked for its objective values keeps their number, so that after another objective is added the library writes past the array of the binding, or none are answered (C153_stale, reached by C153_stale_reached); Python's ObjectiveSpace.get_objective always raises (C153_python_get_objective), and so does checking an evaluation with features from Python (C153_python_features_check); Python keeps 32 bits of a result (C153_python_result_wraps); an empty list of values or types counts as none in Python (C153_empty_values, C153_empty_types), and Ruby refuses the empty list of values even where it is right."
  },
  {
   "property": "C154",
   "status": "partial",
   "theorems": [
    "CCS.Props.BoundTuner.C154_history",
    "CCS.Props.BoundTuner.C154_optima",
    "CCS.Props.BoundTuner.C154_front_partial",
    "CCS.Props.BoundTuner.C154_features",
    "CCS.Props.BoundTuner.C154_ask_partial",
    "CCS.Props.BoundTuner.C154_ask_loses",
    "CCS.Props.BoundTuner.C154_ask_loses_reached",
    "CCS.Props.BoundTuner.C154_suggest_for"
   ],
   "note": "Proved for all sequences of batches: the history (C154_history), the optima among it (C154_optima), as its Pareto front where C63 holds (`C154_front_partial`), by features (C154_features), suggestions for features (C154_suggest_for), and that the configurations asked for are as many as asked and valid (`C154_ask_partial`, under the hypotheses of C50). Violated, and proved so: when the sampling fails the configurations already found are neither given to the program nor released (C154_ask_loses, reached by C154_ask_loses_reached)."
  },
  {
   "property": "C155",
   "status": "partial",
   "theorems": [
    "CCS.Props.BoundParam.C155_python_name_partial",
    "CCS.Props.BoundParam.C155_python_nul",
    "CCS.Props.BoundParam.C155_ruby_name_partial",
    "CCS.Props.BoundParam.C155_ruby_colon",
    "CCS.Props.BoundParam.C155_ruby_quoted",
    "CCS.Props.BoundParam.C155_ruby_binary",
    "CCS.Props.BoundParam.C155_default_names_differ",
    "CCS.Props.BoundParam.C155_default_name_back",
    "CCS.Props.BoundParam.C155_understood",
    "CCS.Props.BoundParam.C155_number_back_partial",
    "CCS.Props.BoundParam.C155_int_created_partial",
    "CCS.Props.BoundParam.C155_number_defaults",
    "CCS.Props.BoundParam.C155_python_wraps",
    "CCS.Props.BoundParam.C155_ruby_refuses",
    "CCS.Props.BoundParam.C155_check_number_partial",
    "CCS.Props.BoundParam.C155_listed_created_partial",
    "CCS.Props.BoundParam.C155_listed_back",
    "CCS.Props.BoundParam.C155_check_listed",
    "CCS.Props.BoundParam.C155_compare",
    "CCS.Props.BoundParam.C155_compare_unlisted",
    "CCS.Props.BoundParam.C155_python_check_values",
    "CCS.Props.BoundParam.C155_samples",
    "CCS.Props.BoundParam.C155_ruby_check_values",
    "CCS.Props.BoundParam.C155_python_index_wraps"
   ],
   "note": "Proved for both languages and all kinds of parameters: names that are plain text (`C155_python_name_partial`, `C155_ruby_name_partial`), default names (C155_default_names_differ, C155_default_name_back), the values both languages can count on (C155_understood), numerical parameters (`C155_number_back_partial`, `C155_int_created_partial`, C155_number_defaults, `C155_check_number_partial`, C155_ruby_refuses), lists (`C155_listed_created_partial`, C155_listed_back, C155_check_listed, C155_compare, C155_compare_unlisted), check_values from Python, samples. Violated: in Python names end at a NUL (C155_python_nul), integers and positions beyond 64 bits wrap around (C155_python_wraps, C155_python_index_wraps); in Ruby a string with a line that begins with a colon comes back as a symbol (C155_ruby_colon), a symbol that needs quotes comes back with them (C155_ruby_quoted), text that is not ASCII comes back different (C155_ruby_binary), and check_values raises for every list that is not empty (C155_ruby_check_values). Integer bounds 2^63 or more apart are undefined behaviour (C32)."
  },
  {
   "property": "C156",
   "status": "partial",
   "theorems": [
    "CCS.Props.BoundDist.C156_class",
    "CCS.Props.BoundDist.C156_uniform_partial",
    "CCS.Props.BoundDist.C156_normal_partial",
    "CCS.Props.BoundDist.C156_uniform_int_iff",
    "CCS.Props.BoundDist.C156_defaults",
    "CCS.Props.BoundDist.C156_python_wraps",
    "CCS.Props.BoundDist.C156_ruby_refuses",
    "CCS.Props.BoundDist.C156_float_bounds",
    "CCS.Props.BoundDist.C156_weights_partial",
    "CCS.Props.BoundDist.C156_python_pads",
    "CCS.Props.BoundDist.C156_python_excess",
    "CCS.Props.BoundDist.C156_ruby_weights",
    "CCS.Props.BoundDist.C156_weights_ignored",
    "CCS.Props.BoundDist.C156_components",
    "CCS.Props.BoundDist.C156_areas",
    "CCS.Props.BoundDist.C156_copy_partial",
    "CCS.Props.BoundDist.C156_padded_witness"
   ],
   "note": "Proved in both languages: classes (C156_class), properties read back (`C156_uniform_partial`, `C156_normal_partial`), when a distribution of integers can be created (C156_uniform_int_iff, for bounds less than 2^63 apart; see C75 for others), defaults (C156_defaults), mixtures with as many weights as components (`C156_weights_partial`), components (C156_components), areas (C156_areas), and copies of nested distributions with IEEE arithmetic (`C156_copy_partial`, within the limits of C84). Violated, and proved so: from Python bounds count modulo 2^64 (C156_python_wraps) while Ruby refuses (C156_ruby_refuses); from Ruby floats given for integers lose what is after the point (C156_float_bounds); from Python missing weights are zeros, so that the last components are never drawn (C156_python_pads, C156_padded_witness), where Ruby refuses (C156_ruby_weights); Python multivariate distributions accept weights and ignore them (C156_weights_ignored)."
  },
  {
   "property": "C157",
   "status": "partial",
   "theorems": [
    "CCS.Props.Seeded.C157_replay",
    "CCS.Props.Seeded.C157_again",
    "CCS.Props.Seeded.C157_reseed",
    "CCS.Props.Seeded.C157_others",
    "CCS.Props.Seeded.C157_streams",
    "CCS.Props.Seeded.C157_sample_valid_partial",
    "CCS.Props.Seeded.C157_unseeded"
   ],
   "note": "Proved: same answers for programs that seed first, from any two worlds that agree on the seeded generators (C157_replay) and from nothing (C157_again); seeding again (C157_reseed); generators that are left alone (C157_others); sampling with a generator is sampling with streams drawn from the distributions (C157_streams), so that what is proved for all streams holds of it; sampled configurations are valid (`C157_sample_valid_partial`, for parameters whose bounds are numbers: C50 shows that others fail). Seeding is needed (C157_unseeded). That gsl_rng_set makes the state depend on the seed and the type alone is taken from the documentation of the GSL."
  },
  {
   "property": "C158",
   "status": "partial",
   "theorems": [
    "CCS.Props.BoundConfig.C158_python_create",
    "CCS.Props.BoundConfig.C158_ruby_create",
    "CCS.Props.BoundConfig.C158_create_blank",
    "CCS.Props.BoundConfig.C158_empty_values",
    "CCS.Props.BoundConfig.C158_returns",
    "CCS.Props.BoundConfig.C158_copy",
    "CCS.Props.BoundConfig.C158_copy_valid",
    "CCS.Props.BoundConfig.C158_check_created",
    "CCS.Props.BoundConfig.C158_python_check_values",
    "CCS.Props.BoundConfig.C158_ruby_check_values",
    "CCS.Props.BoundConfig.C158_features_check_values",
    "CCS.Props.BoundConfig.C158_sample_partial",
    "CCS.Props.BoundConfig.C158_default_partial",
    "CCS.Props.BoundConfig.C158_samples_partial",
    "CCS.Props.BoundConfig.C158_samples_loses",
    "CCS.Props.BoundConfig.C158_samples_loses_reached",
    "CCS.Props.BoundConfig.C158_seed_partial",
    "CCS.Props.BoundConfig.C158_ruby_seed",
    "CCS.Props.BoundConfig.C158_seed_wraps"
   ],
   "note": "Proved in both languages: creation with a list that is not empty (C158_python_create, C158_ruby_create) and without one (C158_create_blank), copies (C158_copy, C158_copy_valid, with C158_returns for each language, for spaces with a parameter, Booleans that are 0 or 1 and texts without NUL), checks (C158_check_created, C158_python_check_values, C158_ruby_check_values, where conditions and clauses have a value), the default configuration (`C158_default_partial`, see C49), samples (`C158_sample_partial`, `C158_samples_partial`, under the hypotheses of C50), seeds of 64 bits (`C158_seed_partial`, C158_ruby_seed). Violated, and proved so: in Python an empty list creates a configuration without values, and Ruby refuses it even where it is right (C158_empty_values); check_values of a features space always raises (C158_features_check_values, from C67); when sampling fails the configurations already found are neither given to the program nor released (C158_samples_loses, reached by C158_samples_loses_reached); from Python seeds count modulo 2^64 and in both languages negative ones are taken for large ones (C158_seed_wraps)."
  },
  {
   "property": "C159",
   "status": "partial",
   "theorems": [
    "CCS.Props.BoundTreeSpace.C159_create",
    "CCS.Props.BoundTreeSpace.C159_equal",
    "CCS.Props.BoundTreeSpace.C159_python_wraps",
    "CCS.Props.BoundTreeSpace.C159_asks_space",
    "CCS.Props.BoundTreeSpace.C159_other_space",
    "CCS.Props.BoundTreeSpace.C159_answers_stay",
    "CCS.Props.BoundTreeSpace.C159_kept",
    "CCS.Props.BoundTreeSpace.C159_dynamic_kept",
    "CCS.Props.BoundTreeSpace.C159_dynamic_finds",
    "CCS.Props.BoundTreeSpace.C159_check_changes",
    "CCS.Props.BoundTreeSpace.C159_samples_partial",
    "CCS.Props.BoundTreeSpace.C159_samples_counts",
    "CCS.Props.BoundTreeSpace.C159_full_usable",
    "CCS.Props.BoundTreeSpace.C159_sample_no_node",
    "CCS.Props.BoundTreeSpace.C159_samples_loses"
   ],
   "note": "Proved in both languages: creation with numbers that fit in 64 bits (C159_create), equality (C159_equal), the questions asked of the space (C159_asks_space, C159_other_space), that answers stay whatever calls follow (C159_answers_stay, with C159_check_changes for what can change) and so that what an object keeps is what would be answered now (C159_kept), samples (`C159_samples_partial`, C159_samples_counts, up to arity 2^53), and that valid configurations have a node and values when no place of the tree is empty (C159_full_usable). Violated, and proved so: from Python the numbers of a position count modulo 2^64 (C159_python_wraps); a sample may be an empty place, valid but without node or values (C159_sample_no_node); when a draw fails the configurations already drawn are neither given to the program nor released (C159_samples_loses). Configurations of dynamic spaces that were asked before answer as new ones do, whatever the callback does by then (C159_dynamic_kept), and what they answer is what is found in the tree of the space (C159_dynamic_finds); the rest about dynamic spaces is C73."
  },
  {
   "property": "C160",
   "status": "partial",
   "theorems": [
    "CCS.Props.BoundIdentity.C160_parameters_equal",
    "CCS.Props.BoundIdentity.C160_found",
    "CCS.Props.BoundIdentity.C160_keys_partial",
    "CCS.Props.BoundIdentity.C160_python_parameters",
    "CCS.Props.BoundIdentity.C160_ruby_parameters",
    "CCS.Props.BoundIdentity.C160_others"
   ],
   "note": "Proved in both languages: equality of parameters (C160_parameters_equal), parameters found in the lists of any space at their position (C160_found), and dictionaries questioned with the very object a value was kept under (`C160_keys_partial`). Violated, and proved so: in Python no parameter can be a key (C160_python_parameters); in Ruby a parameter given back by a space is equal to the one it was made with and yet another key (C160_ruby_parameters); in both, two objects for the same space, distribution, expression, tuner, tree or generator are not even equal (C160_others). Configurations, features, evaluations and tree configurations are those of C149."
  },
  {
   "property": "C161",
   "status": "partial",
   "theorems": [
    "CCS.Props.RbErr.C161_surfaces_partial",
    "CCS.Props.RbErr.C161_exit",
    "CCS.Props.RbErr.C161_nul",
    "CCS.Props.RbErr.C161_no_text"
   ],
   "note": "Proved for all programs whose exceptions have a text without NUL and are StandardErrors, with callbacks nested to any depth, handled or not (C161_surfaces_partial), by showing that on them Ruby does what Python does (C138) and that the library sees the code of each failure; an empty text is reported too (C161_no_text). Violated, and proved so: exceptions that are no StandardError (Interrupt, NotImplementedError) pass the rescue clauses, and an exception whose text has a NUL makes the report itself raise; in both cases ffi gives the library a success and raises the exception later (C161_exit, C161_nul). What ffi does then is stated in the model from its manual and source, not from /repo."
  },
  {
   "property": "C162",
   "status": "partial",
   "theorems": [
    "CCS.Props.Resumed.C162_goes_on",
    "CCS.Props.Resumed.C162_many",
    "CCS.Props.Resumed.C162_resume_partial",
    "CCS.Props.Resumed.C162_restarts",
    "CCS.Props.Resumed.C162_suggests",
    "CCS.Props.Resumed.C162_tuner_partial"
   ],
   "note": "Any number of configurations, every state of the generator, every way of drawing: C162_goes_on and C162_many whenever the distributions come back identical, and C162_resume_partial from the bytes written to the state of the generator; C162_tuner_partial for a random tuner, with or without features, asked for configurations and suggestions and told evaluations in any order, with C162_suggests for what is suggested. False between byte orders or sizes of state, proved (C162_restarts): the space read starts again with a new generator and no error. The limits of C87 (shared expressions, clauses without value on the default, distributions that change) remain."
  }
 ]
}