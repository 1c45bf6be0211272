{"id": "C01", "title": "Unsigned integers survive the wire", "statement": "Writing an unsigned size, enumeration or handle into a buffer and reading it back yields the same number, consumes exactly the bytes that were written, and leaves whatever follows in the buffer untouched.", "quantifier": "every 32-bit and every 64-bit value, every tail of following bytes", "why_tests_cant": "2^64 values times arbitrary following data; carry/continuation boundaries are every multiple of 7 bits", "anchors": ["src/cconfigspace_internal.h:CCS_COMPRESSED_SERIALIZER", "src/cconfigspace_internal.h:CCS_COMPRESSED_DESERIALIZER"]}
{"id": "C02", "title": "Signed integers survive the wire", "statement": "Writing a signed integer (parameter values, bounds, evaluation results) and reading it back yields the same integer, including the most negative one.", "quantifier": "every 32-bit and 64-bit signed value, every tail", "why_tests_cant": "the sign folding must be a bijection on the full range", "anchors": ["src/cconfigspace_internal.h:ccs_zigzag_encode_int64", "src/cconfigspace_internal.h:ccs_zigzag_decode_int64", "src/cconfigspace_internal.h:CCS_COMPRESSED_SERIALIZER_SIGNED"]}
{"id": "C03", "title": "Floats and fixed-width fields survive the wire on any host byte order", "statement": "A float, hash or uncompressed 64-bit size written on a host of either endianness is read back bit for bit (including NaN payloads, infinities and signed zeros) on a host of either endianness, and the bytes produced do not depend on the host's endianness.", "quantifier": "every 32/64-bit pattern and every pair of host byte orders", "why_tests_cant": "no test machine has both byte orders; 2^64 patterns", "anchors": ["src/cconfigspace_internal.h:CCS_PACKER", "src/cconfigspace_internal.h:CCS_UNPACKER", "src/cconfigspace_internal.h:ccs_bswap_uint64", "src/cconfigspace_internal.h:CCS_SERIALIZER"]}
{"id": "C04", "title": "Announced size is exact", "statement": "The size reported by a size query equals the number of bytes the corresponding write produces: a buffer of exactly that size is accepted and completely filled, and any smaller buffer is refused with NOT_ENOUGH_DATA without a single byte being written past its end.", "quantifier": "every primitive, string, interval, datum and recursive value; every buffer size", "why_tests_cant": "the size function and the writer are two independent pieces of code that must agree on all values", "anchors": ["src/cconfigspace_internal.h:_ccs_serialize_bin_size_ccs_datum", "src/cconfigspace_internal.h:_ccs_serialize_bin_ccs_datum", "src/cconfigspace.c:_ccs_object_serialize_memory"]}
{"id": "C05", "title": "Strings and blobs survive the wire", "statement": "A string (with its terminator) or an opaque blob written to a buffer reads back with identical contents and length, whatever bytes follow.", "quantifier": "every NUL-free string, every blob, every tail", "why_tests_cant": "unbounded contents", "anchors": ["src/cconfigspace_internal.h:_ccs_serialize_bin_string", "src/cconfigspace_internal.h:_ccs_deserialize_bin_string", "src/cconfigspace_internal.h:_ccs_serialize_bin_ccs_blob"]}
{"id": "C06", "title": "Datums survive the wire", "statement": "A datum of any kind written and read back has the same kind and the same value; strings come back marked transient and object references come back marked as plain ids; booleans are preserved whenever their stored value fits the boolean type.", "quantifier": "every datum kind and value", "why_tests_cant": "product of kinds, values and flags", "anchors": ["src/cconfigspace_internal.h:_ccs_serialize_bin_ccs_datum", "src/cconfigspace_internal.h:_ccs_deserialize_bin_ccs_datum"]}
{"id": "C07", "title": "Intervals survive the wire", "statement": "An interval written and read back has the same type, bounds and inclusion flags.", "quantifier": "every interval of both numeric types", "why_tests_cant": "unbounded values", "anchors": ["src/cconfigspace_internal.h:_ccs_serialize_bin_ccs_interval", "src/cconfigspace_internal.h:_ccs_deserialize_bin_ccs_interval"]}
{"id": "C08", "title": "Truncated input is refused", "statement": "If the buffer handed to a reader is a strict prefix of what the writer produced, the reader reports NOT_ENOUGH_DATA; it never succeeds with a wrong value and never reads past the end.", "quantifier": "every value and every truncation point", "why_tests_cant": "every crash/cut point of every message", "anchors": ["src/cconfigspace_internal.h:CCS_COMPRESSED_DESERIALIZER", "src/cconfigspace_internal.h:_ccs_deserialize_bin_ccs_datum", "src/cconfigspace_internal.h:_ccs_deserialize_bin_string"]}
{"id": "C09", "title": "Arbitrary input bytes cannot cause undefined behaviour in the readers", "statement": "Handing arbitrary bytes to a deserialization entry point yields either a value or an error code, never undefined behaviour (out-of-range shift, read past the buffer, null dereference).", "quantifier": "every byte string", "why_tests_cant": "the input space is all byte strings; sanitizers only see the ones tried", "anchors": ["src/cconfigspace_internal.h:CCS_COMPRESSED_DESERIALIZER", "src/cconfigspace_internal.h:_ccs_object_deserialize_user_data", "src/expression_deserialize.h:_ccs_deserialize_bin_ccs_expression_literal_data"]}
{"id": "C10", "title": "Container header is self-consistent", "statement": "The header produced for an object of a given size is read back as that size and version; a wrong magic tag, a newer version or a short buffer is refused with the documented error and nothing is created.", "quantifier": "every size, every candidate header", "why_tests_cant": "2^64 sizes, all 13-byte strings", "anchors": ["src/cconfigspace.c:_ccs_serialize_header", "src/cconfigspace.c:_ccs_deserialize_header"]}
{"id": "C11", "title": "Expressions survive serialization", "statement": "An expression tree serialized and deserialized with the parameters' handles mapped evaluates identically and has the same shape, node types, literals and variables.", "quantifier": "every expression of any depth and width", "why_tests_cant": "unbounded recursive structure", "anchors": ["src/expression.c:_ccs_serialize_bin_ccs_expression", "src/expression_deserialize.h:_ccs_deserialize_bin_expression"]}
{"id": "C12", "title": "Trees survive serialization", "statement": "A tree serialized and deserialized has the same shape, values, own weights, biases and therefore the same sampling areas at every node.", "quantifier": "every tree of any depth, arity and weights", "why_tests_cant": "unbounded recursive structure", "anchors": ["src/tree.c:_ccs_serialize_bin_ccs_tree", "src/tree_deserialize.h:_ccs_deserialize_bin_tree"]}
{"id": "C13", "title": "Parameters survive serialization", "statement": "A parameter serialized and deserialized has the same name, kind, domain and default value.", "quantifier": "every parameter that can be created", "why_tests_cant": "all domains, including values that are numerically equal but distinct", "anchors": ["src/parameter_deserialize.h:_ccs_deserialize_bin_parameter_categorical", "src/parameter_categorical.c"]}
{"id": "C14", "title": "Maps survive serialization", "statement": "A map serialized and deserialized contains the same associations in the same iteration order.", "quantifier": "every map built by any sequence of operations", "why_tests_cant": "unbounded operation histories", "anchors": ["src/map.c:_ccs_serialize_bin_ccs_map", "src/map_deserialize.h:_ccs_deserialize_bin_map"]}
{"id": "C15", "title": "Descriptor writes deliver the exact byte stream", "statement": "Serializing to a file descriptor in blocking mode delivers exactly the serialized bytes, once and in order, whatever partial writes, interruptions and would-block results the descriptor returns.", "quantifier": "every object encoding and every schedule of write results", "why_tests_cant": "write() schedules are controlled by the kernel and unbounded in length", "anchors": ["src/cconfigspace.c:_ccs_object_serialize_file_descriptor"]}
{"id": "C16", "title": "Resumed non-blocking writes continue where they stopped", "statement": "When a non-blocking serialization returns AGAIN and the caller calls again with the returned state, the remaining bytes are delivered and no byte is duplicated or lost.", "quantifier": "every encoding, every schedule of partial writes and restarts", "why_tests_cant": "needs every interleaving of AGAIN returns", "anchors": ["src/cconfigspace.c:_ccs_object_serialize_file_descriptor"]}
{"id": "C17", "title": "Descriptor reads assemble the exact message and terminate", "statement": "Deserializing from a descriptor reads exactly the announced number of bytes irrespective of short reads and interruptions, and returns (with an error) when the stream ends early.", "quantifier": "every schedule of read results including end of file", "why_tests_cant": "schedules are unbounded and controlled by the environment", "anchors": ["src/cconfigspace.c:_ccs_object_deserialize_file_descriptor"]}
{"id": "C18", "title": "Reference counting destroys exactly once", "statement": "After any sequence of retains and releases an object is alive exactly while retains plus one exceeds releases; it is destroyed by exactly one release, and its destructor runs once.", "quantifier": "every sequence of retain/release/attach-callback calls", "why_tests_cant": "unbounded histories", "anchors": ["src/cconfigspace.c:ccs_retain_object", "src/cconfigspace.c:ccs_release_object"]}
{"id": "C19", "title": "Destruction callbacks run in reverse order of attachment, once", "statement": "When the last reference is dropped every attached callback runs exactly once, in reverse order of attachment, before the object's own destructor.", "quantifier": "every number and order of attached callbacks interleaved with other calls", "why_tests_cant": "unbounded histories", "anchors": ["src/cconfigspace.c:ccs_object_set_destroy_callback", "src/cconfigspace.c:ccs_release_object"]}
{"id": "C20", "title": "Thread error stack reports the latest failure with its full call path", "statement": "After a failing call the thread's error stack holds that failure's code and the path of frames in the order they were unwound; a new failure replaces it, and taking it leaves the thread with none.", "quantifier": "every sequence of create/push/take/clear/set operations", "why_tests_cant": "unbounded histories", "anchors": ["src/error_stack.c"]}
{"id": "C21", "title": "Datum identity used by maps and bindings is an equivalence and a total order", "statement": "The comparison used to look up keys and to order configurations is reflexive, antisymmetric up to equality of kind and content, transitive and total, for all datums.", "quantifier": "every triple of datums of any kinds", "why_tests_cant": "triples over unbounded values", "anchors": ["src/datum_hash.h:_datum_cmp"]}
{"id": "C22", "title": "Equal datums hash equally", "statement": "Whenever two datums compare equal their hashes are equal, whatever their flags and wherever their strings are stored.", "quantifier": "every pair of datums", "why_tests_cant": "pairs over unbounded values", "anchors": ["src/datum_hash.h:_hash_datum", "src/datum_hash.h:_datum_cmp"]}
{"id": "C23", "title": "Public datum comparison is a total order", "statement": "ccs_datum_cmp defines a total order on datums (transitive, antisymmetric).", "quantifier": "every triple of datums", "why_tests_cant": "triples including NaN and signed zeros", "anchors": ["include/cconfigspace/base.h:ccs_datum_cmp"]}
{"id": "C24", "title": "A map is a finite map", "statement": "After any sequence of set, delete and clear, looking up or testing a key returns exactly the last value set for an equal key, and NONE/false if there is none; deleting an absent key is refused.", "quantifier": "every sequence of operations with any keys and values", "why_tests_cant": "unbounded histories and key spaces", "anchors": ["src/map.c:ccs_map_set", "src/map.c:ccs_map_get", "src/map.c:ccs_map_del", "src/map.c:ccs_map_clear"]}
{"id": "C25", "title": "Map enumeration is complete, duplicate-free and consistent", "statement": "Enumerating keys, values and pairs returns each live key exactly once, keys and values in matching order.", "quantifier": "every reachable map state", "why_tests_cant": "unbounded histories", "anchors": ["src/map.c:ccs_map_get_keys", "src/map.c:ccs_map_get_values", "src/map.c:ccs_map_get_pairs"]}
{"id": "C26", "title": "Map holds exactly one reference per stored object occurrence", "statement": "At all times the number of references a map holds on an object equals the number of its live entries' keys and values that are that object and are not flagged as plain ids; destroying the map releases them all.", "quantifier": "every sequence of operations and every object", "why_tests_cant": "unbounded histories; aliasing of the same object as key and value", "anchors": ["src/map.c:ccs_map_set", "src/map.c:_remove_map_entry"]}
{"id": "C27", "title": "Interval membership and emptiness mean what they say", "statement": "An interval contains a value exactly when the value lies between the bounds with the stated inclusions; if it is reported empty then no value belongs to it, and if it is reported non-empty and at least one of its bounds is included then some value belongs to it.", "quantifier": "every interval of either type, every value", "why_tests_cant": "all bounds, NaN, signed zero, infinities, adjacent integers", "anchors": ["src/cconfigspace_internal.h:_ccs_interval_include", "src/interval.c:ccs_interval_empty"]}
{"id": "C28", "title": "Interval intersection is set intersection", "statement": "A value belongs to the computed intersection of two intervals exactly when it belongs to both.", "quantifier": "every pair of intervals of the same type whose bounds are not NaN, every value", "why_tests_cant": "all bounds and inclusion combinations", "anchors": ["src/interval.c:ccs_interval_intersect"]}
{"id": "C29", "title": "Interval union contains both operands", "statement": "Every value of either operand belongs to the computed union, and the union is the smallest interval that does.", "quantifier": "every pair of non-empty intervals of the same type, every value", "why_tests_cant": "ties between bounds with different inclusion flags", "anchors": ["src/interval.c:ccs_interval_union"]}
{"id": "C30", "title": "Interval equality is set equality", "statement": "Two intervals of the same type compare equal exactly when they contain the same values, without arithmetic overflow.", "quantifier": "every pair of intervals", "why_tests_cant": "extreme integer bounds and differently-written equal sets", "anchors": ["src/interval.c:ccs_interval_equal"]}
{"id": "C31", "title": "No oversampling flag means bounds are contained", "statement": "If the oversampling check of a distribution against a parameter domain answers no, every value inside the distribution's declared bounds is inside the domain, so unfiltered samples are valid.", "quantifier": "every distribution bounds / domain pair", "why_tests_cant": "all bounds and inclusion combinations", "anchors": ["src/distribution.c:ccs_distribution_check_oversampling"]}
{"id": "C32", "title": "A created numerical parameter's default is a legal value", "statement": "If creating a numerical parameter succeeds, its default value passes its own value check and the domain is non-empty.", "quantifier": "every combination of bounds, quantization and default accepted at creation", "why_tests_cant": "all 64-bit patterns including NaN", "anchors": ["src/parameter_numerical.c:ccs_create_numerical_parameter"]}
{"id": "C33", "title": "Categorical, ordinal and discrete parameters are sets of distinct values", "statement": "If creation succeeds the values are pairwise distinct, the default is one of them, the value check accepts exactly those values, and validating a legal value returns the stored equal value; otherwise creation is refused.", "quantifier": "every list of candidate values and default index", "why_tests_cant": "unbounded lists with near-duplicates", "anchors": ["src/parameter_categorical.c"]}
{"id": "C34", "title": "Ordinal comparison is the declaration order", "statement": "Comparing two legal values of an ordinal parameter orders them strictly by their position in the declaration; the relation is a strict total order; comparing an illegal value is refused.", "quantifier": "every ordinal parameter and pair/triple of values", "why_tests_cant": "unbounded lists", "anchors": ["src/parameter_categorical.c:ccs_ordinal_parameter_compare_values"]}
{"id": "C35", "title": "Validation and checking agree", "statement": "For every parameter kind, validating a value succeeds in returning an equal value exactly when the check accepts it, and answers inactive otherwise; validation of many values agrees with validating each.", "quantifier": "every parameter and value", "why_tests_cant": "unbounded domains", "anchors": ["src/parameter.c:ccs_parameter_check_value", "src/parameter.c:ccs_parameter_validate_value", "src/parameter_string.c"]}
{"id": "C36", "title": "Sampled parameter values are always legal", "statement": "Sampling a parameter from any distribution either fails with SAMPLING_UNSUCCESSFUL or returns exactly the requested number of values, each accepted by the parameter's check, provided the distribution respects its declared bounds; the number of draws is bounded.", "quantifier": "every parameter, every distribution output stream, every count", "why_tests_cant": "random streams are unbounded", "anchors": ["src/parameter_numerical.c:_ccs_parameter_numerical_samples", "src/parameter_categorical.c:_ccs_parameter_categorical_samples"]}
{"id": "C37", "title": "In-place sampling buffers do not corrupt results", "statement": "Drawing raw numbers into the second half of the output array and expanding them in place yields the same datums as using a separate buffer.", "quantifier": "every count and every raw data", "why_tests_cant": "aliasing must be safe at every index for every length", "anchors": ["src/parameter_numerical.c:_ccs_parameter_numerical_samples", "src/parameter_categorical.c:_ccs_parameter_categorical_samples"]}
{"id": "C38", "title": "Enumerating a categorical parameter's values fills the caller's array", "statement": "Retrieving possible values with a large enough array returns all values in order and sets every remaining entry to NONE; a smaller array is refused.", "quantifier": "every parameter and array size", "why_tests_cant": "all sizes and prior contents", "anchors": ["src/parameter_categorical.c:_ccs_parameter_categorical_get_values"]}
{"id": "C39", "title": "Evaluation depends only on the expression's own variables", "statement": "Two evaluations of the same expression under assignments that agree on the parameters reported by the expression give the same outcome (value or error).", "quantifier": "every expression, context and pair of assignments", "why_tests_cant": "unbounded expressions and assignments", "anchors": ["src/expression.c:ccs_expression_eval", "src/expression.c:ccs_expression_get_parameters"]}
{"id": "C40", "title": "Reported parameters are exactly the variables, once each", "statement": "The list of parameters reported for an expression contains each parameter occurring in it exactly once, in a canonical order, whatever the expression's shape.", "quantifier": "every expression", "why_tests_cant": "unbounded recursive structure with repeated variables", "anchors": ["src/expression.c:ccs_expression_get_parameters"]}
{"id": "C41", "title": "Logical connectives implement the documented three-valued logic", "statement": "OR, AND and NOT over true/false/inactive operands follow one fixed truth table, both OR and AND are symmetric in their operands, and any other operand is refused.", "quantifier": "every pair of operand expressions, any depth", "why_tests_cant": "operands are arbitrary expressions", "anchors": ["src/expression.c:_ccs_expr_or_eval", "src/expression.c:_ccs_expr_and_eval", "src/expression.c:_ccs_expr_not_eval"]}
{"id": "C42", "title": "Not-equal is the negation of equal", "statement": "Whenever `a == b` evaluates to a boolean, `a != b` evaluates to the opposite boolean, and they fail or are inactive in exactly the same cases.", "quantifier": "every pair of expressions and assignment", "why_tests_cant": "operands are arbitrary expressions", "anchors": ["src/expression.c:_ccs_expr_equal_eval", "src/expression.c:_ccs_expr_not_equal_eval"]}
{"id": "C43", "title": "Orderings are mutually consistent", "statement": "`a < b` agrees with `b > a`, `a <= b` with `b >= a`, and `a <= b` is the negation of `a > b`, with failures and inactivity in the same cases.", "quantifier": "every pair of expressions and assignment", "why_tests_cant": "operands are arbitrary expressions including ordinal variables, mixed numeric types and NaN", "anchors": ["src/expression.c:_ccs_expr_less_eval", "src/expression.c:_ccs_expr_greater_eval", "src/expression.c:_ccs_expr_less_or_equal_eval", "src/expression.c:_ccs_expr_greater_or_equal_eval"]}
{"id": "C44", "title": "Equality between values is an equivalence", "statement": "The `==` operator is reflexive, symmetric and transitive on comparable values.", "quantifier": "every triple of values", "why_tests_cant": "triples across numeric types", "anchors": ["src/expression.c:_ccs_datum_test_equal_generic"]}
{"id": "C45", "title": "IN is membership", "statement": "`x IN [v1..vn]` is true exactly when x equals some vi, false when it equals none, inactive when x is inactive or when undecided because of an inactive item.", "quantifier": "every left expression and list of item expressions", "why_tests_cant": "unbounded lists of arbitrary expressions", "anchors": ["src/expression.c:_ccs_expr_in_eval"]}
{"id": "C46", "title": "Integer arithmetic is exact or refused", "statement": "Integer +, -, *, /, % and unary minus return the mathematical result (C truncation for / and %), division by zero is refused, and no operand pair triggers undefined behaviour.", "quantifier": "every pair of 64-bit integers", "why_tests_cant": "2^128 operand pairs", "anchors": ["src/expression.c:_ccs_expr_add_eval", "src/expression.c:_ccs_expr_divide_eval", "src/expression.c:_ccs_expr_modulo_eval", "src/expression.c:_ccs_expr_negative_eval"]}
{"id": "C47", "title": "Inactive operands make every strict operator inactive", "statement": "For arithmetic, equality, ordering, NOT, AND and unary operators an inactive operand makes the result inactive rather than an error or a value.", "quantifier": "every operator, every other operand", "why_tests_cant": "operands are arbitrary expressions", "anchors": ["src/expression.c"]}
{"id": "C48", "title": "Condition graph ordering is sound and complete", "statement": "Setting conditions is accepted exactly when the dependencies they induce are acyclic, and then the evaluation order contains every parameter once with every parameter after all parameters its condition mentions.", "quantifier": "every number of parameters and every set of conditions", "why_tests_cant": "all graphs of all sizes", "anchors": ["src/configuration_space.c:_topological_sort", "src/configuration_space.c:_recompute_graph"]}
{"id": "C49", "title": "Activity is the least fixed point of the conditions", "statement": "In the default configuration and every sampled configuration a parameter is active exactly when it has no condition or its condition evaluates to true on that very configuration.", "quantifier": "every configuration space with accepted conditions, every raw assignment", "why_tests_cant": "all condition graphs; conditions read other conditional parameters", "anchors": ["src/configuration_space.c:_set_actives", "src/configuration_space.c:ccs_configuration_space_get_default_configuration"]}
{"id": "C50", "title": "Sampled configurations are valid", "statement": "Every configuration returned by sampling passes the space's own check and satisfies no forbidden clause.", "quantifier": "every space, distributions and random stream", "why_tests_cant": "random streams and all spaces", "anchors": ["src/configuration_space.c:_sample", "src/configuration_space.c:ccs_configuration_space_sample", "src/configuration_space.c:_check_configuration"]}
{"id": "C51", "title": "Configuration check is exactly the definition of validity", "statement": "A configuration is reported valid exactly when its arity matches, each parameter is active iff its condition holds, active values are legal, and no forbidden clause evaluates to true.", "quantifier": "every space and every assignment", "why_tests_cant": "all spaces and assignments", "anchors": ["src/configuration_space.c:_check_configuration"]}
{"id": "C52", "title": "The default configuration is never forbidden", "statement": "In any space reachable through the API the default configuration satisfies no forbidden clause, and so passes the check.", "quantifier": "every sequence of add-parameter, set-condition and add-forbidden-clause calls", "why_tests_cant": "depends on the order of calls", "anchors": ["src/configuration_space.c:ccs_configuration_space_add_forbidden_clause", "src/configuration_space.c:ccs_configuration_space_set_condition"]}
{"id": "C53", "title": "A refused condition leaves the space unchanged", "statement": "When setting a condition is refused, default configurations, checks and sampling behave as before the call.", "quantifier": "every space and every refused condition", "why_tests_cant": "all histories ending in an error", "anchors": ["src/configuration_space.c:ccs_configuration_space_set_condition"]}
{"id": "C54", "title": "Distributions partition the parameters", "statement": "After any sequence of additions and redistributions every parameter is governed by exactly one distribution component, and lookups agree with it.", "quantifier": "every sequence of add/set-distribution calls with any index lists", "why_tests_cant": "unbounded histories with overlapping index sets", "anchors": ["src/configuration_space.c:ccs_configuration_space_set_distribution", "src/configuration_space.c:ccs_configuration_space_add_parameter"]}
{"id": "C55", "title": "Parameter lookup by name, handle and index agree", "statement": "In any space the parameter found by name, by handle and by index is the same one, names are unique, and indexes are dense and stable.", "quantifier": "every sequence of add-parameter calls, every index", "why_tests_cant": "unbounded histories; 64-bit indexes", "anchors": ["src/context_internal.h", "src/context.c"]}
{"id": "C56", "title": "Sampling is bounded and reports failure", "statement": "Sampling one configuration makes at most 100 attempts, sampling n at most 100*n, and then reports SAMPLING_UNSUCCESSFUL; on success exactly n valid configurations are returned.", "quantifier": "every space, stream, n", "why_tests_cant": "random streams and all n", "anchors": ["src/configuration_space.c:ccs_configuration_space_samples"]}
{"id": "C57", "title": "Configuration comparison is a total order and agrees with hashing", "statement": "Comparing configurations (features, evaluations' values) of the same space is a total preorder whose equality means identical values, and equal ones hash equally.", "quantifier": "every triple of configurations", "why_tests_cant": "unbounded values", "anchors": ["src/binding_internal.h:_ccs_binding_cmp", "src/binding_internal.h:_ccs_binding_hash"]}
{"id": "C58", "title": "Reading and writing values by index, name and bulk agree", "statement": "Setting a value makes exactly that index read back as set; bulk reads return all values and pad with NONE; out-of-range indexes and short arrays are refused.", "quantifier": "every sequence of gets and sets", "why_tests_cant": "unbounded histories", "anchors": ["src/binding_internal.h", "src/binding.c"]}
{"id": "C59", "title": "A refused bulk write leaves values unchanged", "statement": "When setting all values is refused because one is illegal, the object's values are as before.", "quantifier": "every binding and value vector", "why_tests_cant": "failure at every position", "anchors": ["src/binding_internal.h:_ccs_binding_set_values"]}
{"id": "C60", "title": "Evaluation comparison is Pareto dominance", "statement": "Comparing two successful evaluations of one objective space answers BETTER exactly when the first is at least as good on every objective (respecting minimize/maximize) and strictly better on one, EQUIVALENT when all are equal, WORSE symmetrically and NOT_COMPARABLE otherwise.", "quantifier": "every objective list, every pair of evaluations", "why_tests_cant": "any number of objectives and values", "anchors": ["src/evaluation.c:ccs_evaluation_compare"]}
{"id": "C61", "title": "Better-than is a strict partial order", "statement": "BETTER is transitive and asymmetric, EQUIVALENT is an equivalence, and swapping operands swaps BETTER and WORSE.", "quantifier": "every triple of evaluations", "why_tests_cant": "triples over all float values including NaN", "anchors": ["src/evaluation.c:ccs_evaluation_compare", "src/evaluation.c:_numeric_compare"]}
{"id": "C62", "title": "Objective values can be read into any large enough array", "statement": "Retrieving objective values with an array at least as large as the number of objectives returns them all, never writes past the array, and refuses a smaller one.", "quantifier": "every evaluation and array size", "why_tests_cant": "all sizes", "anchors": ["src/evaluation.c:ccs_evaluation_get_objective_values", "src/features_evaluation.c:ccs_features_evaluation_get_objective_values"]}
{"id": "C63", "title": "Optima are the Pareto front of the history", "statement": "After any sequence of tells the tuner's optima are exactly the history's non-dominated evaluations, keeping the earliest of equivalent ones, in order of arrival.", "quantifier": "every sequence of tells of any batch sizes", "why_tests_cant": "unbounded histories", "anchors": ["src/tuner_random.c:_ccs_tuner_random_tell", "src/features_tuner_random.c"]}
{"id": "C64", "title": "Told evaluations are never lost", "statement": "History contains every successful evaluation told, in order, and no evaluation stops being an optimum unless a better one was told, even when a comparison fails.", "quantifier": "every sequence of tells including failing comparisons", "why_tests_cant": "unbounded histories with errors at every point", "anchors": ["src/tuner_random.c:_ccs_tuner_random_tell"]}
{"id": "C65", "title": "Suggestions come from the optima", "statement": "Suggest returns the configuration of a current optimum whenever there is one, and a fresh sample otherwise.", "quantifier": "every tuner state and random draw", "why_tests_cant": "random draws", "anchors": ["src/tuner_random.c:_ccs_tuner_random_suggest"]}
{"id": "C66", "title": "Features tuner keeps one front per features vector", "statement": "For each features value, the optima reported are the Pareto front of the history entries with equal features, independent of entries for other features.", "quantifier": "every sequence of tells with any features", "why_tests_cant": "unbounded histories", "anchors": ["src/features_tuner_random.c", "src/features_evaluation.c:ccs_features_evaluation_compare"]}
{"id": "C67", "title": "Checking features values works on features spaces", "statement": "Checking a vector of values against a features space reports valid exactly when every value is legal for its feature.", "quantifier": "every features space and value vector", "why_tests_cant": "all spaces; the entry point must accept its own object kind", "anchors": ["src/features_space.c:ccs_features_space_check_features_values"]}
{"id": "C68", "title": "Subtree weights are always consistent", "statement": "After any sequence of child insertions, weight and bias updates, every node's total weight is the sum of its own weight, of present children's biased totals and of 1 for each missing child.", "quantifier": "every tree and every sequence of operations", "why_tests_cant": "unbounded histories; updates must propagate to the root", "anchors": ["src/tree.c:_ccs_tree_update_weight", "src/tree.c:ccs_tree_set_child", "src/tree.c:ccs_tree_set_weight", "src/tree.c:ccs_tree_set_bias"]}
{"id": "C69", "title": "Position of a node leads back to it", "statement": "Following the position reported for a node from its root reaches that node, and positions are distinct for distinct nodes.", "quantifier": "every tree and node", "why_tests_cant": "unbounded depth", "anchors": ["src/tree.c:ccs_tree_get_position", "src/tree.c:ccs_tree_get_node_at_position"]}
{"id": "C70", "title": "A valid position designates a node", "statement": "If a position is reported valid, fetching the node or the values at it succeeds; if reported invalid it is refused.", "quantifier": "every tree and position", "why_tests_cant": "all positions including those ending at missing children", "anchors": ["src/tree.c:ccs_tree_position_is_valid", "src/tree.c:ccs_tree_get_node_at_position", "src/tree.c:ccs_tree_get_values_at_position"]}
{"id": "C71", "title": "Attaching a child keeps the structure a forest", "statement": "A successful attach never makes a node its own ancestor; every tree operation terminates.", "quantifier": "every sequence of attach calls on any nodes", "why_tests_cant": "all attachment orders including attaching an ancestor", "anchors": ["src/tree.c:ccs_tree_set_child", "src/tree.c:_ccs_tree_update_weight"]}
{"id": "C72", "title": "Tree samples are valid positions reached with positive weight", "statement": "Every position sampled from a tree space is valid for that space's tree and each step has a non-empty sampling area.", "quantifier": "every tree and random stream", "why_tests_cant": "random streams", "anchors": ["src/tree_space.c:ccs_tree_space_samples", "src/tree.c:_ccs_tree_samples"]}
{"id": "C73", "title": "Lazily built trees are indistinguishable from static ones", "statement": "Querying positions of a dynamic tree space gives the same answers as a static space over the fully built tree, in any order of queries, and the child callback is invoked at most once per position.", "quantifier": "every child callback, every sequence of queries", "why_tests_cant": "unbounded query sequences", "anchors": ["src/tree_space_dynamic.c", "src/tree_space_static.c"]}
{"id": "C74", "title": "Roulette selection returns the area containing the draw", "statement": "For any cumulative areas starting at or below the draw and ending above it, selection terminates and returns an index whose area contains the draw; areas of zero width are never selected.", "quantifier": "every number of areas, every area vector, every draw, every initial guess", "why_tests_cant": "all float vectors including non-monotone rounding artefacts", "anchors": ["src/distribution_internal.h:_ccs_dichotomic_search"]}
{"id": "C75", "title": "Uniform integer samples are in range and on the quantization grid", "statement": "Every sample of a linear uniform integer distribution lies in [lower, upper) and differs from lower by a multiple of the quantization.", "quantifier": "every accepted bounds and quantization, every raw draw", "why_tests_cant": "2^64 bounds; overflow", "anchors": ["src/distribution_uniform.c:ccs_create_uniform_distribution", "src/distribution_uniform.c:_ccs_distribution_uniform_samples"]}
{"id": "C76", "title": "Mixture bounds cover every component", "statement": "The bounds reported for a mixture contain every value inside any component's bounds, and building it never writes outside its own memory.", "quantifier": "every list of component distributions of any dimension", "why_tests_cant": "all lists, dimensions and bound ties", "anchors": ["src/distribution_mixture.c:ccs_create_mixture_distribution"]}
{"id": "C77", "title": "Multivariate samples are laid out component by component", "statement": "Sampling a multivariate distribution places each component's values in its own columns, every output cell is written exactly once, for contiguous, strided and column-wise requests.", "quantifier": "every list of components, nesting, count and stride", "why_tests_cant": "nested components and all strides", "anchors": ["src/distribution_multivariate.c:_ccs_distribution_multivariate_samples", "src/distribution_multivariate.c:_ccs_distribution_multivariate_strided_samples"]}
{"id": "C78", "title": "Joint sampling never returns rejected rows", "statement": "Sampling several parameters jointly returns exactly the requested number of rows, none containing a rejected (inactive) cell, rows kept intact, or reports SAMPLING_UNSUCCESSFUL after a bounded number of draws.", "quantifier": "every distribution, parameters and stream", "why_tests_cant": "random streams", "anchors": ["src/distribution.c:ccs_distribution_parameters_samples"]}
{"id": "C79", "title": "Emptiness report is exact", "statement": "An interval is reported empty exactly when no value of its type belongs to it.", "quantifier": "every interval of either type", "why_tests_cant": "adjacent floating point numbers with both bounds excluded, NaN bounds", "anchors": ["src/interval.c:ccs_interval_empty"]}
{"id": "C80", "title": "Checking evaluation values is exact", "statement": "Checking a vector of values against an objective space reports valid exactly when every value is legal for its parameter, and refuses a vector of the wrong length.", "quantifier": "every objective space and value vector", "why_tests_cant": "all spaces and value vectors", "anchors": ["src/objective_space.c:ccs_objective_space_check_evaluation_values", "src/evaluation.c:ccs_evaluation_check"]}
{"id": "C81", "title": "Objective spaces only hold objectives on their own parameters", "statement": "An objective is accepted exactly when it only mentions parameters of its space, objectives keep their order of addition, refused ones change nothing, and computing the objectives of an evaluation of the space never reads outside the evaluation's values.", "quantifier": "every objective space built by any calls, every expression, every evaluation of the space", "why_tests_cant": "all spaces, expressions and orders of calls", "anchors": ["src/objective_space.c:ccs_objective_space_add_objective", "src/objective_space.c:ccs_objective_space_add_objectives", "src/evaluation.c:ccs_evaluation_get_objective_value"]}
{"id": "C82", "title": "Tree configurations compare, hash and report their position consistently", "statement": "Two tree configurations compare equal exactly when they belong to the same space and have the same position; the comparison is a total order; equal ones have equal hashes; the position reported is the one given at creation, whatever the size of the buffer, and extra room is set to 0 as documented.", "quantifier": "every pair or triple of configurations, every position, every buffer", "why_tests_cant": "all positions and buffers", "anchors": ["src/tree_configuration.c:ccs_tree_configuration_cmp", "src/tree_configuration.c:ccs_tree_configuration_hash", "src/tree_configuration.c:ccs_tree_configuration_get_position"]}
{"id": "C83", "title": "Samples lie within the bounds a distribution reports", "statement": "Every value sampled from a distribution belongs to the interval that the distribution reports as its bounds for that column.", "quantifier": "every distribution of every kind and nesting, every generator state, count and layout", "why_tests_cant": "random streams and rounding; excluded bounds are hit with tiny probability", "anchors": ["src/distribution_uniform.c:_ccs_distribution_uniform_samples", "src/distribution_normal.c:_ccs_distribution_normal_get_bounds", "src/distribution_mixture.c:ccs_create_mixture_distribution"]}
{"id": "C84", "title": "Distributions survive serialization", "statement": "Serializing any distribution the library can build (uniform, normal, roulette, mixture, multivariate, nested in any way, with any user data) writes exactly the announced number of bytes, and deserializing these bytes on any host yields a distribution with the same type, properties, areas, weights, components and user data, which gives the same samples for the same generator.", "quantifier": "all distributions made by the creation functions, nested to any depth; all user data; all byte orders of the writing and reading hosts; all bytes that follow", "why_tests_cant": "Areas and weights are stored as differences of rounded bounds and accumulated and normalized again when read; whether this gives the same bounds depends on every bit of the areas, and a changed bound only shows for draws that fall between the two.", "anchors": ["src/distribution_deserialize.h:_ccs_distribution_deserialize", "src/distribution_roulette.c:_ccs_serialize_bin_ccs_distribution_roulette_data", "src/distribution_mixture.c:_ccs_serialize_bin_ccs_distribution_mixture_data", "src/distribution_uniform.c:_ccs_serialize_bin_ccs_distribution_uniform_data", "src/distribution_normal.c", "src/distribution_multivariate.c"]}
{"id": "C85", "title": "Mixtures accept every weighting", "statement": "A mixture can be created from any components of the same types with any weights that are not negative and have a positive finite sum.", "quantifier": "all lists of components of the same dimension and types; all lists of weights that are not negative and whose sum is positive and finite", "why_tests_cant": "Whether a weighting is refused depends on how the partial sums of normalized weights round; tests use a few round weights.", "anchors": ["src/distribution_mixture.c:ccs_create_mixture_distribution"]}
{"id": "C86", "title": "What is read could have been created", "statement": "Whatever bytes are deserialized, a successful call yields an object that the creation functions could have produced: the checks of creation cannot be bypassed through deserialization.", "quantifier": "all byte strings, all byte orders", "why_tests_cant": "A test reads a few corrupted buffers; the property is about every buffer.", "anchors": ["src/distribution_deserialize.h:_ccs_distribution_deserialize", "src/distribution_deserialize.h:_ccs_deserialize_bin_distribution_mixture", "src/parameter_deserialize.h:_ccs_parameter_deserialize", "src/expression_deserialize.h:_ccs_expression_deserialize", "src/tree_deserialize.h:_ccs_tree_deserialize", "src/map_deserialize.h:_ccs_map_deserialize", "src/configuration_space_deserialize.h:_ccs_configuration_space_deserialize", "src/features_space_deserialize.h:_ccs_features_space_deserialize", "src/objective_space_deserialize.h:_ccs_objective_space_deserialize", "src/configuration_deserialize.h:_ccs_configuration_deserialize", "src/evaluation_deserialize.h:_ccs_evaluation_deserialize", "src/tuner_deserialize.h:_ccs_tuner_deserialize"]}
{"id": "C87", "title": "Configuration spaces survive serialization", "statement": "Serializing any configuration space built through the API writes exactly the announced number of bytes, and deserializing these bytes yields a space with the same name, user data, generator, parameters, conditions, forbidden clauses and distributions over the same parameters, which has the same default configuration, accepts the same configurations and draws the same configurations from the same random stream.", "quantifier": "every configuration space reachable by any list of calls, with any expressions and distributions; any following bytes; any address of the new objects", "why_tests_cant": "The space is rebuilt by calls that can be refused depending on the conditions and clauses together, and objects are identified by address; tests read back a few spaces without shared expressions.", "anchors": ["src/configuration_space.c:_ccs_serialize_bin_ccs_configuration_space_data", "src/configuration_space_deserialize.h:_ccs_deserialize_bin_configuration_space", "src/configuration_space_deserialize.h:_ccs_deserialize_bin_ccs_configuration_space_data"]}
{"id": "C88", "title": "Random generators survive serialization", "statement": "Serializing a random generator writes exactly the announced number of bytes; reading them gives a generator of the same type, user data and state, and when the state cannot be kept (other byte order or size) the outcome is the documented one: a new generator of that type; unknown types are refused.", "quantifier": "every generator type, state, user data; both byte orders of writer and reader; every set of known types; any following bytes", "why_tests_cant": "Depends on pairs of machines of different byte orders and on the list of generator types of the reader.", "anchors": ["src/rng.c:_ccs_serialize_bin_rng", "src/rng_deserialize.h:_ccs_deserialize_bin_rng"]}
{"id": "C89", "title": "Configurations and features survive serialization", "statement": "Serializing any configuration or features object writes exactly the announced number of bytes; deserializing them with a handle map that has the object's space yields an object of that space with the same values and user data; without a map, with an unknown space or with an object that is not such a space, it is refused.", "quantifier": "all configurations and features made by the creation functions and later calls, whatever happened to their space since; any handle map; any following bytes; both byte orders", "why_tests_cant": "Depends on what the space has become between creation and reading and on values accepted without validation; tests read back fresh objects of unchanged spaces.", "anchors": ["src/configuration_deserialize.h:_ccs_configuration_deserialize", "src/features_deserialize.h:_ccs_features_deserialize", "src/binding_internal.h:_ccs_serialize_bin_ccs_binding_data", "src/configuration.c:ccs_create_configuration"]}
{"id": "C90", "title": "Objective spaces and features spaces survive serialization", "statement": "Serializing any objective space or features space built through the API writes exactly the announced number of bytes, and deserializing these bytes yields a space with the same name, user data, parameters and objectives in the same order, in which evaluations have the same objective values and compare the same.", "quantifier": "every objective space and features space reachable by any list of calls, with any expressions; any handle map; any following bytes; any addresses of the new objects", "why_tests_cant": "Objects are identified by address while reading; tests read back a few spaces without shared expressions and compare a few evaluations.", "anchors": ["src/objective_space.c:_ccs_serialize_bin_ccs_objective_space_data", "src/objective_space_deserialize.h:_ccs_deserialize_bin_objective_space", "src/features_space_deserialize.h:_ccs_deserialize_bin_features_space", "src/evaluation.c:ccs_evaluation_compare"]}
{"id": "C91", "title": "Evaluations survive serialization", "statement": "Serializing any evaluation, with or without features, writes exactly the announced number of bytes, and deserializing them with a handle map that has its spaces yields an evaluation with the same objective values, result code, configuration, features and user data.", "quantifier": "all evaluations made by the creation functions, whatever happened to their spaces since; any handle map; any following bytes; both byte orders", "why_tests_cant": "Three objects of three spaces are rebuilt one after the other and any of them can be refused; tests read back fresh evaluations.", "anchors": ["src/evaluation.c:_ccs_evaluation_serialize", "src/evaluation_deserialize.h:_ccs_evaluation_deserialize", "src/features_evaluation_deserialize.h:_ccs_features_evaluation_deserialize"]}
{"id": "C92", "title": "Tuners survive serialization", "statement": "Serializing a random tuner or random features tuner at any point of a run writes exactly the announced number of bytes, and deserializing these bytes yields a tuner with the same name, user data, spaces, history and optima, which goes on as the one written would: told the same evaluations it answers the same and has the same optima, and it suggests the same configurations.", "quantifier": "all tuners reached by any list of tell calls on any evaluations; any following bytes; any addresses of the new objects; any later calls", "why_tests_cant": "A run is a long history in which the same evaluation may be told again and spaces may change; tests read back a tuner after a fixed short run.", "anchors": ["src/tuner_random.c:_ccs_tuner_random_serialize", "src/tuner_deserialize.h:_ccs_deserialize_bin_random_tuner", "src/features_tuner_deserialize.h:_ccs_deserialize_bin_random_features_tuner", "src/tuner_random.c:_ccs_tuner_random_tell"]}
{"id": "C93", "title": "Tree spaces survive serialization", "statement": "Serializing any static or dynamic tree space writes exactly the announced number of bytes, and deserializing these bytes (with its callbacks for a dynamic space) yields a tree space with the same name, user data, generator and state, whose tree has the same nodes, arities, values, weights and user data: the same positions are valid, with the same values, and the same draws give the same samples.", "quantifier": "every tree reachable by any list of calls, any generator, state and user data; both byte orders; any trees already in the reading process; any callbacks; any following bytes", "why_tests_cant": "Depends on the generator and state at the time of writing; tests read back a space and only look at its tree.", "anchors": ["src/tree_space.c", "src/tree_space_static.c:_ccs_tree_space_static_serialize", "src/tree_space_dynamic.c:_ccs_tree_space_dynamic_serialize", "src/tree_space_deserialize.h:_ccs_tree_space_deserialize"]}
{"id": "C94", "title": "Tree configurations survive serialization", "statement": "Serializing any tree configuration writes exactly the announced number of bytes; deserializing them with a handle map that has its tree space yields a configuration of that space with the same position and user data; without a map, with an unknown space or an object that is not a tree space it is refused. No message makes the library access memory it does not own.", "quantifier": "all positions, user data, handle maps; all messages, well formed or not; any following bytes", "why_tests_cant": "Messages that announce huge positions cannot be enumerated, and tests do not run under an adversary.", "anchors": ["src/tree_configuration.c:_ccs_tree_configuration_serialize", "src/tree_configuration_deserialize.h:_ccs_tree_configuration_deserialize"]}
{"id": "C95", "title": "Tree evaluations survive serialization", "statement": "Serializing any tree evaluation writes exactly the announced number of bytes, and deserializing them with a handle map that has its tree space and objective space yields an evaluation with the same objective values, result code, position and user data.", "quantifier": "all tree evaluations made by the creation function, whatever happened to their spaces since; any handle map; any following bytes; both byte orders", "why_tests_cant": "Objects of two spaces are rebuilt one after the other and any of them can be refused; tests read back fresh evaluations.", "anchors": ["src/tree_evaluation.c:_ccs_tree_evaluation_serialize", "src/tree_evaluation_deserialize.h:_ccs_tree_evaluation_deserialize"]}
{"id": "C96", "title": "Tree tuners survive serialization", "statement": "Serializing a random tree tuner at any point of a run writes exactly the announced number of bytes, and deserializing these bytes yields a tuner with the same name, user data, tree space, objective space, history and optima, which goes on as the one written would.", "quantifier": "all tree tuners over static and dynamic tree spaces reached by any list of tell calls; any callbacks; any following bytes; any addresses of the new objects; any later calls", "why_tests_cant": "A run is a long history in which the same evaluation may be told again; tests read back a tuner over a static space after a fixed short run.", "anchors": ["src/tree_tuner_random.c:_ccs_tree_tuner_random_serialize", "src/tree_tuner_deserialize.h:_ccs_deserialize_bin_random_tree_tuner", "src/tree_tuner_random.c:_ccs_tree_tuner_random_tell"]}
{"id": "C97", "title": "Tree evaluations have a total order and a hash that agrees with it", "statement": "Comparing tree evaluations is a total order in which two are equal exactly when they have the same values, result code, tree space and position, and equal ones have equal hashes.", "quantifier": "all pairs and triples of tree evaluations, whatever their addresses", "why_tests_cant": "Transitivity and agreement of the hash range over triples of arbitrary values.", "anchors": ["src/tree_evaluation.c:_ccs_tree_evaluation_hash", "src/tree_evaluation.c:_ccs_tree_evaluation_cmp", "src/tree_configuration.c:_ccs_tree_configuration_cmp"]}
{"id": "C98", "title": "What tree tuners ask and suggest", "statement": "Asking a random tree tuner for configurations ends and gives as many as asked, all of the tuner's tree space, accepted by it, and with values that can be fetched; its suggestion is the configuration of one of the optima, each being possible, and without optima a newly sampled one.", "quantifier": "every tree built by calls with any weights, every stream of draws in [0,1), every number of configurations, every history", "why_tests_cant": "Sampling depends on draws and on rounding of the weights of an arbitrary tree.", "anchors": ["src/tree_tuner.c:ccs_tree_tuner_ask", "src/tree_tuner.c:ccs_tree_tuner_suggest", "src/tree_tuner_random.c:_ccs_tree_tuner_random_ask", "src/tree_space.c:ccs_tree_space_samples"]}
{"id": "C99", "title": "User defined tuners hand every valid call to the user", "statement": "A user defined tuner is created exactly when its name, spaces and mandatory callbacks are given. From then on every ask, tell, get_optima, get_history and suggest call with valid arguments calls the matching callback once, in order, with the arguments of the call, and returns its outcome; every other call returns an error and calls nothing. The pointer given at creation is returned by the data getter, and by no other kind of tuner.", "quantifier": "any callbacks on any state of the user, any list of calls with any arguments, tuners with features, without, and over trees", "why_tests_cant": "Callbacks are arbitrary code and calls come in any number and order; tests use one set of callbacks.", "anchors": ["src/tuner_user_defined.c:ccs_create_user_defined_tuner", "src/features_tuner_user_defined.c:ccs_create_user_defined_features_tuner", "src/tree_tuner_user_defined.c:ccs_create_user_defined_tree_tuner", "src/tuner.c:ccs_tuner_ask", "src/features_tuner.c:ccs_features_tuner_ask", "src/tree_tuner.c:ccs_tree_tuner_ask"]}
{"id": "C100", "title": "User defined tuners survive serialization", "statement": "Serializing a user defined tuner or features tuner writes exactly the announced number of bytes without changing the state of the user, and deserializing them with the callbacks restores its spaces, history, optima and state. Errors of the callbacks are returned. Deserializing without callbacks is refused.", "quantifier": "any callbacks that show a history, optima and a state, any state of the user; any callbacks on the reading side; any following bytes and addresses", "why_tests_cant": "The history, optima and state are whatever the callbacks of the user say.", "anchors": ["src/tuner_user_defined.c:_ccs_tuner_user_defined_serialize", "src/features_tuner_user_defined.c:_ccs_features_tuner_user_defined_serialize", "src/tuner_deserialize.h:_ccs_deserialize_bin_user_defined_tuner", "src/features_tuner_deserialize.h:_ccs_deserialize_bin_user_defined_features_tuner"]}
{"id": "C101", "title": "User defined tree tuners survive serialization", "statement": "Serializing a user defined tree tuner over a static or dynamic tree space writes exactly the announced number of bytes without changing the state of the user, and deserializing them with the callbacks restores its spaces, history, optima and state.", "quantifier": "any callbacks that show a history, optima and a state; any static or dynamic tree space; any callbacks on the reading side; any following bytes and addresses", "why_tests_cant": "The history, optima and state are whatever the callbacks of the user say; the message holds a space which may need callbacks itself.", "anchors": ["src/tree_tuner_user_defined.c:_ccs_tree_tuner_user_defined_serialize", "src/tree_tuner_deserialize.h:_ccs_deserialize_bin_user_defined_tree_tuner", "src/tree_space_deserialize.h:_ccs_deserialize_bin_dynamic_tree_space"]}
{"id": "C102", "title": "The optima of a tuner that was read are optima of its history", "statement": "Whatever bytes are deserialized as a tuner, if a tuner comes back, its optima are evaluations of its history, and those that no evaluation of the history dominates.", "quantifier": "all messages, well formed or not, for random and user defined tuners, with features, without, and over trees", "why_tests_cant": "Messages come from elsewhere; tests only read what the library wrote.", "anchors": ["src/tuner_deserialize.h:_ccs_deserialize_bin_ccs_random_tuner_data", "src/features_tuner_deserialize.h:_ccs_deserialize_bin_ccs_random_features_tuner_data", "src/tree_tuner_deserialize.h:_ccs_deserialize_bin_ccs_random_tree_tuner_data"]}
{"id": "C103", "title": "Reference counts are right in every program", "statement": "As long as a client passes only objects it can get at and releases only references it owns, no sequence of calls uses or frees an object that was freed, or lets a count overflow. At any time the count of an object equals the number of references on it; every object the client can get at exists, the fields of an object exist and have the right kinds, and so do the optima of tuners and the parents of trees, which are not retained.", "quantifier": "all programs of any length over creation, mutation, sampling, tuner, map and tree calls of every kind of object, whatever the checks on values answer, including calls that fail midway", "why_tests_cant": "Objects refer to each other in arbitrary graphs and calls can fail at any step; tests check a few counts after fixed short programs.", "anchors": ["src/cconfigspace.c:ccs_retain_object", "src/cconfigspace.c:ccs_release_object", "src/tuner_random.c:_ccs_tuner_random_tell", "src/tree.c:ccs_tree_set_child", "src/map.c:ccs_map_set", "src/configuration_space.c:ccs_configuration_space_set_distribution"]}
{"id": "C104", "title": "Objects are freed as soon as nobody can reach them", "statement": "Whatever a program did, an object exists only as long as the client can get at it through a reference it owns; once the client has released all its references, in any order, no object is left.", "quantifier": "all programs of any length over every kind of object, any order of release", "why_tests_cant": "Leaks depend on the graph of objects and on the order of releases; tests release a few objects in a fixed order.", "anchors": ["src/cconfigspace.c:ccs_release_object", "src/map.c:_ccs_map_del", "src/tree.c:_ccs_tree_del", "src/tuner_user_defined.c:_ccs_tuner_user_defined_del"]}
{"id": "C105", "title": "Refused calls leave all objects as they were", "statement": "When a call returns an error, every object has the contents and the reference count it had before, nothing created on the way is left, and the client owns the same references.", "quantifier": "all calls on every kind of object that fail at any of their steps, in any state a program can reach", "why_tests_cant": "There are many error paths, each to be combined with arbitrary graphs of objects; tests check return codes.", "anchors": ["src/configuration.c:ccs_create_configuration", "src/configuration_space.c:ccs_configuration_space_samples", "src/tree_space_dynamic.c:_ccs_tree_space_tree_get_child", "src/expression.c:ccs_create_expression", "src/configuration_space.c:ccs_configuration_space_set_distribution"]}
{"id": "C106", "title": "Calls modify only the objects they are about", "statement": "A call changes the contents of the object it is called on (and of the tree it attaches); any other object the client can still get at keeps its contents, except that a tree loses its parent when the parent is freed. Handles of freed objects are not taken by objects the call modifies.", "quantifier": "all calls on every kind of object in any state a program can reach, and every other object", "why_tests_cant": "Destruction propagates through arbitrary graphs; tests do not compare all other objects before and after.", "anchors": ["src/cconfigspace.c:ccs_release_object", "src/tree.c:_ccs_tree_del", "src/map.c:ccs_map_set", "src/tuner_random.c:_ccs_tuner_random_tell"]}
{"id": "C107", "title": "All channels carry the same message", "statement": "Under given options an object has one message: the size operation gives its length, the memory operation stores it or answers NOT_ENOUGH_DATA, the file operation makes it the whole content of the file, and the descriptor operation delivers it. Reading that message from memory, from a file or from a descriptor gives the same object, whatever follows it.", "quantifier": "all objects that write what they announce, all lists of options, all buffer sizes, files, schedules of partial reads and writes, following bytes and pairs of hosts", "why_tests_cant": "Sizes, options and schedules are unbounded; tests use one channel at a time with fixed objects.", "anchors": ["src/cconfigspace.c:ccs_object_serialize", "src/cconfigspace.c:ccs_object_deserialize", "src/cconfigspace.c:_ccs_object_serialize_file", "src/cconfigspace.c:_ccs_object_deserialize_file"]}
{"id": "C108", "title": "Serializing to a file changes that file only, and only when it succeeds", "statement": "A serialization to a file leaves every other file as it was; when it succeeds the file has exactly the announced size and the contents of the memory operation; when it fails the file is as it was before.", "quantifier": "all objects, options, contents of files, and all answers of the system to open, mmap, ftruncate and msync", "why_tests_cant": "Failures of the system and of callbacks are not exercised by tests.", "anchors": ["src/cconfigspace.c:_ccs_object_serialize_file"]}
{"id": "C109", "title": "Deserialization gives an object of the kind that was written", "statement": "Deserializing a message reads it as the kind whose type it announces, for all nineteen kinds, and gives what the reader of that kind gives, so that each round trip of a kind is one of the generic call; the object has the type announced; other types are refused with UNSUPPORTED_OPERATION.", "quantifier": "all messages, well formed or not, and all kinds", "why_tests_cant": "Messages are arbitrary bytes; tests read back what they wrote.", "anchors": ["src/cconfigspace.c:_ccs_object_deserialize_with_opts", "include/cconfigspace/base.h:ccs_object_type_e"]}
{"id": "C110", "title": "Serialization options are validated and the last one wins", "statement": "A list of options is refused with the code of its first unacceptable option, before anything is read or written; otherwise each setting is the one of its last occurrence.", "quantifier": "all lists of options of any length with any arguments, for each operation", "why_tests_cant": "The lists are variadic and unbounded; tests pass one or two options.", "anchors": ["src/cconfigspace.c:_ccs_object_serialize_options", "src/cconfigspace.c:_ccs_object_deserialize_options"]}
{"id": "C111", "title": "User data travels with objects through the callbacks", "statement": "An object with user data carries exactly the bytes that its own serialization callback writes, or else those of the callback of the options, and an object without user data or callback carries none; the announced size is exact. The callback given for reading is called once for each object that had user data, with exactly these bytes, and its error is returned; without it the bytes are skipped.", "quantifier": "all callbacks that announce the size they write, all data, any following bytes", "why_tests_cant": "Callbacks are arbitrary code and the data arbitrary bytes.", "anchors": ["src/cconfigspace_internal.h:_ccs_object_serialize_user_data", "src/cconfigspace_internal.h:_ccs_object_serialize_user_data_size", "src/cconfigspace_internal.h:_ccs_object_deserialize_user_data"]}
{"id": "C112", "title": "A failed deserialization hands out no object", "statement": "When a deserialization returns an error, the caller is given no object: nothing is left to be released and no pointer to a freed object is stored.", "quantifier": "all kinds of objects, all messages, handle maps and user data callbacks", "why_tests_cant": "Each of the nineteen readers has its own error paths, taken on messages that tests do not send.", "anchors": ["src/parameter_deserialize.h:_ccs_parameter_deserialize", "src/rng_deserialize.h:_ccs_rng_deserialize", "src/cconfigspace_internal.h:_ccs_object_deserialize_user_data"]}
{"id": "C113", "title": "The default distribution of a parameter covers exactly its domain", "statement": "Every parameter that was created, strings excepted, has a default distribution; it has dimension 1, its bounds are the domain, its samples need no filtering and are legal values, and every value of a categorical, ordinal, discrete or integer parameter can be drawn.", "quantifier": "all parameters that creation accepts, all generators meeting their contract, all sample sizes", "why_tests_cant": "The domain, the generator and the step are arbitrary; a sample checks finitely many draws.", "anchors": ["src/parameter_numerical.c:_ccs_parameter_numerical_get_default_distribution", "src/parameter_categorical.c:_ccs_parameter_categorical_get_default_distribution", "src/parameter_string.c:_ccs_parameter_string_get_default_distribution"]}
{"id": "C114", "title": "A Kokkos variable is tuned over exactly the candidates it declares", "statement": "Declaring a variable to the Kokkos connector creates a parameter whose legal values are the declared candidates: those of a set, those between the bounds of a range with the declared inclusions, or all of the type when there are no bounds; the values drawn for it are candidates and every candidate can be drawn.", "quantifier": "all variable declarations: types, categories, sets of any size, bounds, steps, inclusions", "why_tests_cant": "Bounds, steps and sets are arbitrary; the connector is only exercised with a few declarations.", "anchors": ["connectors/kokkos/ccs-kokkos-connector.cpp:variable_info_to_parameter", "connectors/kokkos/ccs-kokkos-connector.cpp:kokkosp_declare_input_type", "connectors/kokkos/ccs-kokkos-connector.cpp:kokkosp_declare_output_type"]}
{"id": "C115", "title": "Kernels are fenced exactly while a tuning context is being measured", "statement": "With the Kokkos connector, a kernel is fenced when, and only when, some open tuning context is measured, that is, was opened while its region had fewer than 500 evaluations.", "quantifier": "all sequences of callbacks of a program: declarations, requests, kernels, ends of contexts, of any length and nesting", "why_tests_cant": "The status depends on the whole past of the program and on nesting; tests run a few iterations of a few regions.", "anchors": ["connectors/kokkos/ccs-kokkos-connector.cpp:invoke_fence", "connectors/kokkos/ccs-kokkos-connector.cpp:kokkosp_request_values", "connectors/kokkos/ccs-kokkos-connector.cpp:kokkosp_end_context"]}
{"id": "C116", "title": "Each measured Kokkos context reports one evaluation and regions stop at 500", "statement": "The tuner of a region has one evaluation for each of its contexts that was measured and ended, and none for the others; a region is measured until it has 500 evaluations.", "quantifier": "all sequences of callbacks of a program", "why_tests_cant": "The bound is reached after hundreds of contexts, interleaved with those of other regions.", "anchors": ["connectors/kokkos/ccs-kokkos-connector.cpp:kokkosp_request_values", "connectors/kokkos/ccs-kokkos-connector.cpp:kokkosp_end_context"]}
{"id": "C117", "title": "Kokkos requests with the same variables share one tuner", "statement": "Two requests use the same tuner when, and only when, they name the same variables, in whatever order; a region keeps its tuner, and its convergence, until the library is finalized.", "quantifier": "all sequences of callbacks of a program, all lists of variables", "why_tests_cant": "The order and the interleaving of requests are arbitrary.", "anchors": ["connectors/kokkos/ccs-kokkos-connector.cpp:kokkosp_request_values"]}
{"id": "C118", "title": "The Kokkos connector answers with candidates of the declared variables", "statement": "A request is answered with one value for each of its tuning variables, in their order, each a candidate of the variable as it was declared and of its type.", "quantifier": "all sequences of callbacks, all declarations, all numbers of contexts", "why_tests_cant": "The values come from generators and from the whole past; declarations are arbitrary.", "anchors": ["connectors/kokkos/ccs-kokkos-connector.cpp:kokkosp_request_values", "connectors/kokkos/ccs-kokkos-connector.cpp:kokkosp_declare_output_type"]}
{"id": "C119", "title": "The tuner of a Kokkos region knows exactly what was measured", "statement": "The history of a region has one successful evaluation for each of its contexts that was measured, in the order in which they ended, with the values of its context variables, the values it was sent, and the time between its request and its end.", "quantifier": "all sequences of callbacks, also badly nested ones", "why_tests_cant": "The correspondence is between whole histories, across interleaved regions.", "anchors": ["connectors/kokkos/ccs-kokkos-connector.cpp:kokkosp_request_values", "connectors/kokkos/ccs-kokkos-connector.cpp:kokkosp_end_context"]}
{"id": "C120", "title": "A converged Kokkos region is answered with the fastest values known", "statement": "Once a region has been measured 500 times, a request gets the values of a context of the same region and the same values of the context variables that took the least time, or new ones if there is none.", "quantifier": "all sequences of callbacks and all times", "why_tests_cant": "Takes at least 500 contexts with arbitrary times and interleavings.", "anchors": ["connectors/kokkos/ccs-kokkos-connector.cpp:kokkosp_request_values", "src/features_tuner_random.c:_ccs_features_tuner_random_suggest"]}
{"id": "C121", "title": "Lists are read back whole", "statement": "The calls listing the conditions or forbidden clauses of a space, the objectives of an objective space, the nodes of an expression or the components of a distribution return the number of elements when asked for it alone, write all elements in order followed by NULL into an array that is large enough and nothing beyond it, refuse a smaller array, and agree with the calls returning the element at a position; a position at or beyond the end is refused.", "quantifier": "every object, every array and announced size, every position", "why_tests_cant": "the elements, sizes and positions are unbounded; the faulty positions start at 2^32", "anchors": ["src/configuration_space.c: ccs_configuration_space_get_conditions, ccs_configuration_space_get_forbidden_clauses, ccs_configuration_space_get_forbidden_clause", "src/objective_space.c: ccs_objective_space_get_objectives, ccs_objective_space_get_objective", "src/expression.c: ccs_expression_get_nodes, ccs_expression_list_eval_node", "src/distribution_mixture.c: ccs_mixture_distribution_get_distributions", "src/distribution_multivariate.c: ccs_multivariate_distribution_get_distributions"]}
{"id": "C122", "title": "What is read back is what was put in", "statement": "After any history of calls, a configuration space holds exactly the parameters, conditions and forbidden clauses of the calls that succeeded, in order, and an objective space the objectives of the calls that succeeded; an expression, a literal, a variable, a distribution and a numerical parameter give back the type, nodes, value, parameter, bounds, scale, quantization and components they were created with.", "quantifier": "every history of calls, every creation that succeeds and every choice of outputs asked for", "why_tests_cant": "histories and creation arguments are unbounded; tests read back a few objects", "anchors": ["src/configuration_space.c: ccs_configuration_space_add_forbidden_clauses, ccs_configuration_space_set_condition", "src/objective_space.c: ccs_objective_space_add_objectives", "src/expression.c: ccs_expression_get_type, ccs_literal_get_value, ccs_variable_get_parameter", "src/distribution_uniform.c: ccs_uniform_distribution_get_properties", "src/distribution_normal.c: ccs_normal_distribution_get_properties", "src/parameter_numerical.c: ccs_numerical_parameter_get_properties"]}
{"id": "C123", "title": "Error stacks have one owner per reference", "statement": "Creating, getting or retaining an error stack gives the program a reference, setting it as the error of a thread or releasing it takes one; a program that only names stacks it has a reference to never makes the library touch freed memory, a stack stays in memory exactly as long as the program or a thread has a reference to it, and its code, message and frames are those it was given.", "quantifier": "every number of threads and every schedule of calls respecting the ownership rule", "why_tests_cant": "the schedules of several threads are unbounded and use after free is not an observable result", "anchors": ["src/error_stack.c: ccs_get_thread_error, ccs_set_thread_error, ccs_create_thread_error, ccs_create_error_stack, ccs_error_stack_push, ccs_error_stack_get_elems", "src/cconfigspace.c: ccs_retain_object, ccs_release_object", "bindings/python/cconfigspace/error_stack.py: set_thread_error"]}
{"id": "C124", "title": "Threads do not see each other's errors", "statement": "Whatever the interleaving of the calls made by the threads of a program, the error a thread gets is the one its own calls produced, with its own frames in order, as if the thread had been alone.", "quantifier": "every number of threads, every interleaving", "why_tests_cant": "interleavings cannot be enumerated by tests", "anchors": ["src/error_stack.c: ccs_error_stack, ccs_create_thread_error, ccs_thread_error_stack_push, ccs_get_thread_error"]}
{"id": "C125", "title": "Reporting an error terminates", "statement": "When a call is refused, recording the error ends and the refused call returns, whatever error the thread had before.", "quantifier": "every previous error of the thread, its reference count and its destruction callbacks", "why_tests_cant": "the faulty case needs a destruction callback on an error stack that itself meets an error", "anchors": ["src/error_stack.c: _ccs_clear_thread_error, ccs_create_thread_error", "src/cconfigspace.c: ccs_release_object", "src/cconfigspace_internal.h: CCS_RAISE"]}
{"id": "C126", "title": "The text of an expression is read back with the same meaning", "statement": "Printing an expression with a binding and parsing the text gives an expression that depends on the same parameters and evaluates to the same outcome whatever the values of the parameters.", "quantifier": "every expression the constructors accept, every set of parameter names known to the parser, every value of the parameters", "why_tests_cant": "expressions are unbounded trees; tests print and parse a few flat ones", "anchors": ["src/expression.c: ccs_expression_precedence, ccs_expression_associativity, ccs_expression_symbols, ccs_terminal_precedence, ccs_terminal_regexp", "bindings/python/cconfigspace/expression.py: Expression.__str__, ExpressionLiteral.__str__, ExpressionList.__str__", "bindings/python/cconfigspace/expression_parser.py: ccs_grammar, parse", "bindings/ruby/lib/cconfigspace/expression.rb: to_s"]}
{"id": "C127", "title": "Documented refusals of NULL pointers and invalid objects", "statement": "When the arguments of a public function meet a condition under which its documentation says it fails - a handle that is NULL or of another kind, a NULL result pointer, a NULL array with a positive count, all optional results NULL - the call fails with the documented code of such a condition; it neither succeeds nor writes through the NULL pointer.", "quantifier": "every public function, every combination of its arguments, every state of the library", "why_tests_cant": "330 functions, several arguments each, and every combination of bad arguments; tests try a handful", "anchors": ["include/cconfigspace/*.h: @return lines", "src/cconfigspace_internal.h: CCS_CHECK_OBJ, CCS_CHECK_PTR, CCS_CHECK_ARY, CCS_REFUTE", "src/binding.c: CCS_CHECK_BINDING", "src/context.c: CCS_CHECK_CONTEXT"]}
{"id": "C128", "title": "What a program attaches to an object from Python or Ruby lives as long as it is used", "statement": "Destroy callbacks, serialization callbacks and data attached to an object through the bindings are the ones last attached when they are used, each destroy callback is called once when the object is destroyed, none of them is used after the interpreter freed it, and the bindings keep nothing for the object afterwards.", "quantifier": "every history of attachments, reads and writes on an object, plain or user defined, followed by its destruction", "why_tests_cant": "using freed closures is undefined and usually silent; the order of attachments is unbounded", "anchors": ["bindings/python/cconfigspace/base.py: _data_store, _register_destroy_callback, _register_callback, _register_user_data, _set_destroy_callback, _set_serialize_callback", "bindings/ruby/lib/cconfigspace/base.rb: register_callback, set_destroy_callback", "src/cconfigspace.c: ccs_object_set_destroy_callback, ccs_release_object"]}
{"id": "C129", "title": "User defined objects read back through the bindings behave as created ones", "statement": "A user defined tuner or tree space written and read back through Python or Ruby has its callbacks and its user data, and its callbacks can be called until it is destroyed.", "quantifier": "every user defined object, its user data and all that is done with it afterwards", "why_tests_cant": "depends on the order in which library and registry callbacks run; tests read back objects without data", "anchors": ["bindings/python/cconfigspace/base.py: _register_vector, _register_vector_data, deserialize", "bindings/python/cconfigspace/tuner.py: UserDefinedTuner.deserialize"]}
{"id": "C130", "title": "Objects of the bindings hold exactly one reference", "statement": "Each object the Python or Ruby binding hands to a program keeps the object of the library alive until it is collected, and when no object of the program and no object of the library needs it any more it is freed.", "quantifier": "every method that returns objects, every sequence of calls, collections and uses inside the library", "why_tests_cant": "depends on what each of the hundred C functions does with references, and on when the collector runs; leaks are silent", "anchors": ["bindings/python/cconfigspace/base.py: Object.__init__, Object.__del__, Object.from_handle", "bindings/python/cconfigspace/parameter.py: default_distribution", "bindings/ruby/lib/cconfigspace/base.rb: Object#initialize, Releaser, add_handle_property", "src/cconfigspace.c: ccs_retain_object, ccs_release_object", "src/parameter.c: ccs_parameter_get_default_distribution"]}
{"id": "C131", "title": "Objects of the bindings have the class of what they stand for", "statement": "A method of the Python or Ruby binding that returns an object of the library returns an object of the class of its kind, so that the methods of that class work on it.", "quantifier": "every method that returns objects and every kind of object it can return", "why_tests_cant": "tests call few of the hundred methods on few kinds; Python and Ruby only notice a wrong class or name when the line runs", "anchors": ["bindings/python/cconfigspace/base.py: CLASS_MAP, _from_handle", "bindings/python/cconfigspace/features.py: features_space", "bindings/ruby/lib/cconfigspace/base.rb: class_map", "bindings/ruby/lib/cconfigspace/expression.rb: parameters"]}
{"id": "C132", "title": "Values and maps from Python", "statement": "A value a Python program gives to the library comes back as the same value, and a map of the library used from Python is a dictionary: m[k] is the value last assigned to k and not deleted, del m[k] fails when there is none, has_key says whether there is one.", "quantifier": "every value of the types the binding accepts and every history of assignments and deletions on a map", "why_tests_cant": "all integers, strings and histories; the conversions of ctypes are silent", "anchors": ["bindings/python/cconfigspace/base.py: Datum.value, Datum.set_value", "bindings/python/cconfigspace/map.py: Map", "src/map.c: ccs_map_set, ccs_map_get, ccs_map_del, ccs_map_exist"]}
{"id": "C133", "title": "Arrays filled by callbacks written in Python or Ruby", "statement": "When the library asks a user defined tuner written in Python or Ruby for configurations, optima or history, the objects given by the program are in the array, followed by NULL, with the count and the references documented; an array that is too short is refused and nothing is written outside of the array; a call that fails keeps no reference.", "quantifier": "every tuner with or without features or trees, every size of array, every list and count a callback can give", "why_tests_cant": "writes past the end of an array of the caller are silent; depends on sizes", "anchors": ["bindings/python/cconfigspace/tuner.py: _wrap_user_defined_tuner_callbacks", "bindings/ruby/lib/cconfigspace/tuner.rb: wrap_user_defined_tuner_callbacks", "bindings/python/cconfigspace/features_tuner.py, tree_tuner.py", "bindings/ruby/lib/cconfigspace/features_tuner.rb, tree_tuner.rb"]}
{"id": "C134", "title": "State of tuners written in Python or Ruby", "statement": "The state a tuner written in Python or Ruby gives to be saved is written with the tuner and given back to the callback of the program that reads the tuner.", "quantifier": "every user defined tuner, every state, every message", "why_tests_cant": "the lines that fail only run with callbacks for the state; the interpreters notice names that do not exist only when they are used", "anchors": ["bindings/python/cconfigspace/tuner.py: serialize_wrapper, deserialize_wrapper", "bindings/ruby/lib/cconfigspace/tuner.rb: serializewrapper, deserializewrapper", "src/tuner_deserialize.h: _ccs_deserialize_bin_user_defined_tuner"]}
{"id": "C135", "title": "Strings of a map stay readable", "statement": "A string passed to ccs_map_set with CCS_DATUM_FLAG_TRANSIENT is copied: whatever the program later writes in its buffers or frees, lookups and enumerations give strings that can be read and that read what was passed. Keys and values that the map returned can be passed back to it.", "quantifier": "all programs that allocate, rewrite and free buffers and call ccs_map_set, ccs_map_del, ccs_map_clear and the getters, all hash functions", "why_tests_cant": "use after free depends on the order of arbitrary calls and on memory reuse; tests pass literals or buffers that happen to stay", "anchors": ["src/map.c:ccs_map_set", "src/map.c:_ccs_map_check_datum", "src/map.c:_ccs_map_set_string", "src/map.c:_ccs_map_remove", "src/map.c:ccs_map_get_pairs", "src/datum_hash.h:_datum_cmp"]}
{"id": "C136", "title": "Strings accepted by a string parameter stay readable and are kept once", "statement": "A transient string given to a binding (configuration, features) for a string parameter is kept by the parameter: the binding can be read as long as it lives and reads what was given, whatever becomes of the buffer; equal strings are kept once and validation returns the same pointer for them.", "quantifier": "all programs that allocate, rewrite and free buffers, validate values and set the values of any number of bindings, all hash functions", "why_tests_cant": "lifetimes and sharing depend on the whole sequence of calls and on what the program does to its buffers", "anchors": ["src/parameter_string.c:_ccs_parameter_string_check_values", "src/binding_internal.h:_ccs_binding_set_value", "src/parameter.c:ccs_parameter_validate_value", "src/datum_hash.h:_datum_cmp"]}
{"id": "C137", "title": "Values and maps from Ruby", "statement": "A value a Ruby program gives to the library comes back as an equal value or is refused, identifiers of objects included, and a map of the library used from Ruby is a dictionary: m[k] is the value last assigned to k, include?, size, keys, values and each tell what is in it.", "quantifier": "every value of the types the binding accepts and every program that uses a map", "why_tests_cant": "all integers, strings, encodings and programs; Ruby notices names that do not exist only when they are used, and identifiers only occur with maps made elsewhere", "anchors": ["bindings/ruby/lib/cconfigspace/base.rb: Datum.from_value, Datum#set_value, Datum#value, DatumFlags, Object.from_handle", "bindings/ruby/lib/cconfigspace/map.rb: Map", "src/map.c: ccs_map_set, ccs_map_get, ccs_map_exist"]}
{"id": "C138", "title": "Exceptions raised in callbacks written in Python", "statement": "An exception raised in a callback written in Python comes out of the call of the library that led to it, with its error code (external for exceptions that are not of the library), its text, and the places it went through in order, through callbacks nested to any depth; when it is handled or dropped, no error stack is left in memory or current for the thread.", "quantifier": "every program that calls the library with callbacks that call the library, any nesting, any exceptions, any handling", "why_tests_cant": "nested callbacks and ownership of error stacks through two languages; the failing cases are those where the report itself fails, which ctypes prints and ignores", "anchors": ["bindings/python/cconfigspace/base.py: Error.__init__, Error.check, Error.set_error", "bindings/python/cconfigspace/error_stack.py: ErrorStack, get_thread_error, set_thread_error", "src/error_stack.c: ccs_get_thread_error, ccs_set_thread_error, ccs_create_error_stack"]}
{"id": "C139", "title": "A roulette gives each area its share", "statement": "Sampling a roulette distribution selects area i for the draws of an interval whose width, the probability of the area, is its weight divided by the sum of the weights, up to the rounding of double precision: the difference is at most (n+1)/2^49 for n areas.", "quantifier": "all lists of weights the constructor accepts whose sum does not overflow, all areas, all uniform draws", "why_tests_cant": "a probability can only be estimated by tests, and rounding errors are far below what sampling shows", "anchors": ["src/distribution_roulette.c: ccs_create_roulette_distribution, _ccs_distribution_roulette_samples", "src/distribution_internal.h: _ccs_dichotomic_search, _ccs_distribution_roulette_normalize_areas"]}
{"id": "C140", "title": "Sampling a tree gives each position its share", "statement": "Sampling a tree or a tree space returns each valid position with the probability documented in Tree Sampling.md: a node is due its weight, a missing child 1, both times the biases on the way from the root, divided by what all positions are due together; successive samples are independent. When no weight or bias was changed all positions are equally likely. The difference is at most (l+1)(d+1)(b+2)/2^48 for a position of length l in a tree of depth d and arity b.", "quantifier": "all trees built by any calls whose totals neither overflow nor vanish, all sequences of positions, all uniform draws", "why_tests_cant": "probabilities of arbitrary trees with arbitrary weights and rounding; the totals are kept by incremental updates along any sequence of calls", "anchors": ["src/tree.c: ccs_tree_samples, ccs_tree_sample, ccs_tree_set_weight, ccs_tree_set_bias, ccs_tree_set_child", "src/tree_internal.h", "src/tree_space.c: _ccs_tree_space_samples", "Tree Sampling.md"]}
{"id": "C141", "title": "A mixture draws from each component with its share", "statement": "Each sample of a mixture distribution is a sample of one component, and the component is chosen with a probability that is its weight divided by the sum of the weights, up to the rounding of double precision (at most n/2^47 for n components), independently for successive samples, in the contiguous and strided layouts.", "quantifier": "all mixtures the constructor accepts whose sum of weights does not overflow, any components, any number of samples, all uniform draws", "why_tests_cant": "a probability can only be estimated by tests; rounding accumulates with the number of components", "anchors": ["src/distribution_mixture.c: ccs_create_mixture_distribution, _ccs_distribution_mixture_samples, _ccs_distribution_mixture_strided_samples", "src/distribution_internal.h: _ccs_dichotomic_search"]}
{"id": "C142", "title": "Suggestions choose fairly among the optima", "statement": "A tuner, features tuner or tree tuner with optima of different configurations suggests each of them for the same number of draws of the generator, give or take one: among n optima (with the features given) and a generator of R consecutive numbers, each is suggested for the integer part of R/n draws or one more, and exactly R/n when n divides R.", "quantifier": "all numbers of optima, all ranges of generators that fit in 64 bits, all optima", "why_tests_cant": "frequencies can only be estimated by tests, and the bias of a remainder is invisible for few optima", "anchors": ["src/tuner_random.c: _ccs_tuner_random_suggest", "src/features_tuner_random.c: _ccs_features_tuner_random_suggest", "src/tree_tuner_random.c: _ccs_tree_tuner_random_suggest", "src/rng.c: ccs_rng_get"]}
{"id": "C143", "title": "Values of configurations used from Python and Ruby", "statement": "A Python or Ruby program reads and sets the values of a configuration, of features or of an evaluation by parameter, by name or by position, one by one or all at once: what was set last is read back, whichever way; other values stay; a text that a parameter does not have, and what stands for no value, are refused without any change. The dictionary of a configuration gives each name its value, values can be validated by parameter, name or position, and configurations can be put in sets.", "quantifier": "all spaces the API builds, all values of Python and Ruby that the library can represent, all keys", "why_tests_cant": "all combinations of ways to name a value, to set it and to read it, of types of values and of spaces that grew since; errors in dynamic languages only show when that line is executed", "anchors": ["bindings/python/cconfigspace/binding.py: Binding.set_value, value, values, set_values, hash, asdict", "bindings/python/cconfigspace/context.py: Context.validate_value", "bindings/ruby/lib/cconfigspace/binding.rb: Binding", "bindings/ruby/lib/cconfigspace/context.rb: Context#validate_value", "src/binding_internal.h: _ccs_binding_set_value, _ccs_binding_get_value_by_name"]}
{"id": "C144", "title": "Distributions sampled from Python and Ruby", "statement": "From Python and from Ruby, sample returns the sample that the library draws: a number for a distribution of one dimension, otherwise a list with one number for each dimension, an integer or a float as the data types say; samples returns as many as asked, in the order drawn. bounds returns the bounds of the distribution, and is_oversampling (oversampling?) answers whether the distribution can draw outside an interval.", "quantifier": "all distributions that a program can create, of any number of dimensions, all numbers of samples, all states of the generator", "why_tests_cant": "all nestings of distributions; a write past the end of an array of the binding is usually not seen by a test, and errors in dynamic languages only show when that line is executed", "anchors": ["bindings/python/cconfigspace/distribution.py: Distribution", "bindings/ruby/lib/cconfigspace/distribution.rb: Distribution", "src/distribution.c: ccs_distribution_sample, ccs_distribution_samples, ccs_distribution_get_bounds, ccs_distribution_check_oversampling"]}
{"id": "C145", "title": "Expressions built and evaluated from Python and Ruby", "statement": "From Python and from Ruby, an expression built from expressions, parameters and values has the operator of its class and these operands, in order; evaluating it, or an item of a list, in a context with one value for each parameter, or without a context, gives the value or the error that the library gives for the same values; a wrong number of values is refused. The value of a literal is read back, and the parameters of an expression can be asked for.", "quantifier": "all expressions, contexts, values of Python and Ruby that the library can represent, all positions in lists", "why_tests_cant": "all combinations of expressions, values and contexts; an empty list counts as false in Python and not in Ruby, and errors in dynamic languages only show when that line is executed", "anchors": ["bindings/python/cconfigspace/expression.py: Expression.eval, parameters, _create_binary, _create_unary, ExpressionList, ExpressionLiteral", "bindings/ruby/lib/cconfigspace/expression.rb: Expression", "src/expression.c: ccs_create_binary_expression, ccs_create_unary_expression, ccs_expression_eval, ccs_expression_list_eval_node, ccs_expression_get_parameters"]}
{"id": "C146", "title": "An expression has the operands its operator takes, and only a signed overflow makes an evaluation undefined", "statement": "ccs_create_expression accepts a node exactly when the operator exists, the number of operands is the one the operator takes (one for the signs and NOT, two for the other operators, any number for LIST), and each operand is an expression, a parameter or a plain value; anything else is refused with an error. The operands of the new expression are those given, in order, values having become literals and parameters variables. Evaluating an expression obtained that way, whatever its size, never reads a missing operand or a value outside of the binding: it returns a value or an error, unless a part of it applies an integer operator to integers whose exact result does not fit in 64 bits.", "quantifier": "all operator numbers, all lists of operands, all expressions built through the API, all contexts and values", "why_tests_cant": "Tests build a few well-formed expressions; that no accepted expression whatever its shape makes the evaluation read out of bounds is a statement about all of them.", "anchors": ["src/expression.c: ccs_create_expression, ccs_expression_arity, _ccs_expr_node_eval, ccs_expression_eval"]}
{"id": "C147", "title": "Configuration spaces described and questioned from Python and Ruby", "statement": "A condition or a distribution given from Python or Ruby to parameters named by the objects, by their names or by their positions goes to exactly those parameters, as if the library had been called with their positions; once accepted it is what is read back by any of the keys, and the other parameters keep what they had. The lists of parameters, conditions and forbidden clauses read from the languages are those of the space, the conditional and unconditional parameters are exactly those with and without a condition, parameters added together are added as they would be one by one, and lists whose lengths do not agree are refused without any effect.", "quantifier": "all reachable configuration spaces, all keys of their parameters, all conditions and distributions, all lists of parameters and of distributions", "why_tests_cant": "The tests of the bindings use a few small spaces and only some of the kinds of keys; names in a list of parameters and mixed lists of distributions are never tried.", "anchors": ["bindings/python/cconfigspace/configuration_space.py:ConfigurationSpace", "bindings/ruby/lib/cconfigspace/configuration_space.rb:ConfigurationSpace", "bindings/python/cconfigspace/context.py:Context", "bindings/ruby/lib/cconfigspace/context.rb:Context"]}
{"id": "C148", "title": "Bindings of any kinds can be compared and hashed", "statement": "Comparing two bindings (configurations, features, evaluations, evaluations with features, tree evaluations) always gives an answer; among any bindings, of the same kind or not, it is a total order, two compare equal exactly when they are of the same kind and have the same contents, and then they have the same hash. Two evaluations of different kinds that have the same space and values are told apart, and an object that is not a binding is refused.", "quantifier": "all bindings of all kinds, and all sets of them, whatever spaces they share", "why_tests_cant": "Tests compare a few bindings of the same kind; that the function of one kind never reads an object of another kind as its own is about all pairs of kinds and all values.", "anchors": ["src/binding.c: CCS_CHECK_BINDING, ccs_binding_cmp, ccs_binding_hash", "src/binding_internal.h: _ccs_binding_cmp, _ccs_binding_hash", "src/evaluation.c: _ccs_evaluation_cmp", "src/features_evaluation.c: _ccs_features_evaluation_cmp", "src/tree_evaluation.c: _ccs_tree_evaluation_cmp"]}
{"id": "C149", "title": "Comparing, sorting and hashing configurations and evaluations from Python and Ruby", "statement": "From Python and from Ruby the operators <, <=, >, >=, == and != on configurations, features and tree configurations are those of one order, equality means the same contents, things that are equal have the same hash and are the same key of a dictionary, and comparing with anything else answers that it is different. For evaluations the operators mean the same in both languages.", "quantifier": "all configurations, features, evaluations and tree configurations, all pairs and all sets of them, all operators", "why_tests_cant": "Laws of orders are about all triples; the operators of Python and Ruby are never compared with each other by a test, and errors in dynamic languages only show when that line is executed.", "anchors": ["bindings/python/cconfigspace/binding.py: Binding.__lt__, __le__, __gt__, __ge__, __eq__, __ne__, hash, __hash__", "bindings/python/cconfigspace/tree_configuration.py: TreeConfiguration", "bindings/ruby/lib/cconfigspace/binding.rb: Binding#<=>, hash", "bindings/ruby/lib/cconfigspace/evaluation.rb: Evaluation#<=>", "bindings/ruby/lib/cconfigspace/features_evaluation.rb: FeaturesEvaluation#<=>", "bindings/ruby/lib/cconfigspace/tree_evaluation.rb: TreeEvaluation#<=>"]}
{"id": "C150", "title": "Intervals made and questioned from Python and Ruby", "statement": "An interval made from Python or Ruby gives back its type, its bounds and whether they belong to it; include answers whether a number lies between the bounds; an empty interval contains no number, the intersection of two intervals of one type contains exactly the numbers inside both, intervals of different types have none, and equal intervals contain the same numbers. A number that an interval cannot hold, as a bound or as what is looked for, is refused or lies outside.", "quantifier": "all intervals of integers and of floats, all bounds, all integers of any size and all floats", "why_tests_cant": "Integers of Python and Ruby are unbounded and the fields of an interval are 64 bits wide; the tests only use small bounds and numbers of the type of the interval.", "anchors": ["bindings/python/cconfigspace/interval.py: Interval", "bindings/ruby/lib/cconfigspace/interval.rb: Interval", "src/interval.c: ccs_interval_include, ccs_interval_empty, ccs_interval_intersect, ccs_interval_equal"]}
{"id": "C151", "title": "Objects serialized and read from Python and Ruby", "statement": "From Python and Ruby an object is written to the place asked for: the buffer returned, the file or the descriptor, with one and the same message in both languages, and both a file and a descriptor are refused. Reading a message from a buffer, a file or a descriptor, in either language and whichever wrote it, gives the object that was written, with the handle map, vector, data and callback that the program gives; exactly one source has to be given. User data arrive as what the reading language makes of the text the writing one made of them, and no callback can make the library write outside of the message.", "quantifier": "all objects the library can serialize, all files, descriptors and buffers, all callbacks, user data, handle maps and data, both languages on either side", "why_tests_cant": "The tests of the bindings use a few files and buffers; descriptor 0, empty handle maps, empty data and callbacks that change their answer are never tried.", "anchors": ["bindings/python/cconfigspace/base.py: Object.serialize, Object.deserialize, _get_serialize_callback_wrapper, _get_deserialize_callback_wrapper, _json_user_data_serializer, _json_user_data_deserializer", "bindings/ruby/lib/cconfigspace/base.rb: Object#serialize, Object.deserialize, get_serialize_wrapper, get_deserialize_wrapper", "src/cconfigspace.c: ccs_object_serialize, ccs_object_deserialize"]}
{"id": "C152", "title": "Trees built and questioned from Python and Ruby", "statement": "From Python and Ruby a new tree node has the value and the arity given, weight and bias 1, no children and no parent, and leaves all other nodes alone. The list of children has one entry per place, the one get_child finds; a child knows its parent and its place, and exactly the children of a node do. Attaching a node to an empty place puts it there and changes no other link. The depth, position and values of a node describe the way from its root, and from the root they lead back to the node and its values. Samples are places of the node, or None for the node itself. An integer that is not the number of a place is refused.", "quantifier": "all forests that calls can build, all nodes, all values and all integers of the language, all draws, both languages", "why_tests_cant": "The tests of the bindings build one small tree; integers beyond 64 bits, negative numbers and deep positions are never tried.", "anchors": ["bindings/python/cconfigspace/tree.py: Tree", "bindings/ruby/lib/cconfigspace/tree.rb: Tree", "src/tree.c"]}
{"id": "C153", "title": "Objective spaces and evaluations used from Python and Ruby", "statement": "From Python and Ruby an objective comes last with the type given, MINIMIZE if none is; a number of types other than that of the objectives, and expressions on foreign parameters, are refused and change nothing. The objective at a position is that of the list of objectives. An evaluation has the objective space, configuration, result and values it was created with, all values None if none are given; a wrong number of values, or a text its parameter does not have, is refused. Its objective values are those of all the objectives of its space at that moment, in order. It is valid exactly when every value is one of its parameter. A comparison answers the member of the enumeration for the answer of the library.", "quantifier": "all objective spaces, expressions, types, values and integers of the language, all programs that add parameters or objectives between questions, both languages", "why_tests_cant": "The tests of the bindings never add an objective after asking for objective values, never pass empty lists, and never check an evaluation with features.", "anchors": ["bindings/python/cconfigspace/objective_space.py: ObjectiveSpace", "bindings/python/cconfigspace/evaluation.py: Evaluation", "bindings/python/cconfigspace/features_evaluation.py: FeaturesEvaluation", "bindings/python/cconfigspace/tree_evaluation.py: TreeEvaluation", "bindings/ruby/lib/cconfigspace/objective_space.rb: ObjectiveSpace", "bindings/ruby/lib/cconfigspace/evaluation.rb: Evaluation", "src/objective_space.c", "src/evaluation.c"]}
{"id": "C154", "title": "Tuners used from Python and Ruby", "statement": "From Python and Ruby the history of a tuner is the list of the successful evaluations told, in order, and history_size their number; the optima are entries of the history, and its Pareto front. With features, a features tuner gives the entries with equal features only; without, all. Asking for a number of configurations gives that many valid ones or raises, and every configuration made is given to the program or released. A suggestion for features is the configuration of an optimum with these features if there is one; without features the call raises.", "quantifier": "all sequences of batches told, all numbers asked for, all reachable configuration spaces and draws, all features, both languages", "why_tests_cant": "The tests of the bindings tell one batch and ask for configurations in spaces where sampling never fails.", "anchors": ["bindings/python/cconfigspace/tuner.py: Tuner", "bindings/python/cconfigspace/features_tuner.py: FeaturesTuner", "bindings/python/cconfigspace/tree_tuner.py: TreeTuner", "bindings/ruby/lib/cconfigspace/tuner.rb: Tuner", "bindings/ruby/lib/cconfigspace/features_tuner.rb: FeaturesTuner", "src/tuner_random.c", "src/configuration_space.c: ccs_configuration_space_samples"]}
{"id": "C155", "title": "Parameters made and questioned from Python and Ruby", "statement": "From Python and Ruby a parameter has the name it was created with, whether a string or, in Ruby, a symbol; names given by default are all different. A numerical parameter has the bounds, quantization and default value given; numbers that 64 bits do not hold are refused; it can be created exactly when the lower bound is below the upper one, the quantization fits between and the default lies within, the default being the lower bound if not given. A categorical, ordinal or discrete parameter can be created exactly when the position of the default value is one of the list, no value is listed twice and a discrete one lists numbers only, and lists its values in order. check_value answers whether a value is within the bounds, or listed, check_values does so for each value, and compare is the order of the list. Samples are as many as asked for and pass check_value.", "quantifier": "all names, numbers, lists of values and positions of the language, all parameters created from them, all distributions that respect their bounds, both languages", "why_tests_cant": "The tests of the bindings use short ASCII names and small numbers; symbols that need quotes, names with colons or newlines, integers beyond 64 bits, and check_values in Ruby are never tried.", "anchors": ["bindings/python/cconfigspace/parameter.py: Parameter, FloatNumericalParameter, IntNumericalParameter, CategoricalParameter, OrdinalParameter, DiscreteParameter, StringParameter", "bindings/ruby/lib/cconfigspace/parameter.rb: Parameter, NumericalParameter, CategoricalParameter, OrdinalParameter, DiscreteParameter, StringParameter", "src/parameter_numerical.c: ccs_create_numerical_parameter", "src/parameter_categorical.c: _ccs_create_categorical_parameter"]}
{"id": "C156", "title": "Distributions made and questioned from Python and Ruby", "statement": "From Python and Ruby the object later made for a distribution has the class it was created with, and gives back the bounds, mean, deviation, scale and quantization given; what is left out has a fixed value. Numbers that 64 bits do not hold, and floats given as bounds of integers, are refused. A uniform distribution of integers can be created exactly when the lower bound is below the upper one, the quantization fits between, and the lower bound is positive on a logarithmic scale. A mixture needs as many weights as components, and without weights all count the same; no other class takes weights. Mixtures and multivariate distributions give back their components in order, each with its class. A program that reads all the properties of a distribution and calls the constructors with the answers has the same distribution.", "quantifier": "all numbers, lists of weights and areas of the language, all distributions made from them, nested to any depth, both languages", "why_tests_cant": "The tests of the bindings create one distribution of each class with small numbers, always give as many weights as components, and never copy a nested distribution.", "anchors": ["bindings/python/cconfigspace/distribution.py: Distribution, UniformDistribution, NormalDistribution, RouletteDistribution, MixtureDistribution, MultivariateDistribution", "bindings/ruby/lib/cconfigspace/distribution.rb: Distribution, UniformDistribution, NormalDistribution, RouletteDistribution, MixtureDistribution, MultivariateDistribution", "src/distribution_uniform.c: ccs_create_uniform_distribution", "src/distribution_mixture.c: ccs_create_mixture_distribution"]}
{"id": "C157", "title": "Sampling is reproducible once generators are seeded", "statement": "A program that seeds every random generator before it draws from it, directly, through a distribution, or by sampling a configuration space that uses it, has the same answers whenever it runs, whatever state the generators it makes start in. Seeding a generator again makes what follows independent of what was drawn before. Drawing from or seeding one generator leaves the others as they are, also when spaces are given other generators. A configuration sampled by any such program, with any generators shared in any way, is valid and passes the check of the space.", "quantifier": "all programs that make, seed, share and use generators and make, edit and sample spaces, all sources of random numbers and all their states, all reachable spaces", "why_tests_cant": "Tests compare a few numbers of one generator of the library with one of the GSL; that no state outside the generator matters, in any interleaving of generators and spaces, is a statement about all programs.", "anchors": ["src/rng.c: ccs_create_rng_with_type, ccs_rng_set_seed, ccs_rng_get, ccs_rng_uniform", "src/configuration_space.c: ccs_configuration_space_set_rng, ccs_configuration_space_sample, ccs_configuration_space_samples, _sample", "src/distribution.c: ccs_distribution_parameters_samples, ccs_distribution_soa_samples", "src/parameter.c: ccs_parameter_samples"]}
{"id": "C158", "title": "Configurations, features and seeds from Python and Ruby", "statement": "From Python and Ruby a configuration, or features, created with a list of values has these values, in order; creation raises exactly when their number is not that of the parameters or a text is not a value of its parameter. Without a list all values are None or nil. A program that reads the values of a configuration and creates another with them has the same configuration, and the check answers the same. check_values raises when the number of values is wrong and else tells whether they are valid, as does checking the configuration made of them; a configuration of another space is refused. A sample is valid and passes the check; samples(n) gives n of them or raises, and every configuration made is given to the program or released. The generator is given the seed that the program chose, or the call raises.", "quantifier": "all spaces that calls can make, all lists of values of the language, all configurations, all numbers of samples and all draws, all integers as seeds, both languages", "why_tests_cant": "The tests of the bindings create a few configurations from lists of the right length, never from an empty list, never call check_values of a features space, sample where sampling does not fail, and use small seeds.", "anchors": ["bindings/python/cconfigspace/configuration.py: Configuration", "bindings/python/cconfigspace/features.py: Features", "bindings/python/cconfigspace/configuration_space.py: check, check_values, sample, samples", "bindings/python/cconfigspace/features_space.py: check_values", "bindings/python/cconfigspace/rng.py: Rng", "bindings/ruby/lib/cconfigspace/configuration.rb: Configuration", "bindings/ruby/lib/cconfigspace/features.rb: Features", "bindings/ruby/lib/cconfigspace/configuration_space.rb: check, check_values, sample, samples", "bindings/ruby/lib/cconfigspace/features_space.rb: check_values", "bindings/ruby/lib/cconfigspace/rng.rb: Rng", "src/configuration.c: ccs_create_configuration", "src/features.c: ccs_create_features"]}
{"id": "C159", "title": "Tree spaces and tree configurations used from Python and Ruby", "statement": "From Python and Ruby a tree configuration reports the space and the position it was created with, and two are equal exactly when these are. A configuration answers what its space answers at its position: whether it is valid, its node, its values. An answer that the object keeps is never out of date: whatever trees are built, attached, weighted or dropped afterwards, the node and the values at a position stay, and a valid position stays valid. A configuration of another space is refused. Samples are as many as asked for, belong to the space and are valid, with a node and values; every configuration drawn is given to the program or released.", "quantifier": "all static tree spaces over trees that calls can build, for the answers kept also all dynamic ones whatever their callbacks do, all positions and integers of the language, all sequences of calls on trees between two questions, all draws, both languages", "why_tests_cant": "The tests of the bindings never change a tree between two questions, and only use positions and samples of one small complete tree.", "anchors": ["bindings/python/cconfigspace/tree_configuration.py: TreeConfiguration", "bindings/python/cconfigspace/tree_space.py: TreeSpace", "bindings/ruby/lib/cconfigspace/tree_configuration.rb: TreeConfiguration", "bindings/ruby/lib/cconfigspace/tree_space.rb: TreeSpace", "src/tree_configuration.c", "src/tree_space.c: _ccs_tree_space_samples", "src/tree_space_static.c", "src/tree_space_dynamic.c"]}
{"id": "C160", "title": "Objects of Python and Ruby as equals, members and keys", "statement": "From Python and Ruby two objects that stand for the same object of the library are equal; for parameters, equality means the same parameter, and comparing with anything raises no exception. A parameter is found in the list of the parameters of a space exactly when the space has it, at the position the library gives. What is kept in a dictionary under an object is found with any object that is equal to it, and with no other.", "quantifier": "all parameters and other objects, all spaces that calls can make, all objects of the language that stand for them, all dictionaries, both languages", "why_tests_cant": "The tests of the bindings compare a few parameters of one space; what a lookup finds depends on the methods each class defines or inherits and on which objects of the language exist.", "anchors": ["bindings/python/cconfigspace/parameter.py: Parameter.__eq__", "bindings/python/cconfigspace/base.py: Object", "bindings/python/cconfigspace/context.py: parameters", "bindings/ruby/lib/cconfigspace/parameter.rb: Parameter#==", "bindings/ruby/lib/cconfigspace/base.rb: Object", "bindings/ruby/lib/cconfigspace/context.rb: parameters"]}
{"id": "C161", "title": "Exceptions raised in callbacks written in Ruby", "statement": "An exception raised in a callback written in Ruby comes out of the call of the library that led to it, with its error code (external for exceptions that are not of the library), its text, and the places it went through in order, through callbacks nested to any depth; the library is told of each callback that it succeeded, or the code of what it raised; when the exception is handled or dropped, no error stack is left in memory or current for the thread.", "quantifier": "every program that calls the library with callbacks that call the library, any nesting, any exceptions, any handling", "why_tests_cant": "nested callbacks and ownership of error stacks through two languages; the failing cases are those that rescue does not catch or where the report itself fails, which no test tries", "anchors": ["bindings/ruby/lib/cconfigspace/base.rb: CCSError, error_check, set_error", "bindings/ruby/lib/cconfigspace/error_stack.rb: ErrorStack, get_thread_error, set_thread_error", "bindings/ruby/lib/cconfigspace/tuner.rb: wrap_user_defined_tuner_callbacks", "src/error_stack.c: ccs_get_thread_error, ccs_set_thread_error, ccs_create_error_stack"]}
{"id": "C162", "title": "A search taken up again from a saved space", "statement": "A configuration space written together with its random generator and read by another process gives, asked for configurations any number of times, exactly the configurations that the space written would have given from there on, fails where it would have failed, and its generator goes through the same states. A random tuner, with or without features, written and read likewise goes on as the tuner written would have, for new configurations and for suggestions, whatever evaluations it is told in between.", "quantifier": "all spaces made by calls, whatever was drawn from them before, all states of the generator, all ways distributions draw numbers, any number of configurations", "why_tests_cant": "A test would have to compare infinitely long sequences, for every space and every state of every generator; the tests of the library check only that the space can be read back and that it has the same parameters.", "anchors": ["src/configuration_space.c: _ccs_serialize_bin_configuration_space, _sample, ccs_configuration_space_sample", "src/configuration_space_deserialize.h: _ccs_deserialize_bin_configuration_space", "src/rng.c: _ccs_serialize_bin_rng", "src/rng_deserialize.h: _ccs_deserialize_bin_rng", "src/distribution.c: ccs_distribution_parameters_samples", "src/tuner_random.c: _ccs_tuner_random_ask, _ccs_tuner_random_suggest"]}
