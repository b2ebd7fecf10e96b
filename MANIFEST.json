{
 "claims": [
  {
   "property": "C01",
   "status": "proved",
   "theorems": [
    "Dart.Props.C01_comparator_is_documented_order",
    "Dart.Props.C01_irreflexive",
    "Dart.Props.C01_transitive",
    "Dart.Props.C01_trichotomy"
   ],
   "note": "The comparator decides the documented order; irreflexive, transitive, trichotomous."
  },
  {
   "property": "C02",
   "status": "partial",
   "theorems": [
    "Dart.Props.C02_hit_sound",
    "Dart.Props.C02_absent_not_found",
    "Dart.Props.C02_present_found_partial",
    "Dart.Props.C02_present_found_unsigned_partial",
    "Dart.Props.C02_negation_signed_char",
    "Dart.Props.C02_negation_length_255",
    "Dart.Props.C02_negation_embedded_nul"
   ],
   "note": "Soundness of hits and misses of absent keys are proved for all keys and all nesting depths. Completeness is proved except in three situations where the code really misses present keys (signed char prefixes, 255-byte length cap, embedded NUL); each has a negation theorem."
  },
  {
   "property": "C03",
   "status": "proved",
   "theorems": [
    "Dart.Props.C03_finalize_definalize",
    "Dart.Props.C03_roundtrip_total",
    "Dart.Props.C03_refinalize"
   ],
   "note": "For every dynamic value with strings below 4 GiB; see C04 for larger strings."
  },
  {
   "property": "C04",
   "status": "proved",
   "theorems": [
    "Dart.Props.C04_never_out_of_bounds",
    "Dart.Props.C04_recorded_size_exact",
    "Dart.Props.C04_negation_huge_string"
   ],
   "note": "For strings below 4 GiB; beyond that the negation theorem shows the code overflows its allocation."
  },
  {
   "property": "C05",
   "status": "proved",
   "theorems": [
    "Dart.Props.C05_alignment",
    "Dart.Props.C05_inside",
    "Dart.Props.C05_size_multiple_of_8"
   ],
   "note": "Alignment of everything reachable, at any depth; recorded size multiple of 8."
  },
  {
   "property": "C06",
   "status": "proved",
   "theorems": [
    "Dart.Props.C06_bytes_equal_iff_values_equal",
    "Dart.Props.C06_different_values_differ"
   ],
   "note": "Bytes equal iff values equal."
  },
  {
   "property": "C07",
   "status": "proved",
   "theorems": [
    "Dart.Props.C07_always_answers",
    "Dart.Props.C07_depth_bounded",
    "Dart.Props.C07_stays_within_claimed_bytes"
   ],
   "note": "Always returns a verdict on any bytes, never reads beyond the claimed bytes, recursion depth at most n/8+2."
  },
  {
   "property": "C08",
   "status": "proved",
   "theorems": [
    "Dart.Props.C08_no_undefined_behaviour",
    "Dart.Props.C08_well_typed_calls_succeed",
    "Dart.Props.C08_exceptions",
    "Dart.Props.C08_conversion_succeeds",
    "Dart.Props.C08_aligned",
    "Dart.Props.C08_negation_bool_representation",
    "Dart.Props.C08_negation_key_order"
   ],
   "note": "All reachable elements, all read operations and full conversion; two negation theorems show what validation does not establish (boolean representation, key order)."
  },
  {
   "property": "C09",
   "status": "partial",
   "theorems": [
    "Dart.Props.C09_accepts_finalized_partial",
    "Dart.Props.C09_accepts_iff",
    "Dart.Props.C09_accepts_get_bytes_partial",
    "Dart.Props.C09_negation_null_field",
    "Dart.Props.C09_negation_null_element"
   ],
   "note": "Exact: accepted iff no null lies at the place of what follows it (C09_accepts_iff). Hence proved for all values whose nulls are last (or under even-length keys); negation theorems show that the code rejects other library output."
  },
  {
   "property": "C10",
   "status": "proved",
   "theorems": [
    "Dart.Props.C10_only_claimed_bytes",
    "Dart.Props.C10_trailing_bytes",
    "Dart.Props.C10_truncated_rejected",
    "Dart.Props.C10_recorded_size_decides"
   ],
   "note": "Locality, trailing bytes, truncation, and that the recorded size decides."
  },
  {
   "property": "C11",
   "status": "proved",
   "theorems": [
    "Dart.Props.C11_merge_is_union",
    "Dart.Props.C11_union_exists",
    "Dart.Props.C11_inject_is_union",
    "Dart.Props.C11_chains"
   ],
   "note": "For every pair of obtained buffers; results below 4 GiB. Outcomes that overflow the allocation are the subject of C12."
  },
  {
   "property": "C12",
   "status": "partial",
   "theorems": [
    "Dart.Props.C12_negation_overflow",
    "Dart.Props.C12_negation_inject",
    "Dart.Props.C12_safe_iff",
    "Dart.Props.C12_incoming_contiguous_partial",
    "Dart.Props.C12_single_pair_partial",
    "Dart.Props.C12_base_contiguous_partial",
    "Dart.Props.C12_small_values_partial"
   ],
   "note": "Claim is false as stated: negation with witness. Exact condition under which the merge is safe (C12_safe_iff: the union fits behind a table for both objects); hence safe for contiguous incoming keys, single pairs, contiguous base keys and small values."
  },
  {
   "property": "C13",
   "status": "proved",
   "theorems": [
    "Dart.Props.C13_project_is_restriction",
    "Dart.Props.C13_restriction_exists",
    "Dart.Props.C13_request_is_a_set"
   ],
   "note": "For every obtained buffer and key list; overflowing requests are the subject of C14."
  },
  {
   "property": "C14",
   "status": "partial",
   "theorems": [
    "Dart.Props.C14_negation_overflow",
    "Dart.Props.C14_safe_iff",
    "Dart.Props.C14_short_requests_partial",
    "Dart.Props.C14_negation_every_object"
   ],
   "note": "Claim is false as stated: negation with witness and for every object with a long enough request. Exact condition under which projecting is safe (C14_safe_iff); hence safe for requests no longer than the object."
  },
  {
   "property": "C15",
   "status": "proved",
   "theorems": [
    "Dart.Props.C15_histories",
    "Dart.Props.C15_invariant",
    "Dart.Props.C15_builds_well_formed_values",
    "Dart.Props.C15_object_determined_by_map",
    "Dart.Props.C15_insertion_order_irrelevant",
    "Dart.Props.C15_negation_odd_argument_list"
   ],
   "note": "All histories; exceptions exact; inject with a dangling key (span overload) is undefined behaviour and proved so separately."
  },
  {
   "property": "C16",
   "status": "partial",
   "theorems": [
    "Dart.Props.C16_copies_are_independent_partial",
    "Dart.Props.C16_mutation_not_visible_elsewhere_partial",
    "Dart.Props.C16_copy_shares",
    "Dart.Props.C16_negation_clear",
    "Dart.Props.C16_negation_resize"
   ],
   "note": "Refinement of private values over all programs; clear and resize only when unshared (negations proved for shared storage); self-insertion excluded (C32)."
  },
  {
   "property": "C17",
   "status": "partial",
   "theorems": [
    "Dart.Props.C17_defined_partial",
    "Dart.Props.C17_variables",
    "Dart.Props.C17_copy_to_variable",
    "Dart.Props.C17_use_count_partial",
    "Dart.Props.C17_destroyed_iff_unowned_partial",
    "Dart.Props.C17_destroyed_once_partial",
    "Dart.Props.C17_effect_partial",
    "Dart.Props.C17_survives_partial",
    "Dart.Props.C17_no_leak_partial",
    "Dart.Props.C17_move_from_own_member",
    "Dart.Props.C17_reset_own_member",
    "Dart.Props.C17_converting_move_keeps_source"
   ],
   "note": "All histories over variables and members of managed objects (linked structures, sharing, cycles) whose statements do not depend on the pointer being overwritten; negation proved for moving from a member of the object being released. Covers counted_ptr_base; shareable_ptr and view_ptr are C70; the 64-bit width of the counter not modelled."
  },
  {
   "property": "C18",
   "status": "partial",
   "theorems": [
    "Dart.Props.C18_history_partial",
    "Dart.Props.C18_reached_has_value",
    "Dart.Props.C18_finalize_keeps_value",
    "Dart.Props.C18_definalize_keeps_value",
    "Dart.Props.C18_mutators_throw_when_finalized",
    "Dart.Props.C18_mutators_work_when_dynamic",
    "Dart.Props.C18_bytes_exactly_when_finalized",
    "Dart.Props.C18_reads_agree_partial",
    "Dart.Props.C18_reads_agree_false",
    "Dart.Props.C18_boolean_of_numbers"
   ],
   "note": "All histories over packets of both kinds as variables and arguments; finalize/definalize keep the value, mutators and byte access follow the state. Reads agree except where the code differs (negation proved: front_or/back_or on finalized, boolean() on finalized numbers, at(index) on non-arrays) and except for keys C02 does not cover. Packets are values in this model; that copies share elements (clear, resize, self-insertion) is C16 and C32. Calls on rvalues not modelled."
  },
  {
   "property": "C19",
   "status": "proved",
   "theorems": [
    "Dart.Props.C19_round_trip",
    "Dart.Props.C19_finalized",
    "Dart.Props.C19_scalar_root"
   ],
   "note": "Event level: json_serialize (dynamic and finalized) composed with heap_parser is the identity for every well formed object or array; scalar roots throw type_error. RapidJSON's text writer and tokenizer between the two are trusted to deliver the events written (integers re-dispatched by value)."
  },
  {
   "property": "C20",
   "status": "proved",
   "theorems": [
    "Dart.Props.C20_fits",
    "Dart.Props.C20_other_root"
   ],
   "note": "The text of a document is specified by the JSON grammar with the four extensions the API can switch on (Spec/JsonText.lean). RapidJSON's own reader is not modelled: it is taken to deliver the document the grammar assigns. The lowering (object.tcc 246-303, array.tcc 210-235) is modelled write by write on arbitrary memory."
  },
  {
   "property": "C21",
   "status": "partial",
   "theorems": [
    "Dart.Props.C21_equal_iff_same_partial",
    "Dart.Props.C21_equal_iff_alike",
    "Dart.Props.C21_sharing_irrelevant",
    "Dart.Props.C21_symmetric",
    "Dart.Props.C21_transitive",
    "Dart.Props.C21_transitive_shared",
    "Dart.Props.C21_reflexive_iff",
    "Dart.Props.C21_not_equal",
    "Dart.Props.C21_stored_strings",
    "Dart.Props.C21_not_structural",
    "Dart.Props.C21_nan_depends_on_sharing"
   ],
   "note": "Exact characterization for all values; structural for values without NULs, NaN and negative zero, under any sharing; negations proved for these."
  },
  {
   "property": "C22",
   "status": "proved",
   "theorems": [
    "Dart.Props.C22_equal_iff_same_value",
    "Dart.Props.C22_equal_iff_same_value_parts",
    "Dart.Props.C22_equal_implies_same_value",
    "Dart.Props.C22_equal_iff_same_source"
   ],
   "note": "For all obtained objects and parts, under any sharing of memory."
  },
  {
   "property": "C23",
   "status": "partial",
   "theorems": [
    "Dart.Props.C23_always_answers",
    "Dart.Props.C23_equal_iff_same_value_partial",
    "Dart.Props.C23_agrees_with_finalizing_partial",
    "Dart.Props.C23_equal_implies_alike",
    "Dart.Props.C23_alike_implies_equal",
    "Dart.Props.C23_equal_iff_alike_or_null",
    "Dart.Props.C23_missing_key_counts_as_null",
    "Dart.Props.C23_plain_keys_needed",
    "Dart.Props.C23_numbers_disagree",
    "Dart.Props.C23_not_transitive"
   ],
   "note": "Exact with plain keys; same value with plain keys, no null fields, no NaN or negative zero; negations proved for each."
  },
  {
   "property": "C24",
   "status": "proved",
   "theorems": [
    "Dart.Props.C24_every_string_is_a_path",
    "Dart.Props.C24_dynamic",
    "Dart.Props.C24_finalized_follows_get",
    "Dart.Props.C24_finalized_partial",
    "Dart.Props.C24_representations_agree_partial",
    "Dart.Props.C24_trailing_separator"
   ],
   "note": "All paths; for finalized values get_nested is proved to follow the buffer's own get for all keys, and to equal the dynamic answer for keys C02 covers (the _partial theorems)."
  },
  {
   "property": "C25",
   "status": "proved",
   "theorems": [
    "Dart.Props.C25_dynamic_object",
    "Dart.Props.C25_dynamic_iteration",
    "Dart.Props.C25_dynamic_array",
    "Dart.Props.C25_dynamic_wrong_type",
    "Dart.Props.C25_finalized_object",
    "Dart.Props.C25_finalized_iteration",
    "Dart.Props.C25_finalized_array"
   ],
   "note": "Dynamic and finalized accessors; which keys a finalized lookup finds is C02."
  },
  {
   "property": "C26",
   "status": "proved",
   "theorems": [
    "Dart.Props.C26_integer_round_trip",
    "Dart.Props.C26_decimal_round_trip",
    "Dart.Props.C26_integer_smallest_width",
    "Dart.Props.C26_decimal_width"
   ],
   "note": "Independent definition of IEEE values by sign, exponent and significand; all 2^64 integers and bit patterns."
  },
  {
   "property": "C27",
   "status": "partial",
   "theorems": [
    "Dart.Props.C27_compare",
    "Dart.Props.C27_operators",
    "Dart.Props.C27_at",
    "Dart.Props.C27_substr",
    "Dart.Props.C27_compare_parts",
    "Dart.Props.C27_starts_ends_with",
    "Dart.Props.C27_find_partial",
    "Dart.Props.C27_find_default",
    "Dart.Props.C27_find_at_npos_false",
    "Dart.Props.C27_find_first_of",
    "Dart.Props.C27_find_last_of_from_end",
    "Dart.Props.C27_find_last_of_partial",
    "Dart.Props.C27_find_last_of_position_false",
    "Dart.Props.C27_rfind_partial",
    "Dart.Props.C27_rfind_default_false",
    "Dart.Props.C27_rfind_missing_false",
    "Dart.Props.C27_rfind_char_default_false",
    "Dart.Props.C27_find_first_not_of_partial",
    "Dart.Props.C27_find_first_not_of_false",
    "Dart.Props.C27_find_last_not_of_false"
   ],
   "note": "compare, operators, at, substr, copy, starts_with, ends_with, find_first_of proved in full; find except where position + target length wraps around 2^64 (negation: find(c, npos) terminates); find_last_of only without a position (negation). rfind, find_first_not_of, find_last_not_of: exact region where they are right, and negations for all inputs elsewhere. C-string overloads forward and are not repeated."
  },
  {
   "property": "C28",
   "status": "partial",
   "theorems": [
    "Dart.Props.C28_stored_little_endian",
    "Dart.Props.C28_round_trip",
    "Dart.Props.C28_portable",
    "Dart.Props.C28_add",
    "Dart.Props.C28_sub_partial",
    "Dart.Props.C28_negation_sub_narrow_unsigned"
   ],
   "note": "Storage order, round trip and addition proved for all widths and both host byte orders. Subtraction is proved for operands at least as wide as the stored type or signed; a narrower unsigned operand gives a wrong result (negation proved)."
  },
  {
   "property": "C29",
   "status": "partial",
   "theorems": [
    "Dart.Props.C29_accepts_exactly",
    "Dart.Props.C29_rejects_other_arguments",
    "Dart.Props.C29_same_bytes_partial",
    "Dart.Props.C29_order_irrelevant",
    "Dart.Props.C29_negation_no_size_limit",
    "Dart.Props.C29_negation_large_argument"
   ],
   "note": "Accepted arguments and allocation proved in full. Equality with the finalized dynamic object needs that object to be finalizable: negation with witness above 4 GiB."
  },
  {
   "property": "C30",
   "status": "proved",
   "theorems": [
    "Dart.Props.C30_string_reads_back",
    "Dart.Props.C30_in_place_up_to_23"
   ],
   "note": "Both string layouts at byte level, with whatever the memory contained before; 64-bit targets, length below 2^64."
  },
  {
   "property": "C31",
   "status": "partial",
   "theorems": [
    "Dart.Props.C31_present_key_partial",
    "Dart.Props.C31_absent_key_position",
    "Dart.Props.C31_absent_key_not_end",
    "Dart.Props.C31_absent_key_other_field",
    "Dart.Props.C31_absent_key_outside",
    "Dart.Props.C31_not_an_object",
    "Dart.Props.C31_dynamic",
    "Dart.Props.C31_dynamic_not_an_object"
   ],
   "note": "Present plain keys are found by both calls whatever the uninitialised variable held, and dynamic objects are right in all cases. For absent keys the property is wrong: the position is the uninitialised variable (negations: not the end, another field, outside the buffer)."
  },
  {
   "property": "C32",
   "status": "partial",
   "theorems": [
    "Dart.Props.C32_inserting_keeps_argument_partial",
    "Dart.Props.C32_inserts_the_value_partial",
    "Dart.Props.C32_negation_argument_emptied",
    "Dart.Props.C32_negation_self_insertion"
   ],
   "note": "Positive for constants, new keys and indices; negations proved: non-constant variable under a present key is emptied, self-insertion makes a cycle."
  },
  {
   "property": "C33",
   "status": "partial",
   "theorems": [
    "Dart.Props.C33_not_a_number",
    "Dart.Props.C33_ieee",
    "Dart.Props.C33_integer_operand",
    "Dart.Props.C33_number_first",
    "Dart.Props.C33_native_first_partial",
    "Dart.Props.C33_native_first_exchanged",
    "Dart.Props.C33_native_minus_number_wrong",
    "Dart.Props.C33_whole_numbers",
    "Dart.Props.C33_native_over_number_wrong"
   ],
   "note": "Number wrapper on the left: all four operators give a nearest double of the exact result. Native on the left: + and * right, - and / wrong (operands exchanged; negations proved)."
  },
  {
   "property": "C34",
   "status": "proved",
   "theorems": [
    "Dart.Props.C34_alignment_formula",
    "Dart.Props.C34_model_agrees"
   ],
   "note": "The 64-bit mask formula equals the least multiple above; the arithmetic used in the model agrees with it."
  },
  {
   "property": "C35",
   "status": "partial",
   "theorems": [
    "Dart.Props.C35_owner_keeps_its_value",
    "Dart.Props.C35_owning_constructors",
    "Dart.Props.C35_bad_pointers",
    "Dart.Props.C35_parts",
    "Dart.Props.C35_copies",
    "Dart.Props.C35_independent_partial",
    "Dart.Props.C35_duplicates",
    "Dart.Props.C35_span_shows_callers_memory_wrong",
    "Dart.Props.C35_span_dangles_wrong"
   ],
   "note": "Every buffer that owns the memory it reads keeps its value in all programs; all constructors but the one from a span, copies, moves, parts and dup_bytes give such buffers. The constructor from a span keeps reading the caller's memory (negations proved for all bytes and writes)."
  },
  {
   "property": "C36",
   "status": "proved",
   "theorems": [
    "Dart.Props.C36_inject_commutes_with_finalize",
    "Dart.Props.C36_project_commutes_with_finalize",
    "Dart.Props.C36_merge_idempotent",
    "Dart.Props.C36_merge_self",
    "Dart.Props.C36_merge_associative",
    "Dart.Props.C36_project_twice",
    "Dart.Props.C36_project_of_merge"
   ],
   "note": "Both implementations compared; laws for all obtained buffers with results below 4 GiB."
  },
  {
   "property": "C37",
   "status": "partial",
   "theorems": [
    "Dart.Props.C37_counts_exact_partial",
    "Dart.Props.C37_freed_exactly_when_unused_partial",
    "Dart.Props.C37_no_leak_partial",
    "Dart.Props.C37_negation_self_insertion_leaks"
   ],
   "note": "Exact counts, freed exactly when unused, no leak, over all programs of C16; negation proved for self-insertion."
  },
  {
   "property": "C38",
   "status": "proved",
   "theorems": [
    "Dart.Props.C38_array",
    "Dart.Props.C38_object",
    "Dart.Props.C38_array_end",
    "Dart.Props.C38_forward_back",
    "Dart.Props.C38_not_an_aggregate",
    "Dart.Props.C38_key_and_value_iterators_equal"
   ],
   "note": "All obtained buffers, forwards and backwards, keys and values. Key and value iterators at the same position compare equal, which is shown separately."
  },
  {
   "property": "C39",
   "status": "partial",
   "theorems": [
    "Dart.Props.C39_increment_partial",
    "Dart.Props.C39_compound",
    "Dart.Props.C39_integer_lost",
    "Dart.Props.C39_stuck"
   ],
   "note": "Right values below 2^52 and nearest doubles for compound assignment; integers always become decimals and get stuck at 2^53 (negations proved)."
  },
  {
   "property": "C40",
   "status": "proved",
   "theorems": [
    "Dart.Props.C40_round_trip",
    "Dart.Props.C40_integer_in",
    "Dart.Props.C40_integer_out",
    "Dart.Props.C40_wrong_type",
    "Dart.Props.C40_finalized"
   ],
   "note": "Round trip for all native values, exact characterisation of the truncating cases in both directions, type errors, agreement of finalized and dynamic. long double, float and containers are not modelled."
  },
  {
   "property": "C41",
   "status": "partial",
   "theorems": [
    "Dart.Props.C41_numbers_partial",
    "Dart.Props.C41_integers",
    "Dart.Props.C41_others",
    "Dart.Props.C41_always_answers",
    "Dart.Props.C41_finalized",
    "Dart.Props.C41_large_integer_wrong",
    "Dart.Props.C41_large_unsigned_wrong",
    "Dart.Props.C41_differs_from_conversion"
   ],
   "note": "Exact for null, booleans, strings and int64 integers; numeric comparison exact up to 2^53 and wrong beyond (negations proved)."
  },
  {
   "property": "C42",
   "status": "proved",
   "theorems": [
    "Dart.Props.C42_parse",
    "Dart.Props.C42_unique",
    "Dart.Props.C42_long_names",
    "Dart.Props.C42_scalar_root",
    "Dart.Props.C42_large_number_wrong"
   ],
   "note": "Event level (RapidJSON's tokenizer is trusted). Last duplicate wins, order irrelevant, uniqueness of the meaning, exceptions for long names and scalar roots; negation for numbers of 2^63 and more."
  },
  {
   "property": "C43",
   "status": "proved",
   "theorems": [
    "Dart.Props.C43_parse",
    "Dart.Props.C43_valid",
    "Dart.Props.C43_equal_implies_same_value",
    "Dart.Props.C43_same_text_unequal",
    "Dart.Props.C43_large_numbers_differ",
    "Dart.Props.C43_repeated_names_kept",
    "Dart.Props.C43_long_names_accepted"
   ],
   "note": "for texts below 512 MiB without repeated names, long names or numbers of 2^63 and more; what happens otherwise, and that equality of parsed buffers depends on uninitialised memory, is proved as negations"
  },
  {
   "property": "C44",
   "status": "partial",
   "theorems": [
    "Dart.Props.C44_to_packet",
    "Dart.Props.C44_round_trip_partial",
    "Dart.Props.C44_finalized_round_trip_partial",
    "Dart.Props.C44_finalized",
    "Dart.Props.C44_wrong_type",
    "Dart.Props.C44_wrong_length",
    "Dart.Props.C44_nested_optional_wrong",
    "Dart.Props.C44_variant_truncates_wrong",
    "Dart.Props.C44_variant_bool_wrong",
    "Dart.Props.C44_variant_empty_wrong",
    "Dart.Props.C44_long_key"
   ],
   "note": "Conversion to packets, finalized agreement and refusals for all types; round trip for types whose values can be told apart as packets (no nested optionals, no variant alternative that takes what a later one gives). Full round trip is false: negations proved."
  },
  {
   "property": "C45",
   "status": "partial",
   "theorems": [
    "Dart.Props.C45_compare_partial",
    "Dart.Props.C45_forward_list_partial",
    "Dart.Props.C45_multimap_partial",
    "Dart.Props.C45_own_conversion",
    "Dart.Props.C45_always_answers",
    "Dart.Props.C45_finalized",
    "Dart.Props.C45_forward_list_overrun",
    "Dart.Props.C45_multimap_ignores_keys_wrong",
    "Dart.Props.C45_map_missing_key_wrong",
    "Dart.Props.C45_multimap_of_lists_wrong",
    "Dart.Props.C45_large_integer_wrong"
   ],
   "note": "Comparison is right for all nestings of sequences, arrays, sets, maps, optionals, tuples, variants with integers up to 2^53; forward_list, multimaps and nullable map values are right under conditions and wrong otherwise (negations proved)."
  },
  {
   "property": "C46",
   "status": "partial",
   "theorems": [
    "Dart.Props.C46_scalar_partial",
    "Dart.Props.C46_resolution_partial",
    "Dart.Props.C46_parse_partial",
    "Dart.Props.C46_same_as_json_partial",
    "Dart.Props.C46_long_keys_partial",
    "Dart.Props.C46_empty_and_scalar",
    "Dart.Props.C46_alias_rejected",
    "Dart.Props.C46_packet",
    "Dart.Props.C46_complex_key_undefined",
    "Dart.Props.C46_complex_key_wrong_value",
    "Dart.Props.C46_quoted_wrong",
    "Dart.Props.C46_leading_zero_wrong",
    "Dart.Props.C46_nul_wrong"
   ],
   "note": "Documents without aliases and with scalar keys; quoted scalars only where the quotes make no difference; no NUL, no hexadecimal fractions, no 8/9 after superfluous zeros. Negations for complex keys, quoted scalars, leading zeros, NUL."
  },
  {
   "property": "C47",
   "status": "partial",
   "theorems": [
    "Dart.Props.C47_defined_partial",
    "Dart.Props.C47_no_races_partial",
    "Dart.Props.C47_counts_partial",
    "Dart.Props.C47_alive_partial",
    "Dart.Props.C47_no_leaks_partial",
    "Dart.Props.C47_clear_races",
    "Dart.Props.C47_self_push_leaks",
    "Dart.Props.C47_plain_counters",
    "Dart.Props.C47_plain_one_thread"
   ],
   "note": "proved for all programs without clear and without pushing a packet into itself; negations for clear, self insertion and plain counters; plain counters are fine for one thread"
  },
  {
   "property": "C48",
   "status": "partial",
   "theorems": [
    "Dart.Props.C48_values_partial",
    "Dart.Props.C48_isolated_partial",
    "Dart.Props.C48_value_unique",
    "Dart.Props.C48_clear_interferes"
   ],
   "note": "proved for all programs without clear and without pushing a packet into itself; negation for clear"
  },
  {
   "property": "C49",
   "status": "partial",
   "theorems": [
    "Dart.Props.C49_unique",
    "Dart.Props.C49_object_partial",
    "Dart.Props.C49_array_partial",
    "Dart.Props.C49_rest_ignored_partial",
    "Dart.Props.C49_unsigned_long_wrong"
   ],
   "note": "Partial: false for unsigned long of 2^63 and more (C49_unsigned_long_wrong)."
  },
  {
   "property": "C50",
   "status": "partial",
   "theorems": [
    "Dart.Props.C50_safe",
    "Dart.Props.C50_reads_what_it_asks",
    "Dart.Props.C50_error",
    "Dart.Props.C50_null_partial",
    "Dart.Props.C50_unknown_counter",
    "Dart.Props.C50_left_behind"
   ],
   "note": "Partial: *dst is not null after an error (C50_left_behind)."
  },
  {
   "property": "C51",
   "status": "partial",
   "theorems": [
    "Dart.Props.C51_undefined",
    "Dart.Props.C51_not_aggregate",
    "Dart.Props.C51_order_partial",
    "Dart.Props.C51_without_second_destroy"
   ],
   "note": "Negations: the macro is undefined for every aggregate and body, and for non-aggregates. Proved: the order of the elements up to the point where it becomes undefined, and the whole claim for the loop without the second destruction."
  },
  {
   "property": "C52",
   "status": "partial",
   "theorems": [
    "Dart.Props.C52_programs_partial",
    "Dart.Props.C52_failure",
    "Dart.Props.C52_to_buffer_wrong",
    "Dart.Props.C52_lost_are_counted",
    "Dart.Props.C52_lost_iterators"
   ],
   "note": "All programs that keep the rules, with the next call depending on earlier results. Left out: asking finalized numbers for a truth value (C41); lookups in finalized objects may miss keys (C02). Negation: dart_to_buffer does not copy finalized non-objects."
  },
  {
   "property": "C53",
   "status": "partial",
   "theorems": [
    "Dart.Props.C53_same_verdict",
    "Dart.Props.C53_linear_partial",
    "Dart.Props.C53_negation",
    "Dart.Props.C53_negation_expands",
    "Dart.Props.C53_bound"
   ],
   "note": "Linear for library output (C53_linear_partial), bounded for all bytes; false for untrusted bytes (C53_negation, C53_negation_expands): overlapping children make validation exponential."
  },
  {
   "property": "C54",
   "status": "partial",
   "theorems": [
    "Dart.Props.C54_typed_partial",
    "Dart.Props.C54_never_null_partial",
    "Dart.Props.C54_negation",
    "Dart.Props.C54_conversion",
    "Dart.Props.C54_failed_conversion_partial",
    "Dart.Props.C54_failed_conversion_negation",
    "Dart.Props.C54_queries_throw_type_errors"
   ],
   "note": "All programs of wrappers and packets that do not assign through the reference that finalize/definalize return (C54_typed_partial, C54_never_null_partial); with it false (C54_negation). Failed conversions: no effect for copies and for string/number/flag; for rvalues into object/array the packet is lost (negation)."
  },
  {
   "property": "C55",
   "status": "partial",
   "theorems": [
    "Dart.Props.C55_ends_iff",
    "Dart.Props.C55_defined",
    "Dart.Props.C55_program_partial",
    "Dart.Props.C55_negation_arithmetic",
    "Dart.Props.C55_negation_moved"
   ],
   "note": "False; the steps that end the program are characterised exactly (C55_ends_iff), no step is undefined, and programs without moves are only ended by arithmetic on finalized numbers (C55_program_partial)."
  },
  {
   "property": "C56",
   "status": "proved",
   "theorems": [
    "Dart.Props.C56_program",
    "Dart.Props.C56_arithmetic",
    "Dart.Props.C56_interface",
    "Dart.Props.C56_roundtrip"
   ],
   "note": "Every program matches the specification on observable states, including where it ends the program."
  },
  {
   "property": "C57",
   "status": "partial",
   "theorems": [
    "Dart.Props.C57_heap",
    "Dart.Props.C57_same_as_rapidjson",
    "Dart.Props.C57_buffer_partial",
    "Dart.Props.C57_fits",
    "Dart.Props.C57_array_taken_for_object",
    "Dart.Props.C57_array_read_out_of_bounds",
    "Dart.Props.C57_order_needed",
    "Dart.Props.C57_large_numbers_decimal",
    "Dart.Props.C57_long_names_cut"
   ],
   "note": "The dynamic packet is right for every document, and all writes stay within the memory for every document. The buffer is right for objects handed over in order, without repeated names and NUL bytes in names; missing because the code is wrong: arrays are taken for objects (reads out of bounds), names above 65535 bytes are cut, nothing sorts the members, large whole numbers become decimals."
  },
  {
   "property": "C58",
   "status": "proved",
   "theorems": [
    "Dart.Props.C58_answers",
    "Dart.Props.C58_memory",
    "Dart.Props.C58_balance",
    "Dart.Props.C58_all_destroyed",
    "Dart.Props.C58_undefined",
    "Dart.Props.C58_compare",
    "Dart.Props.C58_compare_value",
    "Dart.Props.C58_compare_null",
    "Dart.Props.C58_order"
   ],
   "note": "Refinement of the standard's optional for all programs and all throwing element operations; balance of created and destroyed objects; comparisons. The rvalue value() does not compile and is outside the model."
  },
  {
   "property": "C59",
   "status": "partial",
   "theorems": [
    "Dart.Props.C59_text",
    "Dart.Props.C59_round_trip",
    "Dart.Props.C59_round_trip_coarse",
    "Dart.Props.C59_states",
    "Dart.Props.C59_wrong_type",
    "Dart.Props.C59_compare",
    "Dart.Props.C59_parse_partial",
    "Dart.Props.C59_parse_rounds_up",
    "Dart.Props.C59_offset_ignored",
    "Dart.Props.C59_far_dates",
    "Dart.Props.C59_large_number",
    "Dart.Props.C59_nan",
    "Dart.Props.C59_fraction_lost"
   ],
   "note": "The text, round trips, comparison, independence of the packet's state and the type error are proved without restriction (C59_text, C59_round_trip, C59_round_trip_coarse, C59_compare, C59_states, C59_wrong_type). Reading other texts is partial: the fraction must be below 1 - 2^-19 because the seconds are read as a float (C59_parse_rounds_up), the instant must be within the clock's range (C59_far_dates), and offsets are ignored (C59_offset_ignored). C59_fraction_lost shows two different instants of (-1s,1s) with equal packets: 'the same second' means the same second towards 1970."
  },
  {
   "property": "C60",
   "status": "partial",
   "theorems": [
    "Dart.Props.C60_programs_partial",
    "Dart.Props.C60_walk_partial",
    "Dart.Props.C60_loop_ends_partial",
    "Dart.Props.C60_erase_loop_obj_partial",
    "Dart.Props.C60_erase_loop_arr_partial",
    "Dart.Props.C60_negation_clear",
    "Dart.Props.C60_negation_reserve",
    "Dart.Props.C60_insertion_may_invalidate",
    "Dart.Props.C60_wrong_kind"
   ],
   "note": "All programs with iterators behave as with positions in private values; walks, loop ends and erasing loops. Missing: clear/resize/reserve of shared storage invalidate other owners' iterators (negations), a variable inserted into itself (C32)."
  },
  {
   "property": "C61",
   "status": "partial",
   "theorems": [
    "Dart.Props.C61_programs_partial",
    "Dart.Props.C61_follows_partial",
    "Dart.Props.C61_copies",
    "Dart.Props.C61_looking_is_free",
    "Dart.Props.C61_as_owner_shares",
    "Dart.Props.C61_nest_partial",
    "Dart.Props.C61_type_change",
    "Dart.Props.C61_negation_clear",
    "Dart.Props.C61_negation_clear_part",
    "Dart.Props.C61_parts_may_dangle",
    "Dart.Props.C61_field_erased",
    "Dart.Props.C61_element_moved"
   ],
   "note": "Programs with views refine names for private values; clear and resize of shared storage are excluded (false there: C61_negation_clear, C61_negation_clear_part), as is a variable inserted directly into itself (C32)."
  },
  {
   "property": "C62",
   "status": "partial",
   "theorems": [
    "Dart.Props.C62_shows_the_variable",
    "Dart.Props.C62_as_owner",
    "Dart.Props.C62_parts",
    "Dart.Props.C62_programs_partial",
    "Dart.Props.C62_defined",
    "Dart.Props.C62_looking_is_free",
    "Dart.Props.C62_copy_and_move",
    "Dart.Props.C62_negation_assigned",
    "Dart.Props.C62_negation_as_owner",
    "Dart.Props.C62_negation_moved",
    "Dart.Props.C62_negation_gone"
   ],
   "note": "For programs that leave the variables alone that are looked at; false otherwise (disagreement 55): the view keeps the old pointer, as_owner pairs it with the new owner."
  },
  {
   "property": "C63",
   "status": "partial",
   "theorems": [
    "Dart.Props.C63_programs_partial",
    "Dart.Props.C63_same_as_named_partial",
    "Dart.Props.C63_path",
    "Dart.Props.C63_moved_from",
    "Dart.Props.C63_move",
    "Dart.Props.C63_negation_no_return"
   ],
   "note": "All programs with chains of calls on temporaries and moves. Missing: at_front and at_back on temporaries, which are undefined behaviour on every non-empty array (C63_negation_no_return); keys that are not plain as in C02."
  },
  {
   "property": "C64",
   "status": "partial",
   "theorems": [
    "Dart.Props.C64_programs_partial",
    "Dart.Props.C64_classes",
    "Dart.Props.C64_take_like_copy",
    "Dart.Props.C64_packet_emptied_partial",
    "Dart.Props.C64_heap_emptied_partial",
    "Dart.Props.C64_heap_kept",
    "Dart.Props.C64_new_key_wrong",
    "Dart.Props.C64_finalized_wrong",
    "Dart.Props.C64_failure_loses",
    "Dart.Props.C64_move_back",
    "Dart.Props.C64_move_self",
    "Dart.Props.C64_moved_finalized_wrong"
   ],
   "note": "Programs with moves, take calls, JSON and raw bytes are simulated by values; take equals copy on every other variable. That the source is null afterwards holds for dynamic packets and for heaps not stored under a new key; the other cases are disproved."
  },
  {
   "property": "C65",
   "status": "proved",
   "theorems": [
    "Dart.Props.C65_round_trip",
    "Dart.Props.C65_same_bytes",
    "Dart.Props.C65_bytes_decide",
    "Dart.Props.C65_text_to_received",
    "Dart.Props.C65_failed_parse_live",
    "Dart.Props.C65_failed_parse_not_live",
    "Dart.Props.C65_failed_take_frees",
    "Dart.Props.C65_bytes_once"
   ],
   "note": "Round trip, determinism and injectivity of bytes after all careful programs, text to received object, ownership of bytes, what failing calls leave behind."
  },
  {
   "property": "C66",
   "status": "partial",
   "theorems": [
    "Dart.Props.C66_always_answers",
    "Dart.Props.C66_self",
    "Dart.Props.C66_equal_iff_same_value_partial",
    "Dart.Props.C66_across_classes",
    "Dart.Props.C66_across_classes_looks",
    "Dart.Props.C66_symmetric_partial",
    "Dart.Props.C66_finalized_same_class",
    "Dart.Props.C66_dynamic_counters_unequal",
    "Dart.Props.C66_typed_calls",
    "Dart.Props.C66_not_symmetric",
    "Dart.Props.C66_counters_matter_sometimes",
    "Dart.Props.C66_finalized_classes_disagree",
    "Dart.Props.C66_typed_self_differs"
   ],
   "note": "Proved for all programs that keep the rules: an answer always, equality with itself, equality exactly for the same value and symmetry under the conditions stated; finalized objects of the same class and objects of different classes for wider ranges of values. Disproved with witnesses: symmetry and the documented role of counters without the conditions."
  },
  {
   "property": "C67",
   "status": "partial",
   "theorems": [
    "Dart.Props.C67_or",
    "Dart.Props.C67_get",
    "Dart.Props.C67_has_key",
    "Dart.Props.C67_get_or_partial",
    "Dart.Props.C67_get_or_wrong",
    "Dart.Props.C67_maybe_as",
    "Dart.Props.C67_maybe_as_truncates"
   ],
   "note": "get_or with a key of the wrong type throws on arrays instead of returning the documented default; searches in finalized objects as in C02; maybe_as: values that can be told apart (C44)"
  },
  {
   "property": "C68",
   "status": "partial",
   "theorems": [
    "Dart.Props.C68_transmogrify_partial",
    "Dart.Props.C68_part_wrong",
    "Dart.Props.C68_part_dynamic"
   ],
   "note": "Finalized packets must be objects; on parts that are not, it throws (disagreement 67)."
  },
  {
   "property": "C69",
   "status": "proved",
   "theorems": [
    "Dart.Props.C69_positions",
    "Dart.Props.C69_loop",
    "Dart.Props.C69_no_items",
    "Dart.Props.C69_states_never_meet",
    "Dart.Props.C69_change_at",
    "Dart.Props.C69_change_wrong_kind",
    "Dart.Props.C69_blank_differ"
   ],
   "note": "Programs of iterator operations within the range, on packets that do not change meanwhile; the loop; changes at every iterator a program has."
  },
  {
   "property": "C70",
   "status": "partial",
   "theorems": [
    "Dart.Props.C70_groups_partial",
    "Dart.Props.C70_deleted_once_partial",
    "Dart.Props.C70_views_own_nothing",
    "Dart.Props.C70_double_delete",
    "Dart.Props.C70_leak",
    "Dart.Props.C70_make_undefined",
    "Dart.Props.C70_own_raw",
    "Dart.Props.C70_null_owner"
   ],
   "note": "False in the cases listed in disagreements 68 and 69, which are disproved with witnesses; proved for all programs that avoid them."
  },
  {
   "property": "C71",
   "status": "proved",
   "theorems": [
    "Dart.Props.C71_dispatch",
    "Dart.Props.C71_answers",
    "Dart.Props.C71_memory",
    "Dart.Props.C71_undefined",
    "Dart.Props.C71_never_valueless",
    "Dart.Props.C71_strong",
    "Dart.Props.C71_strong_copy",
    "Dart.Props.C71_swap",
    "Dart.Props.C71_compare",
    "Dart.Props.C71_order"
   ],
   "note": "All programs, for any number of alternatives below 2^32-1. Overload resolution and hashing are not modelled; builds with exceptions."
  },
  {
   "property": "C72",
   "status": "partial",
   "theorems": [
    "Dart.Props.C72_programs_partial",
    "Dart.Props.C72_classes",
    "Dart.Props.C72_agree_partial",
    "Dart.Props.C72_mixed_counters",
    "Dart.Props.C72_bytes_kept_wrong",
    "Dart.Props.C72_rewritten_partial",
    "Dart.Props.C72_there_and_back"
   ],
   "note": "Typed calls among the generic ones: careful programs, agreement with the generic call in every reachable state, whole programs rewritten for packets, there and back. Partial: dart_buffer_from_json/from_bytes, to_json, clear/resize/reserve left out; the two families disagree on mixed counters and on who owns bytes after an unknown counter (C72_mixed_counters, C72_bytes_kept_wrong); the rewriting is for thread-safe counters without take calls."
  },
  {
   "property": "C73",
   "status": "partial",
   "theorems": [
    "Dart.Props.C73_programs_partial",
    "Dart.Props.C73_there_and_back",
    "Dart.Props.C73_wrong_counter",
    "Dart.Props.C73_not_destroyed",
    "Dart.Props.C73_types_partial",
    "Dart.Props.C73_class_unchecked_wrong"
   ],
   "note": "Wrong in the code: what dart_copy and dart_move return as a dart_packet_t may be a heap or a buffer, and swapping that to a C++ packet is undefined (C73_class_unchecked_wrong). Proved: all programs over both interfaces that keep the rules, there and back, refusal of the other counter, and that with these two calls restricted to one type the class is always the declared type."
  },
  {
   "property": "C74",
   "status": "proved",
   "theorems": [
    "Dart.Props.C74_same_search",
    "Dart.Props.C74_logarithmic",
    "Dart.Props.C74_untrusted"
   ],
   "note": "Bound on the entries compared, for finalized objects at any depth and for untrusted bytes."
  },
  {
   "property": "C75",
   "status": "partial",
   "theorems": [
    "Dart.Props.C75_parts_stand_alone",
    "Dart.Props.C75_only_objects",
    "Dart.Props.C75_duplicate",
    "Dart.Props.C75_share_partial",
    "Dart.Props.C75_share_part_wrong",
    "Dart.Props.C75_share_bytes",
    "Dart.Props.C75_dynamic"
   ],
   "note": "Everything proved except share_bytes of parts, which is wrong: it exports the whole (C75_share_part_wrong, for all parts)."
  },
  {
   "property": "C76",
   "status": "partial",
   "theorems": [
    "Dart.Props.C76_all_or_nothing_partial",
    "Dart.Props.C76_defined_partial",
    "Dart.Props.C76_counts_exact_partial",
    "Dart.Props.C76_no_leak_partial",
    "Dart.Props.C76_no_fault",
    "Dart.Props.C76_make_undefined",
    "Dart.Props.C76_short_strings",
    "Dart.Props.C76_set_in_place",
    "Dart.Props.C76_insert_grows",
    "Dart.Props.C76_resize_grows",
    "Dart.Props.C76_copy_lost",
    "Dart.Props.C76_erase_misreports"
   ],
   "note": "All or nothing for all programs of C16 with allocations failing anywhere but in the named cases; negations: undefined make_object, lost copy with own counters, erase(iterator) misreports."
  },
  {
   "property": "C77",
   "status": "partial",
   "theorems": [
    "Dart.Props.C77_overflow_or_verdict",
    "Dart.Props.C77_sixteen_bytes_a_call",
    "Dart.Props.C77_levels_suffice_partial",
    "Dart.Props.C77_levels_needed",
    "Dart.Props.C77_no_limit"
   ],
   "note": "Exactly as many nested calls as levels of nesting for library-made bytes, at least as many for all accepted bytes, at most length/16+1 for any bytes; no fixed limit exists (C77_no_limit)."
  },
  {
   "property": "C78",
   "status": "partial",
   "theorems": [
    "Dart.Props.C78_programs",
    "Dart.Props.C78_stream_partial",
    "Dart.Props.C78_stream_beyond",
    "Dart.Props.C78_stream_cut",
    "Dart.Props.C78_stream_undefined",
    "Dart.Props.C78_compare_ends"
   ],
   "note": "Programs over views proved in full; printing a view is not what the property says (equivalence proved, negations proved)."
  },
  {
   "property": "C79",
   "status": "partial",
   "theorems": [
    "Dart.Props.C79_all_or_nothing_partial",
    "Dart.Props.C79_freed_once_partial",
    "Dart.Props.C79_enough_memory",
    "Dart.Props.C79_finalize",
    "Dart.Props.C79_take_frees_twice",
    "Dart.Props.C79_take_loses",
    "Dart.Props.C79_build_leaks"
   ],
   "note": "Programs over buffers and unique_ptrs with failing allocations: all or nothing, each block freed once. Partial because the code is wrong where the control block of the counter cannot be allocated: double free, lost bytes and leak are proved."
  },
  {
   "property": "C80",
   "status": "partial",
   "theorems": [
    "Dart.Props.C80_reads_are_defined",
    "Dart.Props.C80_exported_is_accepted",
    "Dart.Props.C80_make_object_is_defined",
    "Dart.Props.C80_fields_exist",
    "Dart.Props.C80_project_exactly",
    "Dart.Props.C80_inject_nothing_exactly",
    "Dart.Props.C80_project_inject_separate_partial",
    "Dart.Props.C80_project_result_partial",
    "Dart.Props.C80_merge_result_partial",
    "Dart.Props.C80_chains_partial",
    "Dart.Props.C80_after_one_step_partial",
    "Dart.Props.C80_negation_unpadded",
    "Dart.Props.C80_negation_nulls",
    "Dart.Props.C80_negation_overlap",
    "Dart.Props.C80_negation_repeated",
    "Dart.Props.C80_negation_long_form_key"
   ],
   "note": "Reads, comparisons, export and make_object proved for all accepted bytes; project and inject characterised exactly for ordered keys, and their results shown to have exactly the right fields and to be accepted again when sizes are multiples of eight and no field is null, also after any number of projections and merges. Partial because the code is wrong: accepted bytes with overlapping fields, repeated keys, keys in long form, other sizes or nulls stored apart make project, inject and make_object go wrong, proved with witnesses."
  },
  {
   "property": "C81",
   "status": "partial",
   "theorems": [
    "Dart.Props.C81_answers",
    "Dart.Props.C81_surroundings",
    "Dart.Props.C81_aligned_partial",
    "Dart.Props.C81_negation_accepted",
    "Dart.Props.C81_negation_refused",
    "Dart.Props.C81_negation_span",
    "Dart.Props.C81_odd_addresses"
   ],
   "note": "Answers at any address from the bytes alone, depends on the address modulo eight only, right for multiples of eight. Partial because the code is wrong: at every other address bytes are accepted that are read beyond their end once they lie aligned, good bytes are refused, and the constructor from a span reads wrong values; proved with witnesses for all addresses modulo eight."
  },
  {
   "property": "C82",
   "status": "proved",
   "theorems": [
    "Dart.Props.C82_returns_iff_accepted",
    "Dart.Props.C82_throws_iff_refused",
    "Dart.Props.C82_truncated",
    "Dart.Props.C82_cut_off",
    "Dart.Props.C82_table_beyond",
    "Dart.Props.C82_array_message_wrong"
   ],
   "note": "For all byte strings; messages of the header checks exactly, others by example. The wrong noun in one message is recorded (C82_array_message_wrong)."
  },
  {
   "property": "C83",
   "status": "partial",
   "theorems": [
    "Dart.Props.C83_message",
    "Dart.Props.C83_memory_partial",
    "Dart.Props.C83_negation_ends",
    "Dart.Props.C83_negation_ends_exception",
    "Dart.Props.C83_prepared",
    "Dart.Props.C83_pointer",
    "Dart.Props.C83_pointer_next",
    "Dart.Props.C83_pointer_gone"
   ],
   "note": "Codes, messages, threads and pointers for all histories. Partial because the code is wrong when memory runs out: reporting may end the program (C83_negation_ends); otherwise as stated but for client errors called unexpected (C83_memory_partial), and never after a longer message (C83_prepared)."
  },
  {
   "property": "C84",
   "status": "partial",
   "theorems": [
    "Dart.Props.C84_text_partial",
    "Dart.Props.C84_one_document",
    "Dart.Props.C84_nothing_else",
    "Dart.Props.C84_round_trip",
    "Dart.Props.C84_finalized",
    "Dart.Props.C84_whole",
    "Dart.Props.C84_c",
    "Dart.Props.C84_c_throws",
    "Dart.Props.C84_c_no_memory",
    "Dart.Props.C84_wrappers_partial",
    "Dart.Props.C84_wrappers_drop_flags",
    "Dart.Props.C84_nan_breaks_object",
    "Dart.Props.C84_nan_vanishes"
   ],
   "note": "proved: the text derives in the grammar, of a document that means the value (finite numbers, or with write_nan), same text for finalized values, grammar unambiguous so no reader finds anything else, round trip into a buffer, no NUL, the C call. Negations: NaN in an object gives no JSON, [NaN] gives [], wrappers drop the flags, malloc unchecked. Missing: values with NaN or infinities without the flag, where it is false; how finite doubles are printed is assumed."
  },
  {
   "property": "C85",
   "status": "proved",
   "theorems": [
    "Dart.Props.C85_reads",
    "Dart.Props.C85_short_keys",
    "Dart.Props.C85_other_lengths",
    "Dart.Props.C85_long_keys"
   ],
   "note": "the result of a lookup depends on the table and the names MayMatch allows only; what these are for short keys; long keys read more names than documented (C85_long_keys)"
  },
  {
   "property": "C86",
   "status": "proved",
   "theorems": [
    "Dart.Props.C86_shared",
    "Dart.Props.C86_sole",
    "Dart.Props.C86_reading",
    "Dart.Props.C86_making",
    "Dart.Props.C86_clear_resize",
    "Dart.Props.C86_programs",
    "Dart.Props.C86_owned_after",
    "Dart.Props.C86_failing_calls_copy"
   ],
   "note": "over the storage model of Cow; clear and resize do not copy at all (C16)"
  },
  {
   "property": "C87",
   "status": "partial",
   "theorems": [
    "Dart.Props.C87_always_answers_partial",
    "Dart.Props.C87_string_keys",
    "Dart.Props.C87_map_comparison_ends_program",
    "Dart.Props.C87_multimap_comparison_ends_program",
    "Dart.Props.C87_no_conversion_to_packets",
    "Dart.Props.C87_no_multimap_conversion_to_packets",
    "Dart.Props.C87_no_conversion_from_packets",
    "Dart.Props.C87_bool_keys_lose_fields"
   ],
   "note": "Proved for all modelled types without forward_list, in both states of packets; false for maps and multimaps with keys that are not strings, where it is proved exactly when the program ends."
  },
  {
   "property": "C88",
   "status": "partial",
   "theorems": [
    "Dart.Props.C88_equals",
    "Dart.Props.C88_makes",
    "Dart.Props.C88_accepts_partial",
    "Dart.Props.C88_equal_implies_accepts",
    "Dart.Props.C88_answers",
    "Dart.Props.C88_converts_but_differs",
    "Dart.Props.C88_accepts_another_number",
    "Dart.Props.C88_unsigned_wraps"
   ],
   "note": "Comparison characterised in full; conversion characterised for constants up to 2^53 in magnitude. The equivalence of the two is false for decimals (shown by witnesses)."
  },
  {
   "property": "C89",
   "status": "partial",
   "theorems": [
    "Dart.Props.C89_exact",
    "Dart.Props.C89_rounds",
    "Dart.Props.C89_round_trip",
    "Dart.Props.C89_four_bytes",
    "Dart.Props.C89_equals_partial",
    "Dart.Props.C89_equal_decimal_converts",
    "Dart.Props.C89_equal_integer_does_not_convert",
    "Dart.Props.C89_large_integer_wrong"
   ],
   "note": "Conversion in both directions proved in full; comparison for integers up to 2^53 in magnitude, above which it is wrong (shown by a witness)."
  },
  {
   "property": "C90",
   "status": "partial",
   "theorems": [
    "Dart.Props.C90_overflow_or_same",
    "Dart.Props.C90_levels_suffice_partial",
    "Dart.Props.C90_levels_needed",
    "Dart.Props.C90_finalized",
    "Dart.Props.C90_no_limit"
   ],
   "note": "Sufficiency, necessity and that a small stack changes nothing else are proved for all values; a limit that does not depend on the value does not exist (C90_no_limit)."
  },
  {
   "property": "C91",
   "status": "partial",
   "theorems": [
    "Dart.Props.C91_no_data_races_partial",
    "Dart.Props.C91_atomic_counters_partial",
    "Dart.Props.C91_elements_accessed",
    "Dart.Props.C91_counters_used",
    "Dart.Props.C91_changes_are_writes",
    "Dart.Props.C91_counter_changes",
    "Dart.Props.C91_channel_changes",
    "Dart.Props.C91_shared_ptr_races",
    "Dart.Props.C91_shared_ptr_partial",
    "Dart.Props.C91_reading",
    "Dart.Props.C91_reading_orders",
    "Dart.Props.C91_orders_needed",
    "Dart.Props.C91_clear_races"
   ],
   "note": "Proved for all programs without clear and self-insertion and for all memory orders with acquiring check and acquire-release decrements (skinny_ptr). False for std::shared_ptr, the default (C91_shared_ptr_races; the only race there: C91_shared_ptr_partial), and for clear (C91_clear_races); C91_orders_needed shows that exactly these orders are needed. Threads that only read, as with finalized packets, never race (C91_reading, C91_reading_orders). The description of the steps from which this follows is proved complete (C91_elements_accessed, C91_counters_used, C91_changes_are_writes, C91_counter_changes, C91_channel_changes)."
  },
  {
   "property": "C92",
   "status": "partial",
   "theorems": [
    "Dart.Props.C92_small_succeeds",
    "Dart.Props.C92_size",
    "Dart.Props.C92_large_refused",
    "Dart.Props.C92_unused",
    "Dart.Props.C92_projected",
    "Dart.Props.C92_projection_keeps_size",
    "Dart.Props.C92_merged_partial",
    "Dart.Props.C92_merged_size",
    "Dart.Props.C92_negation_merge_no_limit",
    "Dart.Props.C92_parsed_size",
    "Dart.Props.C92_negation_parse_no_limit"
   ],
   "note": "Proved for finalizing and projecting (strings below 4 GiB, as C04), and for merging objects of less than 4 GiB together. That merging and parsing refuse larger results is false: the recorded size is cut to 32 bits (C92_merged_size, C92_negation_merge_no_limit; C92_parsed_size, C92_negation_parse_no_limit). C92_parsed_size needs every member to be below 4 GiB by itself. The bounds per value are upper and lower bounds; C92_size gives the exact size by the rules of the format."
  }
 ]
}
