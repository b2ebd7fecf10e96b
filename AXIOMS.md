# Axioms per theorem

Output of `#print axioms` for every theorem named in MANIFEST.json (written by gen_axioms.py).

| theorem | axioms |
|---|---|
| `C01_comparator_is_documented_order` | propext, Classical.choice, Quot.sound |
| `C01_irreflexive` | propext |
| `C01_transitive` | propext, Quot.sound |
| `C01_trichotomy` | propext, Quot.sound |
| `C02_hit_sound` | propext, Classical.choice, Quot.sound |
| `C02_absent_not_found` | propext, Classical.choice, Quot.sound |
| `C02_present_found_partial` | propext, Classical.choice, Quot.sound |
| `C02_present_found_unsigned_partial` | propext, Classical.choice, Quot.sound |
| `C02_negation_signed_char` | propext, Quot.sound |
| `C02_negation_length_255` | propext, Quot.sound |
| `C02_negation_embedded_nul` | propext, Quot.sound |
| `C03_finalize_definalize` | propext, Classical.choice, Quot.sound |
| `C03_roundtrip_total` | propext, Classical.choice, Quot.sound |
| `C03_refinalize` | propext, Classical.choice, Quot.sound |
| `C04_never_out_of_bounds` | propext, Classical.choice, Quot.sound |
| `C04_recorded_size_exact` | propext, Classical.choice, Quot.sound |
| `C04_negation_huge_string` | propext, Quot.sound |
| `C05_alignment` | propext, Classical.choice, Quot.sound |
| `C05_inside` | propext, Classical.choice, Quot.sound |
| `C05_size_multiple_of_8` | propext, Classical.choice, Quot.sound |
| `C06_bytes_equal_iff_values_equal` | propext, Classical.choice, Quot.sound |
| `C06_different_values_differ` | propext, Classical.choice, Quot.sound |
| `C07_always_answers` | propext, Quot.sound |
| `C07_depth_bounded` | propext, Quot.sound |
| `C07_stays_within_claimed_bytes` | propext, Quot.sound |
| `C08_no_undefined_behaviour` | propext, Classical.choice, Quot.sound |
| `C08_well_typed_calls_succeed` | propext, Classical.choice, Quot.sound |
| `C08_exceptions` | propext, Classical.choice, Quot.sound |
| `C08_conversion_succeeds` | propext, Classical.choice, Quot.sound |
| `C08_aligned` | propext, Classical.choice, Quot.sound |
| `C08_negation_bool_representation` | propext |
| `C08_negation_key_order` | propext |
| `C09_accepts_finalized_partial` | propext, Classical.choice, Quot.sound |
| `C09_accepts_iff` | propext, Classical.choice, Quot.sound |
| `C09_accepts_get_bytes_partial` | propext, Classical.choice, Quot.sound |
| `C09_negation_null_field` | propext, Classical.choice, Quot.sound |
| `C09_negation_null_element` | propext, Classical.choice, Quot.sound |
| `C10_only_claimed_bytes` | propext, Quot.sound |
| `C10_trailing_bytes` | propext, Classical.choice, Quot.sound |
| `C10_truncated_rejected` | propext, Classical.choice, Quot.sound |
| `C10_recorded_size_decides` | propext, Classical.choice, Quot.sound |
| `C11_merge_is_union` | propext, Classical.choice, Quot.sound |
| `C11_union_exists` | propext, Classical.choice, Quot.sound |
| `C11_inject_is_union` | propext, Classical.choice, Quot.sound |
| `C11_chains` | propext, Classical.choice, Quot.sound |
| `C12_negation_overflow` | propext |
| `C12_negation_inject` | propext |
| `C12_safe_iff` | propext, Classical.choice, Quot.sound |
| `C12_incoming_contiguous_partial` | propext, Classical.choice, Quot.sound |
| `C12_single_pair_partial` | propext, Classical.choice, Quot.sound |
| `C12_base_contiguous_partial` | propext, Classical.choice, Quot.sound |
| `C12_small_values_partial` | propext, Classical.choice, Quot.sound |
| `C13_project_is_restriction` | propext, Classical.choice, Quot.sound |
| `C13_restriction_exists` | propext, Classical.choice, Quot.sound |
| `C13_request_is_a_set` | propext, Classical.choice, Quot.sound |
| `C14_negation_overflow` | propext |
| `C14_safe_iff` | propext, Classical.choice, Quot.sound |
| `C14_short_requests_partial` | propext, Classical.choice, Quot.sound |
| `C14_negation_every_object` | propext, Classical.choice, Quot.sound |
| `C15_histories` | propext, Classical.choice, Quot.sound |
| `C15_invariant` | propext, Classical.choice, Quot.sound |
| `C15_builds_well_formed_values` | propext, Classical.choice, Quot.sound |
| `C15_object_determined_by_map` | propext, Classical.choice, Quot.sound |
| `C15_insertion_order_irrelevant` | propext, Classical.choice, Quot.sound |
| `C15_negation_odd_argument_list` | propext |
| `C16_copies_are_independent_partial` | propext, Classical.choice, Quot.sound |
| `C16_mutation_not_visible_elsewhere_partial` | propext, Classical.choice, Quot.sound |
| `C16_copy_shares` | propext, Quot.sound |
| `C16_negation_clear` | propext |
| `C16_negation_resize` | propext |
| `C17_defined_partial` | propext, Classical.choice, Quot.sound |
| `C17_variables` | propext, Classical.choice, Quot.sound |
| `C17_copy_to_variable` | propext |
| `C17_use_count_partial` | propext, Classical.choice, Quot.sound |
| `C17_destroyed_iff_unowned_partial` | propext, Classical.choice, Quot.sound |
| `C17_destroyed_once_partial` | propext, Classical.choice, Quot.sound |
| `C17_effect_partial` | propext, Classical.choice, Quot.sound |
| `C17_survives_partial` | propext, Classical.choice, Quot.sound |
| `C17_no_leak_partial` | propext, Classical.choice, Quot.sound |
| `C17_move_from_own_member` | propext |
| `C17_reset_own_member` | propext |
| `C17_converting_move_keeps_source` | propext, Quot.sound |
| `C18_history_partial` | propext, Classical.choice, Quot.sound |
| `C18_reached_has_value` | propext, Classical.choice, Quot.sound |
| `C18_finalize_keeps_value` | propext, Classical.choice, Quot.sound |
| `C18_definalize_keeps_value` | propext, Classical.choice, Quot.sound |
| `C18_mutators_throw_when_finalized` | propext, Classical.choice, Quot.sound |
| `C18_mutators_work_when_dynamic` | propext, Classical.choice, Quot.sound |
| `C18_bytes_exactly_when_finalized` | propext, Classical.choice, Quot.sound |
| `C18_reads_agree_partial` | propext, Classical.choice, Quot.sound |
| `C18_reads_agree_false` | propext, Classical.choice, Quot.sound |
| `C18_boolean_of_numbers` | propext, Classical.choice, Quot.sound |
| `C19_round_trip` | propext, Classical.choice, Quot.sound |
| `C19_finalized` | propext, Classical.choice, Quot.sound |
| `C19_scalar_root` | propext, Classical.choice, Quot.sound |
| `C20_fits` | propext, Classical.choice, Quot.sound |
| `C20_other_root` | propext |
| `C21_equal_iff_same_partial` | propext, Classical.choice, Quot.sound |
| `C21_equal_iff_alike` | propext, Classical.choice, Quot.sound |
| `C21_sharing_irrelevant` | propext, Classical.choice, Quot.sound |
| `C21_symmetric` | propext, Classical.choice, Quot.sound |
| `C21_transitive` | propext, Classical.choice, Quot.sound |
| `C21_transitive_shared` | propext, Classical.choice, Quot.sound |
| `C21_reflexive_iff` | propext, Classical.choice, Quot.sound |
| `C21_not_equal` | propext |
| `C21_stored_strings` | propext, Classical.choice, Quot.sound |
| `C21_not_structural` | propext |
| `C21_nan_depends_on_sharing` | propext |
| `C22_equal_iff_same_value` | propext, Classical.choice, Quot.sound |
| `C22_equal_iff_same_value_parts` | propext, Classical.choice, Quot.sound |
| `C22_equal_implies_same_value` | propext, Classical.choice, Quot.sound |
| `C22_equal_iff_same_source` | propext, Classical.choice, Quot.sound |
| `C23_always_answers` | propext, Classical.choice, Quot.sound |
| `C23_equal_iff_same_value_partial` | propext, Classical.choice, Quot.sound |
| `C23_agrees_with_finalizing_partial` | propext, Classical.choice, Quot.sound |
| `C23_equal_implies_alike` | propext, Classical.choice, Quot.sound |
| `C23_alike_implies_equal` | propext, Classical.choice, Quot.sound |
| `C23_equal_iff_alike_or_null` | propext, Classical.choice, Quot.sound |
| `C23_missing_key_counts_as_null` | propext |
| `C23_plain_keys_needed` | propext |
| `C23_numbers_disagree` | propext |
| `C23_not_transitive` | propext |
| `C24_every_string_is_a_path` | propext, Quot.sound |
| `C24_dynamic` | propext, Classical.choice, Quot.sound |
| `C24_finalized_follows_get` | propext, Quot.sound |
| `C24_finalized_partial` | propext, Classical.choice, Quot.sound |
| `C24_representations_agree_partial` | propext, Classical.choice, Quot.sound |
| `C24_trailing_separator` | propext, Classical.choice, Quot.sound |
| `C25_dynamic_object` | propext, Classical.choice, Quot.sound |
| `C25_dynamic_iteration` | propext, Classical.choice, Quot.sound |
| `C25_dynamic_array` | propext, Quot.sound |
| `C25_dynamic_wrong_type` | propext, Quot.sound |
| `C25_finalized_object` | propext, Classical.choice, Quot.sound |
| `C25_finalized_iteration` | propext, Classical.choice, Quot.sound |
| `C25_finalized_array` | propext, Classical.choice, Quot.sound |
| `C26_integer_round_trip` | propext, Classical.choice, Quot.sound |
| `C26_decimal_round_trip` | propext, Classical.choice, Quot.sound |
| `C26_integer_smallest_width` | propext, Classical.choice, Quot.sound |
| `C26_decimal_width` | propext, Classical.choice, Quot.sound |
| `C27_compare` | propext, Classical.choice, Quot.sound |
| `C27_operators` | propext, Classical.choice, Quot.sound |
| `C27_at` | propext |
| `C27_substr` | propext |
| `C27_compare_parts` | propext, Classical.choice, Quot.sound |
| `C27_starts_ends_with` | propext, Classical.choice, Quot.sound |
| `C27_find_partial` | propext, Classical.choice, Quot.sound |
| `C27_find_default` | propext, Classical.choice, Quot.sound |
| `C27_find_at_npos_false` | propext, Quot.sound |
| `C27_find_first_of` | propext, Classical.choice, Quot.sound |
| `C27_find_last_of_from_end` | propext, Classical.choice, Quot.sound |
| `C27_find_last_of_partial` | propext, Classical.choice, Quot.sound |
| `C27_find_last_of_position_false` | propext, Quot.sound |
| `C27_rfind_partial` | propext, Classical.choice, Quot.sound |
| `C27_rfind_default_false` | propext, Quot.sound |
| `C27_rfind_missing_false` | propext, Classical.choice, Quot.sound |
| `C27_rfind_char_default_false` | propext |
| `C27_find_first_not_of_partial` | propext, Classical.choice, Quot.sound |
| `C27_find_first_not_of_false` | propext, Classical.choice, Quot.sound |
| `C27_find_last_not_of_false` | propext, Classical.choice, Quot.sound |
| `C28_stored_little_endian` | propext, Classical.choice, Quot.sound |
| `C28_round_trip` | propext, Classical.choice, Quot.sound |
| `C28_portable` | propext, Classical.choice, Quot.sound |
| `C28_add` | propext, Classical.choice, Quot.sound |
| `C28_sub_partial` | propext, Classical.choice, Quot.sound |
| `C28_negation_sub_narrow_unsigned` | none |
| `C29_accepts_exactly` | propext, Classical.choice, Quot.sound |
| `C29_rejects_other_arguments` | propext, Classical.choice, Quot.sound |
| `C29_same_bytes_partial` | propext, Classical.choice, Quot.sound |
| `C29_order_irrelevant` | propext, Classical.choice, Quot.sound |
| `C29_negation_no_size_limit` | propext, Classical.choice, Quot.sound |
| `C29_negation_large_argument` | propext, Classical.choice, Quot.sound |
| `C30_string_reads_back` | propext, Classical.choice, Quot.sound |
| `C30_in_place_up_to_23` | propext, Classical.choice, Quot.sound |
| `C31_present_key_partial` | propext, Classical.choice, Quot.sound |
| `C31_absent_key_position` | propext, Classical.choice, Quot.sound |
| `C31_absent_key_not_end` | propext, Classical.choice, Quot.sound |
| `C31_absent_key_other_field` | propext, Classical.choice, Quot.sound |
| `C31_absent_key_outside` | propext, Classical.choice, Quot.sound |
| `C31_not_an_object` | propext, Classical.choice, Quot.sound |
| `C31_dynamic` | propext, Classical.choice, Quot.sound |
| `C31_dynamic_not_an_object` | propext |
| `C32_inserting_keeps_argument_partial` | propext, Classical.choice, Quot.sound |
| `C32_inserts_the_value_partial` | propext, Classical.choice, Quot.sound |
| `C32_negation_argument_emptied` | propext, Classical.choice, Quot.sound |
| `C32_negation_self_insertion` | propext |
| `C33_not_a_number` | propext |
| `C33_ieee` | propext, Classical.choice, Quot.sound |
| `C33_integer_operand` | propext, Classical.choice, Quot.sound |
| `C33_number_first` | propext, Classical.choice, Quot.sound |
| `C33_native_first_partial` | propext, Classical.choice, Quot.sound |
| `C33_native_first_exchanged` | propext, Classical.choice, Quot.sound |
| `C33_native_minus_number_wrong` | propext, Classical.choice, Quot.sound |
| `C33_whole_numbers` | propext, Classical.choice, Quot.sound |
| `C33_native_over_number_wrong` | propext, Classical.choice, Quot.sound |
| `C34_alignment_formula` | propext, Classical.choice, Quot.sound |
| `C34_model_agrees` | propext, Classical.choice, Quot.sound |
| `C35_owner_keeps_its_value` | propext, Classical.choice, Quot.sound |
| `C35_owning_constructors` | propext, Quot.sound |
| `C35_bad_pointers` | propext, Quot.sound |
| `C35_parts` | propext, Quot.sound |
| `C35_copies` | propext, Quot.sound |
| `C35_independent_partial` | propext, Classical.choice, Quot.sound |
| `C35_duplicates` | propext, Quot.sound |
| `C35_span_shows_callers_memory_wrong` | propext, Quot.sound |
| `C35_span_dangles_wrong` | propext, Quot.sound |
| `C36_inject_commutes_with_finalize` | propext, Classical.choice, Quot.sound |
| `C36_project_commutes_with_finalize` | propext, Classical.choice, Quot.sound |
| `C36_merge_idempotent` | propext, Classical.choice, Quot.sound |
| `C36_merge_self` | propext, Classical.choice, Quot.sound |
| `C36_merge_associative` | propext, Classical.choice, Quot.sound |
| `C36_project_twice` | propext, Classical.choice, Quot.sound |
| `C36_project_of_merge` | propext, Classical.choice, Quot.sound |
| `C37_counts_exact_partial` | propext, Classical.choice, Quot.sound |
| `C37_freed_exactly_when_unused_partial` | propext, Classical.choice, Quot.sound |
| `C37_no_leak_partial` | propext, Classical.choice, Quot.sound |
| `C37_negation_self_insertion_leaks` | propext |
| `C38_array` | propext, Classical.choice, Quot.sound |
| `C38_object` | propext, Classical.choice, Quot.sound |
| `C38_array_end` | propext, Classical.choice, Quot.sound |
| `C38_forward_back` | propext, Quot.sound |
| `C38_not_an_aggregate` | propext, Classical.choice, Quot.sound |
| `C38_key_and_value_iterators_equal` | propext, Classical.choice, Quot.sound |
| `C39_increment_partial` | propext, Classical.choice, Quot.sound |
| `C39_compound` | propext, Classical.choice, Quot.sound |
| `C39_integer_lost` | propext |
| `C39_stuck` | propext |
| `C40_round_trip` | propext, Quot.sound |
| `C40_integer_in` | propext, Classical.choice, Quot.sound |
| `C40_integer_out` | propext, Classical.choice, Quot.sound |
| `C40_wrong_type` | propext, Quot.sound |
| `C40_finalized` | propext, Classical.choice, Quot.sound |
| `C41_numbers_partial` | propext, Classical.choice, Quot.sound |
| `C41_integers` | propext, Quot.sound |
| `C41_others` | propext |
| `C41_always_answers` | propext |
| `C41_finalized` | propext, Classical.choice, Quot.sound |
| `C41_large_integer_wrong` | propext, Classical.choice, Quot.sound |
| `C41_large_unsigned_wrong` | propext |
| `C41_differs_from_conversion` | propext |
| `C42_parse` | propext, Classical.choice, Quot.sound |
| `C42_unique` | propext, Classical.choice, Quot.sound |
| `C42_long_names` | propext, Classical.choice, Quot.sound |
| `C42_scalar_root` | propext, Classical.choice, Quot.sound |
| `C42_large_number_wrong` | propext, Classical.choice, Quot.sound |
| `C43_parse` | propext, Classical.choice, Quot.sound |
| `C43_valid` | propext, Classical.choice, Quot.sound |
| `C43_equal_implies_same_value` | propext, Classical.choice, Quot.sound |
| `C43_same_text_unequal` | propext |
| `C43_large_numbers_differ` | propext |
| `C43_repeated_names_kept` | propext |
| `C43_long_names_accepted` | propext, Classical.choice, Quot.sound |
| `C44_to_packet` | propext, Classical.choice, Quot.sound |
| `C44_round_trip_partial` | propext, Classical.choice, Quot.sound |
| `C44_finalized_round_trip_partial` | propext, Classical.choice, Quot.sound |
| `C44_finalized` | propext, Classical.choice, Quot.sound |
| `C44_wrong_type` | propext, Classical.choice, Quot.sound |
| `C44_wrong_length` | propext, Quot.sound |
| `C44_nested_optional_wrong` | propext, Quot.sound |
| `C44_variant_truncates_wrong` | propext, Quot.sound |
| `C44_variant_bool_wrong` | propext, Quot.sound |
| `C44_variant_empty_wrong` | propext, Quot.sound |
| `C44_long_key` | propext |
| `C45_compare_partial` | propext, Classical.choice, Quot.sound |
| `C45_forward_list_partial` | propext, Classical.choice, Quot.sound |
| `C45_multimap_partial` | propext, Classical.choice, Quot.sound |
| `C45_own_conversion` | propext, Classical.choice, Quot.sound |
| `C45_always_answers` | propext, Classical.choice, Quot.sound |
| `C45_finalized` | propext, Classical.choice, Quot.sound |
| `C45_forward_list_overrun` | propext, Quot.sound |
| `C45_multimap_ignores_keys_wrong` | propext, Quot.sound |
| `C45_map_missing_key_wrong` | propext, Quot.sound |
| `C45_multimap_of_lists_wrong` | propext, Quot.sound |
| `C45_large_integer_wrong` | propext, Quot.sound |
| `C46_scalar_partial` | propext, Classical.choice, Quot.sound |
| `C46_resolution_partial` | propext, Classical.choice, Quot.sound |
| `C46_parse_partial` | propext, Classical.choice, Quot.sound |
| `C46_same_as_json_partial` | propext, Classical.choice, Quot.sound |
| `C46_long_keys_partial` | propext, Classical.choice, Quot.sound |
| `C46_empty_and_scalar` | propext |
| `C46_alias_rejected` | propext, Quot.sound |
| `C46_packet` | propext, Classical.choice, Quot.sound |
| `C46_complex_key_undefined` | propext, Classical.choice, Quot.sound |
| `C46_complex_key_wrong_value` | propext |
| `C46_quoted_wrong` | propext |
| `C46_leading_zero_wrong` | propext |
| `C46_nul_wrong` | propext |
| `C47_defined_partial` | propext, Classical.choice, Quot.sound |
| `C47_no_races_partial` | propext, Classical.choice, Quot.sound |
| `C47_counts_partial` | propext, Classical.choice, Quot.sound |
| `C47_alive_partial` | propext, Classical.choice, Quot.sound |
| `C47_no_leaks_partial` | propext, Classical.choice, Quot.sound |
| `C47_clear_races` | propext |
| `C47_self_push_leaks` | propext, Quot.sound |
| `C47_plain_counters` | propext, Quot.sound |
| `C47_plain_one_thread` | propext, Classical.choice, Quot.sound |
| `C48_values_partial` | propext, Classical.choice, Quot.sound |
| `C48_isolated_partial` | propext, Classical.choice, Quot.sound |
| `C48_value_unique` | propext |
| `C48_clear_interferes` | propext |
| `C49_unique` | propext, Classical.choice, Quot.sound |
| `C49_object_partial` | propext, Classical.choice, Quot.sound |
| `C49_array_partial` | propext, Classical.choice, Quot.sound |
| `C49_rest_ignored_partial` | propext, Classical.choice, Quot.sound |
| `C49_unsigned_long_wrong` | propext, Classical.choice, Quot.sound |
| `C50_safe` | propext, Classical.choice, Quot.sound |
| `C50_reads_what_it_asks` | propext, Classical.choice, Quot.sound |
| `C50_error` | propext, Classical.choice, Quot.sound |
| `C50_null_partial` | propext, Classical.choice, Quot.sound |
| `C50_unknown_counter` | propext, Quot.sound |
| `C50_left_behind` | propext, Classical.choice, Quot.sound |
| `C51_undefined` | propext, Quot.sound |
| `C51_not_aggregate` | propext, Quot.sound |
| `C51_order_partial` | propext, Quot.sound |
| `C51_without_second_destroy` | propext, Quot.sound |
| `C52_programs_partial` | propext, Classical.choice, Quot.sound |
| `C52_failure` | propext |
| `C52_to_buffer_wrong` | propext, Quot.sound |
| `C52_lost_are_counted` | propext, Quot.sound |
| `C52_lost_iterators` | propext, Quot.sound |
| `C53_same_verdict` | propext, Quot.sound |
| `C53_linear_partial` | propext, Classical.choice, Quot.sound |
| `C53_negation` | propext, Classical.choice, Quot.sound |
| `C53_negation_expands` | propext, Classical.choice, Quot.sound |
| `C53_bound` | propext, Quot.sound |
| `C54_typed_partial` | propext, Quot.sound |
| `C54_never_null_partial` | propext, Quot.sound |
| `C54_negation` | propext, Quot.sound |
| `C54_conversion` | propext, Quot.sound |
| `C54_failed_conversion_partial` | propext, Quot.sound |
| `C54_failed_conversion_negation` | propext, Quot.sound |
| `C54_queries_throw_type_errors` | propext |
| `C55_ends_iff` | propext, Classical.choice, Quot.sound |
| `C55_defined` | propext, Classical.choice, Quot.sound |
| `C55_program_partial` | propext, Classical.choice, Quot.sound |
| `C55_negation_arithmetic` | propext, Quot.sound |
| `C55_negation_moved` | propext, Quot.sound |
| `C56_program` | propext, Classical.choice, Quot.sound |
| `C56_arithmetic` | propext, Classical.choice, Quot.sound |
| `C56_interface` | propext, Classical.choice, Quot.sound |
| `C56_roundtrip` | propext, Quot.sound |
| `C57_heap` | propext, Classical.choice, Quot.sound |
| `C57_same_as_rapidjson` | propext, Classical.choice, Quot.sound |
| `C57_buffer_partial` | propext, Classical.choice, Quot.sound |
| `C57_fits` | propext, Classical.choice, Quot.sound |
| `C57_array_taken_for_object` | propext, Classical.choice, Quot.sound |
| `C57_array_read_out_of_bounds` | propext |
| `C57_order_needed` | propext |
| `C57_large_numbers_decimal` | propext, Classical.choice, Quot.sound |
| `C57_long_names_cut` | propext, Classical.choice, Quot.sound |
| `C58_answers` | propext, Quot.sound |
| `C58_memory` | propext, Quot.sound |
| `C58_balance` | propext, Quot.sound |
| `C58_all_destroyed` | propext, Classical.choice, Quot.sound |
| `C58_undefined` | propext, Quot.sound |
| `C58_compare` | propext |
| `C58_compare_value` | propext |
| `C58_compare_null` | propext |
| `C58_order` | propext |
| `C59_text` | propext, Classical.choice, Quot.sound |
| `C59_round_trip` | propext, Classical.choice, Quot.sound |
| `C59_round_trip_coarse` | propext, Classical.choice, Quot.sound |
| `C59_states` | propext, Classical.choice, Quot.sound |
| `C59_wrong_type` | propext, Quot.sound |
| `C59_compare` | propext, Classical.choice, Quot.sound |
| `C59_parse_partial` | propext, Classical.choice, Quot.sound |
| `C59_parse_rounds_up` | propext, Classical.choice, Quot.sound |
| `C59_offset_ignored` | propext, Classical.choice, Quot.sound |
| `C59_far_dates` | propext, Classical.choice, Quot.sound |
| `C59_large_number` | propext, Classical.choice, Quot.sound |
| `C59_nan` | propext, Classical.choice, Quot.sound |
| `C59_fraction_lost` | propext, Classical.choice, Quot.sound |
| `C60_programs_partial` | propext, Classical.choice, Quot.sound |
| `C60_walk_partial` | propext, Classical.choice, Quot.sound |
| `C60_loop_ends_partial` | propext, Classical.choice, Quot.sound |
| `C60_erase_loop_obj_partial` | propext, Classical.choice, Quot.sound |
| `C60_erase_loop_arr_partial` | propext, Classical.choice, Quot.sound |
| `C60_negation_clear` | propext, Quot.sound |
| `C60_negation_reserve` | propext, Quot.sound |
| `C60_insertion_may_invalidate` | propext |
| `C60_wrong_kind` | propext, Quot.sound |
| `C61_programs_partial` | propext, Classical.choice, Quot.sound |
| `C61_follows_partial` | propext, Classical.choice, Quot.sound |
| `C61_copies` | propext, Classical.choice, Quot.sound |
| `C61_looking_is_free` | propext |
| `C61_as_owner_shares` | propext, Quot.sound |
| `C61_nest_partial` | propext, Classical.choice, Quot.sound |
| `C61_type_change` | propext, Quot.sound |
| `C61_negation_clear` | propext, Quot.sound |
| `C61_negation_clear_part` | propext, Quot.sound |
| `C61_parts_may_dangle` | propext |
| `C61_field_erased` | propext |
| `C61_element_moved` | propext |
| `C62_shows_the_variable` | propext, Classical.choice, Quot.sound |
| `C62_as_owner` | propext, Classical.choice, Quot.sound |
| `C62_parts` | propext, Quot.sound |
| `C62_programs_partial` | propext, Classical.choice, Quot.sound |
| `C62_defined` | propext, Classical.choice, Quot.sound |
| `C62_looking_is_free` | propext, Quot.sound |
| `C62_copy_and_move` | propext, Quot.sound |
| `C62_negation_assigned` | propext, Classical.choice, Quot.sound |
| `C62_negation_as_owner` | propext, Classical.choice, Quot.sound |
| `C62_negation_moved` | propext, Classical.choice, Quot.sound |
| `C62_negation_gone` | propext, Classical.choice, Quot.sound |
| `C63_programs_partial` | propext, Classical.choice, Quot.sound |
| `C63_same_as_named_partial` | propext, Quot.sound |
| `C63_path` | propext, Classical.choice, Quot.sound |
| `C63_moved_from` | propext, Classical.choice, Quot.sound |
| `C63_move` | propext, Quot.sound |
| `C63_negation_no_return` | propext, Classical.choice, Quot.sound |
| `C64_programs_partial` | propext, Classical.choice, Quot.sound |
| `C64_classes` | propext, Classical.choice, Quot.sound |
| `C64_take_like_copy` | propext, Quot.sound |
| `C64_packet_emptied_partial` | propext, Quot.sound |
| `C64_heap_emptied_partial` | propext, Classical.choice, Quot.sound |
| `C64_heap_kept` | propext, Quot.sound |
| `C64_new_key_wrong` | propext, Classical.choice, Quot.sound |
| `C64_finalized_wrong` | propext, Quot.sound |
| `C64_failure_loses` | propext, Quot.sound |
| `C64_move_back` | propext, Quot.sound |
| `C64_move_self` | propext, Quot.sound |
| `C64_moved_finalized_wrong` | propext, Quot.sound |
| `C65_round_trip` | propext, Classical.choice, Quot.sound |
| `C65_same_bytes` | propext, Classical.choice, Quot.sound |
| `C65_bytes_decide` | propext, Classical.choice, Quot.sound |
| `C65_text_to_received` | propext, Classical.choice, Quot.sound |
| `C65_failed_parse_live` | propext, Quot.sound |
| `C65_failed_parse_not_live` | propext, Quot.sound |
| `C65_failed_take_frees` | propext, Quot.sound |
| `C65_bytes_once` | propext, Quot.sound |
| `C66_always_answers` | propext, Classical.choice, Quot.sound |
| `C66_self` | propext, Quot.sound |
| `C66_equal_iff_same_value_partial` | propext, Classical.choice, Quot.sound |
| `C66_across_classes` | propext, Classical.choice, Quot.sound |
| `C66_across_classes_looks` | propext, Classical.choice, Quot.sound |
| `C66_symmetric_partial` | propext, Classical.choice, Quot.sound |
| `C66_finalized_same_class` | propext, Classical.choice, Quot.sound |
| `C66_dynamic_counters_unequal` | propext, Quot.sound |
| `C66_typed_calls` | propext, Quot.sound |
| `C66_not_symmetric` | propext, Quot.sound |
| `C66_counters_matter_sometimes` | propext, Quot.sound |
| `C66_finalized_classes_disagree` | propext, Quot.sound |
| `C66_typed_self_differs` | propext, Quot.sound |
| `C67_or` | propext, Classical.choice, Quot.sound |
| `C67_get` | propext, Classical.choice, Quot.sound |
| `C67_has_key` | propext, Classical.choice, Quot.sound |
| `C67_get_or_partial` | propext, Classical.choice, Quot.sound |
| `C67_get_or_wrong` | propext, Classical.choice, Quot.sound |
| `C67_maybe_as` | propext, Classical.choice, Quot.sound |
| `C67_maybe_as_truncates` | propext, Quot.sound |
| `C68_transmogrify_partial` | propext, Classical.choice, Quot.sound |
| `C68_part_wrong` | propext, Classical.choice, Quot.sound |
| `C68_part_dynamic` | propext, Classical.choice, Quot.sound |
| `C69_positions` | propext, Classical.choice, Quot.sound |
| `C69_loop` | propext, Classical.choice, Quot.sound |
| `C69_no_items` | propext, Classical.choice, Quot.sound |
| `C69_states_never_meet` | propext, Quot.sound |
| `C69_change_at` | propext, Classical.choice, Quot.sound |
| `C69_change_wrong_kind` | propext |
| `C69_blank_differ` | propext |
| `C70_groups_partial` | propext, Classical.choice, Quot.sound |
| `C70_deleted_once_partial` | propext, Classical.choice, Quot.sound |
| `C70_views_own_nothing` | propext |
| `C70_double_delete` | propext |
| `C70_leak` | propext, Quot.sound |
| `C70_make_undefined` | propext |
| `C70_own_raw` | propext |
| `C70_null_owner` | propext |
| `C71_dispatch` | propext, Classical.choice, Quot.sound |
| `C71_answers` | propext, Classical.choice, Quot.sound |
| `C71_memory` | propext, Classical.choice, Quot.sound |
| `C71_undefined` | propext, Classical.choice, Quot.sound |
| `C71_never_valueless` | propext, Classical.choice, Quot.sound |
| `C71_strong` | propext, Classical.choice, Quot.sound |
| `C71_strong_copy` | propext, Classical.choice, Quot.sound |
| `C71_swap` | propext, Classical.choice, Quot.sound |
| `C71_compare` | propext, Classical.choice, Quot.sound |
| `C71_order` | propext, Classical.choice, Quot.sound |
| `C72_programs_partial` | propext, Classical.choice, Quot.sound |
| `C72_classes` | propext, Classical.choice, Quot.sound |
| `C72_agree_partial` | propext, Classical.choice, Quot.sound |
| `C72_mixed_counters` | propext, Quot.sound |
| `C72_bytes_kept_wrong` | propext, Quot.sound |
| `C72_rewritten_partial` | propext, Classical.choice, Quot.sound |
| `C72_there_and_back` | propext, Classical.choice, Quot.sound |
| `C73_programs_partial` | propext, Classical.choice, Quot.sound |
| `C73_there_and_back` | propext, Quot.sound |
| `C73_wrong_counter` | propext, Quot.sound |
| `C73_not_destroyed` | propext, Quot.sound |
| `C73_types_partial` | propext, Quot.sound |
| `C73_class_unchecked_wrong` | propext, Quot.sound |
| `C74_same_search` | propext, Quot.sound |
| `C74_logarithmic` | propext, Classical.choice, Quot.sound |
| `C74_untrusted` | propext, Classical.choice, Quot.sound |
| `C75_parts_stand_alone` | propext, Classical.choice, Quot.sound |
| `C75_only_objects` | propext, Classical.choice, Quot.sound |
| `C75_duplicate` | propext, Classical.choice, Quot.sound |
| `C75_share_partial` | propext, Classical.choice, Quot.sound |
| `C75_share_part_wrong` | propext, Classical.choice, Quot.sound |
| `C75_share_bytes` | propext, Classical.choice, Quot.sound |
| `C75_dynamic` | none |
| `C76_all_or_nothing_partial` | propext, Classical.choice, Quot.sound |
| `C76_defined_partial` | propext, Classical.choice, Quot.sound |
| `C76_counts_exact_partial` | propext, Classical.choice, Quot.sound |
| `C76_no_leak_partial` | propext, Classical.choice, Quot.sound |
| `C76_no_fault` | propext, Quot.sound |
| `C76_make_undefined` | propext |
| `C76_short_strings` | propext, Quot.sound |
| `C76_set_in_place` | propext, Quot.sound |
| `C76_insert_grows` | propext, Quot.sound |
| `C76_resize_grows` | propext, Quot.sound |
| `C76_copy_lost` | propext |
| `C76_erase_misreports` | propext |
| `C77_overflow_or_verdict` | propext, Classical.choice, Quot.sound |
| `C77_sixteen_bytes_a_call` | propext, Quot.sound |
| `C77_levels_suffice_partial` | propext, Classical.choice, Quot.sound |
| `C77_levels_needed` | propext, Classical.choice, Quot.sound |
| `C77_no_limit` | propext, Classical.choice, Quot.sound |
| `C78_programs` | propext, Classical.choice, Quot.sound |
| `C78_stream_partial` | propext, Quot.sound |
| `C78_stream_beyond` | propext, Classical.choice, Quot.sound |
| `C78_stream_cut` | propext, Classical.choice, Quot.sound |
| `C78_stream_undefined` | propext, Quot.sound |
| `C78_compare_ends` | propext |
| `C79_all_or_nothing_partial` | propext, Classical.choice, Quot.sound |
| `C79_freed_once_partial` | propext, Classical.choice, Quot.sound |
| `C79_enough_memory` | propext, Classical.choice, Quot.sound |
| `C79_finalize` | propext, Classical.choice, Quot.sound |
| `C79_take_frees_twice` | propext, Classical.choice, Quot.sound |
| `C79_take_loses` | propext, Classical.choice, Quot.sound |
| `C79_build_leaks` | propext, Quot.sound |
| `C80_reads_are_defined` | propext, Classical.choice, Quot.sound |
| `C80_exported_is_accepted` | propext, Classical.choice, Quot.sound |
| `C80_make_object_is_defined` | propext, Classical.choice, Quot.sound |
| `C80_fields_exist` | propext, Classical.choice, Quot.sound |
| `C80_project_exactly` | propext, Classical.choice, Quot.sound |
| `C80_inject_nothing_exactly` | propext, Classical.choice, Quot.sound |
| `C80_project_inject_separate_partial` | propext, Classical.choice, Quot.sound |
| `C80_project_result_partial` | propext, Classical.choice, Quot.sound |
| `C80_merge_result_partial` | propext, Classical.choice, Quot.sound |
| `C80_chains_partial` | propext, Classical.choice, Quot.sound |
| `C80_after_one_step_partial` | propext, Classical.choice, Quot.sound |
| `C80_negation_unpadded` | propext |
| `C80_negation_nulls` | propext |
| `C80_negation_overlap` | propext |
| `C80_negation_repeated` | propext |
| `C80_negation_long_form_key` | propext |
| `C81_answers` | propext, Quot.sound |
| `C81_surroundings` | propext, Quot.sound |
| `C81_aligned_partial` | propext, Quot.sound |
| `C81_negation_accepted` | propext, Quot.sound |
| `C81_negation_refused` | propext, Quot.sound |
| `C81_negation_span` | propext |
| `C81_odd_addresses` | propext, Quot.sound |
| `C82_returns_iff_accepted` | propext, Quot.sound |
| `C82_throws_iff_refused` | propext, Quot.sound |
| `C82_truncated` | propext, Quot.sound |
| `C82_cut_off` | propext, Quot.sound |
| `C82_table_beyond` | propext, Quot.sound |
| `C82_array_message_wrong` | propext |
| `C83_message` | propext, Quot.sound |
| `C83_memory_partial` | propext, Quot.sound |
| `C83_negation_ends` | propext, Quot.sound |
| `C83_negation_ends_exception` | propext |
| `C83_prepared` | propext, Quot.sound |
| `C83_pointer` | propext, Quot.sound |
| `C83_pointer_next` | propext, Quot.sound |
| `C83_pointer_gone` | propext, Quot.sound |
| `C84_text_partial` | propext, Classical.choice, Quot.sound |
| `C84_one_document` | propext, Classical.choice, Quot.sound |
| `C84_nothing_else` | propext, Classical.choice, Quot.sound |
| `C84_round_trip` | propext, Classical.choice, Quot.sound |
| `C84_finalized` | propext, Classical.choice, Quot.sound |
| `C84_whole` | propext, Classical.choice, Quot.sound |
| `C84_c` | propext, Classical.choice, Quot.sound |
| `C84_c_throws` | none |
| `C84_c_no_memory` | none |
| `C84_wrappers_partial` | propext, Classical.choice, Quot.sound |
| `C84_wrappers_drop_flags` | propext, Classical.choice, Quot.sound |
| `C84_nan_breaks_object` | propext, Classical.choice, Quot.sound |
| `C84_nan_vanishes` | propext, Classical.choice, Quot.sound |
| `C85_reads` | propext, Classical.choice, Quot.sound |
| `C85_short_keys` | propext, Quot.sound |
| `C85_other_lengths` | propext, Quot.sound |
| `C85_long_keys` | propext |
| `C86_shared` | propext, Quot.sound |
| `C86_sole` | propext, Quot.sound |
| `C86_reading` | propext, Quot.sound |
| `C86_making` | propext, Quot.sound |
| `C86_clear_resize` | propext, Quot.sound |
| `C86_programs` | propext, Classical.choice, Quot.sound |
| `C86_owned_after` | propext, Classical.choice, Quot.sound |
| `C86_failing_calls_copy` | propext, Quot.sound |
| `C87_always_answers_partial` | propext, Classical.choice, Quot.sound |
| `C87_string_keys` | propext, Quot.sound |
| `C87_map_comparison_ends_program` | propext, Classical.choice, Quot.sound |
| `C87_multimap_comparison_ends_program` | propext, Classical.choice, Quot.sound |
| `C87_no_conversion_to_packets` | propext, Classical.choice, Quot.sound |
| `C87_no_multimap_conversion_to_packets` | propext, Classical.choice, Quot.sound |
| `C87_no_conversion_from_packets` | propext, Classical.choice, Quot.sound |
| `C87_bool_keys_lose_fields` | propext, Classical.choice, Quot.sound |
| `C88_equals` | propext, Classical.choice, Quot.sound |
| `C88_makes` | propext, Quot.sound |
| `C88_accepts_partial` | propext, Classical.choice, Quot.sound |
| `C88_equal_implies_accepts` | propext, Classical.choice, Quot.sound |
| `C88_answers` | propext, Classical.choice, Quot.sound |
| `C88_converts_but_differs` | propext |
| `C88_accepts_another_number` | propext, Classical.choice, Quot.sound |
| `C88_unsigned_wraps` | propext |
| `C89_exact` | propext, Classical.choice, Quot.sound |
| `C89_rounds` | propext, Classical.choice, Quot.sound |
| `C89_round_trip` | propext, Classical.choice, Quot.sound |
| `C89_four_bytes` | propext, Classical.choice, Quot.sound |
| `C89_equals_partial` | propext, Classical.choice, Quot.sound |
| `C89_equal_decimal_converts` | propext, Classical.choice, Quot.sound |
| `C89_equal_integer_does_not_convert` | propext |
| `C89_large_integer_wrong` | propext, Classical.choice, Quot.sound |
| `C90_overflow_or_same` | propext, Classical.choice, Quot.sound |
| `C90_levels_suffice_partial` | propext, Classical.choice, Quot.sound |
| `C90_levels_needed` | propext, Quot.sound |
| `C90_finalized` | propext, Classical.choice, Quot.sound |
| `C90_no_limit` | propext, Classical.choice, Quot.sound |
| `C91_no_data_races_partial` | propext, Classical.choice, Quot.sound |
| `C91_atomic_counters_partial` | propext, Classical.choice, Quot.sound |
| `C91_elements_accessed` | propext, Classical.choice, Quot.sound |
| `C91_counters_used` | propext, Classical.choice, Quot.sound |
| `C91_changes_are_writes` | propext, Quot.sound |
| `C91_counter_changes` | propext, Quot.sound |
| `C91_channel_changes` | propext, Quot.sound |
| `C91_shared_ptr_races` | propext, Classical.choice, Quot.sound |
| `C91_shared_ptr_partial` | propext, Classical.choice, Quot.sound |
| `C91_reading` | propext, Classical.choice, Quot.sound |
| `C91_reading_orders` | propext, Classical.choice, Quot.sound |
| `C91_orders_needed` | propext, Classical.choice, Quot.sound |
| `C91_clear_races` | propext, Classical.choice, Quot.sound |
| `C92_small_succeeds` | propext, Classical.choice, Quot.sound |
| `C92_size` | propext, Classical.choice, Quot.sound |
| `C92_large_refused` | propext, Classical.choice, Quot.sound |
| `C92_unused` | propext, Classical.choice, Quot.sound |
| `C92_projected` | propext, Classical.choice, Quot.sound |
| `C92_projection_keeps_size` | propext, Classical.choice, Quot.sound |
| `C92_merged_partial` | propext, Classical.choice, Quot.sound |
| `C92_merged_size` | propext, Classical.choice, Quot.sound |
| `C92_negation_merge_no_limit` | propext, Classical.choice, Quot.sound |
| `C92_parsed_size` | propext, Classical.choice, Quot.sound |
| `C92_negation_parse_no_limit` | propext, Classical.choice, Quot.sound |
