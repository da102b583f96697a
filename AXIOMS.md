# Axioms of every theorem of the manifest

Made by `tools/gen_axioms.py` from `#print axioms`.  These three are axioms of Lean itself; none is declared here.

| property | theorem | axioms |
|---|---|---|
| C01 | `Yasl.C01_assignments_partial` | Classical.choice, Quot.sound, propext |
| C01 | `Yasl.C01_nan_key_lost` | Quot.sound, propext |
| C01 | `Yasl.C01_neg_zero_key` | Quot.sound, propext |
| C02 | `Yasl.C02_lookup_correct` | Classical.choice, Quot.sound, propext |
| C02 | `Yasl.C02_get_correct` | Classical.choice, Quot.sound, propext |
| C03 | `Yasl.C03_terminates_partial` | Classical.choice, Quot.sound, propext |
| C03 | `Yasl.C03_search_terminates_partial` | Classical.choice, Quot.sound, propext |
| C03 | `Yasl.C03_hangs` | Quot.sound, propext |
| C03 | `Yasl.C03_lookup_hangs` | Quot.sound, propext |
| C04 | `Yasl.C04_len_partial` | Classical.choice, Quot.sound, propext |
| C04 | `Yasl.C04_remove_absent_wraps` | Quot.sound, propext |
| C05 | `Yasl.C05_enumeration` | Classical.choice, Quot.sound, propext |
| C06 | `Yasl.C06_probe_in_bounds` | propext |
| C06 | `Yasl.C06_probe_injective` | Classical.choice, Quot.sound, propext |
| C06 | `Yasl.C06_probe_covers` | Classical.choice, Quot.sound, propext |
| C06 | `Yasl.C06_composite_size_misses` | Quot.sound, propext |
| C07 | `Yasl.C07_resize_keeps_entries` | Classical.choice, Quot.sound, propext |
| C08 | `Yasl.C08_unhashable` | Quot.sound, propext |
| C09 | `Yasl.C09_undef_key_lost` | Quot.sound, propext |
| C09 | `Yasl.C09_undef_key_breaks_others` | Quot.sound, propext |
| C09 | `Yasl.C09_undef_absent_partial` | Classical.choice, Quot.sound, propext |
| C10 | `Yasl.C10_clear_partial` | Classical.choice, Quot.sound, propext |
| C10 | `Yasl.C10_clear_hangs` | Quot.sound, propext |
| C11 | `Yasl.C11_union` | Classical.choice, Quot.sound, propext |
| C11 | `Yasl.C11_copy` | Classical.choice, Quot.sound, propext |
| C11 | `Yasl.C11_union_copy_terminate` | Classical.choice, Quot.sound, propext |
| C12 | `Yasl.C12_table_eq_partial` | Classical.choice, Quot.sound, propext |
| C12 | `Yasl.C12_wrong_after_absent_removal` | Quot.sound, propext |
| C13 | `Yasl.C13_membership` | Classical.choice, Quot.sound, propext |
| C13 | `Yasl.C13_length_partial` | Classical.choice, Quot.sound, propext |
| C13 | `Yasl.C13_remove_absent_wraps` | Quot.sound, propext |
| C13 | `Yasl.C13_undef_lost` | Quot.sound, propext |
| C14 | `Yasl.C14_algebra` | Classical.choice, Quot.sound, propext |
| C15 | `Yasl.C15_comparisons_partial` | Classical.choice, Quot.sound, propext |
| C15 | `Yasl.C15_wrong_after_absent_removal` | Quot.sound, propext |
| C16 | `Yasl.C16_equal_values_two_elements` | Quot.sound, propext |
| C16 | `Yasl.C16_same_type_partial` | Classical.choice, Quot.sound, propext |
| C17 | `Yasl.C17_is_prime_correct` | Classical.choice, Quot.sound, propext |
| C17 | `Yasl.C17_next_prime_correct` | Classical.choice, Quot.sound, propext |
| C18 | `Yasl.C18_vint_roundtrip` | Quot.sound, propext |
| C18 | `Yasl.C18_vint_next` | Classical.choice, Quot.sound, propext |
| C18 | `Yasl.C18_vint_length` | Classical.choice, Quot.sound, propext |
| C18 | `Yasl.C18_vint_prefix_free` | Classical.choice, Quot.sound, propext |
| C19 | `Yasl.C19_bytebuffer_log_partial` | Classical.choice, Quot.sound, propext |
| C19 | `Yasl.C19_header_log` | Classical.choice, Quot.sound, propext |
| C19 | `Yasl.C19_zero_size_overflow` | Quot.sound, propext |
| C19 | `Yasl.C19_int_roundtrip` | Classical.choice, Quot.sound, propext |
| C20 | `Yasl.C20_line_lookup` | Classical.choice, Quot.sound, propext |
| C20 | `Yasl.C20_reported_line` | Classical.choice, Quot.sound, propext |
| C21 | `Yasl.C21_eq_symm` | Classical.choice, Quot.sound, propext |
| C21 | `Yasl.C21_eq_refl` | Classical.choice, Quot.sound, propext |
| C21 | `Yasl.C21_nan_unequal` | Quot.sound, propext |
| C21 | `Yasl.C21_eq_trans` | Classical.choice, Quot.sound, propext |
| C21 | `Yasl.C21_eq_cross_type` | Quot.sound, propext |
| C22 | `Yasl.C22_mixed_not_transitive` | Quot.sound, propext |
| C22 | `Yasl.C22_mixed_transitive_partial` | Classical.choice, Quot.sound, propext |
| C23 | `Yasl.C23_cmp_zero` | Classical.choice, Quot.sound, propext |
| C23 | `Yasl.C23_cmp_lex` | Classical.choice, Quot.sound, propext |
| C23 | `Yasl.C23_cmp_antisymm` | Classical.choice, Quot.sound, propext |
| C23 | `Yasl.C23_le_trans` | Classical.choice, Quot.sound, propext |
| C23 | `Yasl.C23_le_total` | Classical.choice, Quot.sound, propext |
| C23 | `Yasl.C23_operators` | Classical.choice, Quot.sound, propext |
| C24 | `Yasl.C24_int_order` | Quot.sound, propext |
| C24 | `Yasl.C24_float_order` | Quot.sound, propext |
| C24 | `Yasl.C24_mixed_order` | Classical.choice, Quot.sound, propext |
| C24 | `Yasl.C24_coherent` | Quot.sound, propext |
| C24 | `Yasl.C24_trichotomy` | Classical.choice, Quot.sound, propext |
| C24 | `Yasl.C24_nan_false` | Quot.sound, propext |
| C25 | `Yasl.C25_falsey_iff` | Classical.choice, Quot.sound, propext |
| C25 | `Yasl.C25_not` | Classical.choice, Quot.sound, propext |
| C25 | `Yasl.C25_int_truthy` | propext |
| C26 | `Yasl.C26_add_sub_mul` | Quot.sound, propext |
| C26 | `Yasl.C26_overflow_ub` | Quot.sound, propext |
| C26 | `Yasl.C26_div_mod` | Classical.choice, Quot.sound, propext |
| C26 | `Yasl.C26_div_zero` | Quot.sound, propext |
| C26 | `Yasl.C26_min_div_neg_one` | Quot.sound, propext |
| C26 | `Yasl.C26_bitwise` | Classical.choice, Quot.sound, propext |
| C26 | `Yasl.C26_shifts` | Classical.choice, Quot.sound, propext |
| C26 | `Yasl.C26_shift_ub` | Classical.choice, Quot.sound, propext |
| C27 | `Yasl.C27_fold_partial` | Classical.choice, Quot.sound, propext |
| C27 | `Yasl.C27_fold_defined_partial` | Classical.choice, Quot.sound, propext |
| C27 | `Yasl.C27_identity_folded_wrong` | Quot.sound, propext |
| C27 | `Yasl.C27_not_nan_folded_wrong` | Classical.choice, Quot.sound, propext |
| C27 | `Yasl.C27_dead_overflow` | Classical.choice, Quot.sound, propext |
| C28 | `Yasl.C28_expression` | Classical.choice, Quot.sound, propext |
| C29 | `Yasl.C29_program` | Classical.choice, Quot.sound, propext |
| C29 | `Yasl.C29_machine_stops` | Classical.choice, Quot.sound, propext |
| C30 | `Yasl.C30_stack_restored_partial` | Classical.choice, Quot.sound, propext |
| C30 | `Yasl.C30_break_leaves_variables` | Quot.sound, propext |
| C30 | `Yasl.C30_continue_leaves_variables` | Quot.sound, propext |
| C31 | `Yasl.C31_literals_partial` | Classical.choice, Quot.sound, propext |
| C31 | `Yasl.C31_negative_zero` | Quot.sound, propext |
| C31 | `Yasl.C31_negative_zero_alone` | Quot.sound, propext |
| C32 | `Yasl.C32_slots_partial` | Classical.choice, Quot.sound, propext |
| C32 | `Yasl.C32_declared` | Classical.choice, Quot.sound, propext |
| C32 | `Yasl.C32_high_local` | Classical.choice, Quot.sound, propext |
| C32 | `Yasl.C32_accepted` | Classical.choice, Quot.sound, propext |
| C32 | `Yasl.C32_program` | Quot.sound, propext |
| C33 | `Yasl.C33_innermost` | Classical.choice, Quot.sound, propext |
| C33 | `Yasl.C33_upvalue_stays` | Classical.choice, Quot.sound, propext |
| C33 | `Yasl.C33_distinct` | Classical.choice, Quot.sound, propext |
| C33 | `Yasl.C33_leaving_restores` | Classical.choice, Quot.sound, propext |
| C34 | `Yasl.C34_constants` | Classical.choice, Quot.sound, propext |
| C35 | `Yasl.C35_live_partial` | Quot.sound, propext |
| C35 | `Yasl.C35_in_order_partial` | Classical.choice, Quot.sound, propext |
| C35 | `Yasl.C35_file_variable` | Quot.sound, propext |
| C35 | `Yasl.C35_not_shared` | Quot.sound, propext |
| C35 | `Yasl.C35_block` | propext |
| C35 | `Yasl.C35_early_return` | Quot.sound, propext |
| C36 | `Yasl.C36_get` | Classical.choice, Quot.sound, propext |
| C36 | `Yasl.C36_pos_lt` | Quot.sound, propext |
| C36 | `Yasl.C36_set` | Classical.choice, Quot.sound, propext |
| C37 | `Yasl.C37_op_correct` | Classical.choice, Quot.sound, propext |
| C37 | `Yasl.C37_history` | Classical.choice, Quot.sound, propext |
| C37 | `Yasl.C37_pop_value` | Classical.choice, Quot.sound, propext |
| C38 | `Yasl.C38_reverse` | Classical.choice, Quot.sound, propext |
| C38 | `Yasl.C38_reverse_reverse` | Classical.choice, Quot.sound, propext |
| C38 | `Yasl.C38_copy` | Classical.choice, Quot.sound, propext |
| C38 | `Yasl.C38_concat` | Classical.choice, Quot.sound, propext |
| C38 | `Yasl.C38_spread` | Quot.sound, propext |
| C38 | `Yasl.C38_eq` | Classical.choice, Quot.sound, propext |
| C39 | `Yasl.C39_slice` | Classical.choice, Quot.sound, propext |
| C39 | `Yasl.C39_bad_bound` | Quot.sound, propext |
| C40 | `Yasl.C40_no_out_of_bounds` | Classical.choice, Quot.sound, propext |
| C40 | `Yasl.C40_permutation` | Quot.sound, propext |
| C40 | `Yasl.C40_mixed_rejected` | Quot.sound, propext |
| C40 | `Yasl.C40_sorted_strings` | Classical.choice, Quot.sound, propext |
| C40 | `Yasl.C40_sorted_numbers_partial` | Classical.choice, Quot.sound, propext |
| C40 | `Yasl.C40_sorted_as_doubles` | Classical.choice, Quot.sound, propext |
| C40 | `Yasl.C40_nan_unsorted` | Quot.sound, propext |
| C40 | `Yasl.C40_big_int_unsorted` | Quot.sound, propext |
| C41 | `Yasl.C41_diverges` | Classical.choice, Quot.sound, propext |
| C41 | `Yasl.C41_fair_terminates_partial` | Classical.choice, Quot.sound, propext |
| C42 | `Yasl.C42_search` | Quot.sound, propext |
| C42 | `Yasl.C42_count` | Quot.sound, propext |
| C43 | `Yasl.C43_join` | Classical.choice, Quot.sound, propext |
| C44 | `Yasl.C44_index` | Classical.choice, Quot.sound, propext |
| C44 | `Yasl.C44_slice_partial` | Classical.choice, Quot.sound, propext |
| C44 | `Yasl.C44_slice_crossed` | Quot.sound, propext |
| C44 | `Yasl.C44_slice_offset` | propext |
| C44 | `Yasl.C44_bad_bound` | Quot.sound, propext |
| C45 | `Yasl.C45_search` | Classical.choice, Quot.sound, propext |
| C46 | `Yasl.C46_replace` | Classical.choice, Quot.sound, propext |
| C46 | `Yasl.C46_cut_exists_unique` | Classical.choice, Quot.sound, propext |
| C46 | `Yasl.C46_replace_empty` | Quot.sound, propext |
| C46 | `Yasl.C46_replace_limit_partial` | Classical.choice, Quot.sound, propext |
| C46 | `Yasl.C46_limit_counts_bytes` | Quot.sound, propext |
| C46 | `Yasl.C46_limit_overflow` | Classical.choice, Quot.sound, propext |
| C47 | `Yasl.C47_count_partial` | Classical.choice, Quot.sound, propext |
| C47 | `Yasl.C47_count_empty` | Classical.choice, Quot.sound, propext |
| C48 | `Yasl.C48_split_actual` | Classical.choice, Quot.sound, propext |
| C48 | `Yasl.C48_split_partial` | Classical.choice, Quot.sound, propext |
| C48 | `Yasl.C48_split_loses_bytes` | Quot.sound, propext |
| C48 | `Yasl.C48_split_empty` | Quot.sound, propext |
| C48 | `Yasl.C48_split_default` | Classical.choice, Quot.sound, propext |
| C48 | `Yasl.C48_words_exists_unique` | Classical.choice, Quot.sound, propext |
| C49 | `Yasl.C49_ltrim_default` | Classical.choice, Quot.sound, propext |
| C49 | `Yasl.C49_rtrim_default` | Classical.choice, Quot.sound, propext |
| C49 | `Yasl.C49_trim_default_partial` | Classical.choice, Quot.sound, propext |
| C49 | `Yasl.C49_trim_blank` | Classical.choice, Quot.sound, propext |
| C49 | `Yasl.C49_ltrim` | Classical.choice, Quot.sound, propext |
| C49 | `Yasl.C49_rtrim` | Classical.choice, Quot.sound, propext |
| C49 | `Yasl.C49_trim_partial` | Classical.choice, Quot.sound, propext |
| C49 | `Yasl.C49_trim_overlap` | none |
| C49 | `Yasl.C49_trim_empty` | Classical.choice, Quot.sound, propext |
| C50 | `Yasl.C50_startswith` | Quot.sound, propext |
| C50 | `Yasl.C50_endswith` | Quot.sound, propext |
| C50 | `Yasl.C50_toupper` | Quot.sound, propext |
| C50 | `Yasl.C50_tolower` | Quot.sound, propext |
| C50 | `Yasl.C50_case_idempotent` | Quot.sound, propext |
| C50 | `Yasl.C50_rep_partial` | Classical.choice, Quot.sound, propext |
| C50 | `Yasl.C50_rep_empty` | Quot.sound, propext |
| C50 | `Yasl.C50_rep_wraps` | propext |
| C51 | `Yasl.C51_storage_partial` | Classical.choice, Quot.sound, propext |
| C51 | `Yasl.C51_iter_offset` | propext |
| C52 | `Yasl.C52_int_roundtrip` | Classical.choice, Quot.sound, propext |
| C52 | `Yasl.C52_int_text` | Quot.sound, propext |
| C53 | `Yasl.C53_skip` | Classical.choice, Quot.sound, propext |
| C53 | `Yasl.C53_match_partial` | Classical.choice, Quot.sound, propext |
| C53 | `Yasl.C53_no_keys_partial` | Classical.choice, Quot.sound, propext |
| C53 | `Yasl.C53_missing_key` | Quot.sound, propext |
| C54 | `Yasl.C54_match_partial` | Classical.choice, Quot.sound, propext |
| C54 | `Yasl.C54_accepted_partial` | Classical.choice, Quot.sound, propext |
| C54 | `Yasl.C54_missing_key` | Quot.sound, propext |
| C54 | `Yasl.C54_stale_binding` | Quot.sound, propext |
| C54 | `Yasl.C54_type_key` | Quot.sound, propext |
| C55 | `Yasl.C55_lifo` | Classical.choice, Quot.sound, propext |
| C55 | `Yasl.C55_overflow` | Quot.sound, propext |
| C55 | `Yasl.C55_history` | Classical.choice, Quot.sound, propext |
| C55 | `Yasl.C55_middle` | Classical.choice, Quot.sound, propext |
| C56 | `Yasl.C56_not_popped` | Quot.sound, propext |
| C56 | `Yasl.C56_popped_partial` | Quot.sound, propext |
| C57 | `Yasl.C57_history_partial` | Classical.choice, Quot.sound, propext |
| C57 | `Yasl.C57_call_partial` | Classical.choice, Quot.sound, propext |
| C57 | `Yasl.C57_variadic_short` | Quot.sound, propext |
| C58 | `Yasl.C58_reports_difference` | Classical.choice, Quot.sound, propext |
| C58 | `Yasl.C58_compiled_not_run` | Classical.choice, Quot.sound, propext |
| C58 | `Yasl.C58_wrong_count` | Classical.choice, Quot.sound, propext |
| C59 | `Yasl.C59_globals_partial` | Classical.choice, Quot.sound, propext |
| C59 | `Yasl.C59_refused` | Quot.sound, propext |
| C59 | `Yasl.C59_undef_lost` | Quot.sound, propext |
| C59 | `Yasl.C59_unset_reads_end` | Quot.sound, propext |
| C59 | `Yasl.C59_redeclared_const` | Classical.choice, Quot.sound, propext |
| C60 | `Yasl.C60_history_partial` | Classical.choice, Quot.sound, propext |
| C60 | `Yasl.C60_history_pops_partial` | Classical.choice, Quot.sound, propext |
| C60 | `Yasl.C60_reachable_kept_partial` | Classical.choice, Quot.sound, propext |
| C60 | `Yasl.C60_unreachable_freed_partial` | Classical.choice, Quot.sound, propext |
| C60 | `Yasl.C60_cleanup_partial` | Classical.choice, Quot.sound, propext |
| C60 | `Yasl.C60_get_uses_freed` | Classical.choice, Quot.sound, propext |
| C60 | `Yasl.C60_get_partial` | Classical.choice, Quot.sound, propext |
| C61 | `Yasl.C61_leaks` | Classical.choice, Quot.sound, propext |
| C61 | `Yasl.C61_never_freed` | Classical.choice, Quot.sound, propext |
| C61 | `Yasl.C61_uncounted_partial` | Classical.choice, Quot.sound, propext |
| C62 | `Yasl.C62_tostr_partial` | Classical.choice, Quot.sound, propext |
| C62 | `Yasl.C62_deep_overflow` | Classical.choice, Quot.sound, propext |
| C62 | `Yasl.C62_wrong_length_ub` | Classical.choice, Quot.sound, propext |
| C63 | `Yasl.C63_gcd` | Classical.choice, Quot.sound, propext |
| C63 | `Yasl.C63_nonpositive` | Classical.choice, Quot.sound, propext |
| C63 | `Yasl.C63_lcm_partial` | Classical.choice, Quot.sound, propext |
| C63 | `Yasl.C63_lcm_overflow` | Classical.choice, Quot.sound, propext |
| C64 | `Yasl.C64_extreme_doubles` | Classical.choice, Quot.sound, propext |
| C64 | `Yasl.C64_extreme_partial` | Classical.choice, Quot.sound, propext |
| C64 | `Yasl.C64_max_wrong` | Quot.sound, propext |
| C64 | `Yasl.C64_nan` | Classical.choice, Quot.sound, propext |
| C64 | `Yasl.C64_empty` | propext |
| C65 | `Yasl.C65_echo_partial` | Classical.choice, Quot.sound, propext |
| C65 | `Yasl.C65_echo_completes` | Classical.choice, Quot.sound, propext |
| C65 | `Yasl.C65_long_string_lost` | Quot.sound, propext |
| C66 | `Yasl.C66_list` | Classical.choice, Quot.sound, propext |
| C66 | `Yasl.C66_list_any_body` | Classical.choice, Quot.sound, propext |
| C66 | `Yasl.C66_string_partial` | Classical.choice, Quot.sound, propext |
| C66 | `Yasl.C66_string_part_wrong` | propext |
| C66 | `Yasl.C66_table_partial` | Classical.choice, Quot.sound, propext |
| C66 | `Yasl.C66_assignment_revisits` | Quot.sound, propext |
| C67 | `Yasl.C67_seventeenth_loop` | propext |
| C67 | `Yasl.C67_recursion` | Classical.choice, Quot.sound, propext |
| C67 | `Yasl.C67_loops_partial` | Quot.sound, propext |
| C68 | `Yasl.C68_own_entry_partial` | Classical.choice, Quot.sound, propext |
| C68 | `Yasl.C68_set_then_get_partial` | Classical.choice, Quot.sound, propext |
| C68 | `Yasl.C68_shadowed` | Classical.choice, Quot.sound, propext |
| C68 | `Yasl.C68_metatable` | Classical.choice, Quot.sound, propext |
| C69 | `Yasl.C69_clear_leaves_elements` | Quot.sound, propext |
| C69 | `Yasl.C69_clear_small_partial` | Classical.choice, Quot.sound, propext |
| C70 | `Yasl.C70_is_partial` | Quot.sound, propext |
| C70 | `Yasl.C70_isspace` | Classical.choice, Quot.sound, propext |
| C70 | `Yasl.C70_is_nonascii` | Quot.sound, propext |
| C72 | `Yasl.C72_isprime_partial` | Classical.choice, Quot.sound, propext |
| C72 | `Yasl.C72_negative_prime` | Classical.choice, Quot.sound, propext |
| C73 | `Yasl.C73_abs_int` | Classical.choice, Quot.sound, propext |
| C73 | `Yasl.C73_abs_float` | Quot.sound, propext |
| C73 | `Yasl.C73_toint` | Classical.choice, Quot.sound, propext |
| C73 | `Yasl.C73_roundtrip` | Classical.choice, Quot.sound, propext |
| C73 | `Yasl.C73_roundtrip_lossy` | propext |
| C71 | `Yasl.C71_decimal` | Classical.choice, Quot.sound, propext |
| C71 | `Yasl.C71_hexadecimal` | Classical.choice, Quot.sound, propext |
| C71 | `Yasl.C71_binary` | Classical.choice, Quot.sound, propext |
| C71 | `Yasl.C71_accepts_more` | propext |
| C74 | `Yasl.C74_float_roundtrip_partial` | Classical.choice, Quot.sound, propext |
| C74 | `Yasl.C74_negative_lost` | Classical.choice, Quot.sound, propext |
| C74 | `Yasl.C74_small_lost` | Quot.sound, propext |
| C75 | `Yasl.C75_float_text` | Classical.choice, Quot.sound, propext |
| C75 | `Yasl.C75_special` | Classical.choice, Quot.sound, propext |
| C76 | `Yasl.C76_parameters_partial` | Classical.choice, Quot.sound, propext |
| C76 | `Yasl.C76_repeated_parameter` | Quot.sound, propext |
| C77 | `Yasl.C77_match_partial` | Classical.choice, Quot.sound, propext |
| C77 | `Yasl.C77_no_clause` | Classical.choice, Quot.sound, propext |
| C77 | `Yasl.C77_guard_fails` | Classical.choice, Quot.sound, propext |
| C77 | `Yasl.C77_last_guard` | Quot.sound, propext |
| C78 | `Yasl.C78_progress` | Classical.choice, Quot.sound, propext |
| C78 | `Yasl.C78_terminates` | Classical.choice, Quot.sound, propext |
| C79 | `Yasl.C79_single` | Classical.choice, Quot.sound, propext |
| C79 | `Yasl.C79_every_string` | Quot.sound, propext |
| C79 | `Yasl.C79_raw` | Classical.choice, Quot.sound, propext |
| C79 | `Yasl.C79_double` | Classical.choice, Quot.sound, propext |
| C79 | `Yasl.C79_interp_rest` | Quot.sound, propext |
| C79 | `Yasl.C79_unclosed` | Classical.choice, Quot.sound, propext |
| C79 | `Yasl.C79_hex_too_lenient` | Classical.choice, Quot.sound, propext |
| C80 | `Yasl.C80_decimal_partial` | Classical.choice, Quot.sound, propext |
| C80 | `Yasl.C80_hex_partial` | Classical.choice, Quot.sound, propext |
| C80 | `Yasl.C80_bin_partial` | Classical.choice, Quot.sound, propext |
| C80 | `Yasl.C80_value` | Quot.sound, propext |
| C80 | `Yasl.C80_clamped` | Quot.sound, propext |
| C80 | `Yasl.C80_float_partial` | Classical.choice, Quot.sound, propext |
| C80 | `Yasl.C80_exponent_partial` | Classical.choice, Quot.sound, propext |
| C80 | `Yasl.C80_exponent_swallows` | Classical.choice, Quot.sound, propext |
| C81 | `Yasl.C81_longest` | Classical.choice, Quot.sound, propext |
| C81 | `Yasl.C81_unknown` | Classical.choice, Quot.sound, propext |
| C82 | `Yasl.C82_blank` | Classical.choice, Quot.sound, propext |
| C82 | `Yasl.C82_newline` | Classical.choice, Quot.sound, propext |
| C82 | `Yasl.C82_comment_at_end` | Classical.choice, Quot.sound, propext |
| C82 | `Yasl.C82_open_comment` | Classical.choice, Quot.sound, propext |
| C83 | `Yasl.C83_name` | Classical.choice, Quot.sound, propext |
| C83 | `Yasl.C83_field` | Classical.choice, Quot.sound, propext |
| C83 | `Yasl.C83_keyword` | Classical.choice, Quot.sound, propext |
| C83 | `Yasl.C83_bool` | Classical.choice, Quot.sound, propext |
| C83 | `Yasl.C83_reserved` | Classical.choice, Quot.sound, propext |
| C84 | `Yasl.C84_lines_partial` | Classical.choice, Quot.sound, propext |
| C84 | `Yasl.C84_wrong_line` | Classical.choice, Quot.sound, propext |
| C84 | `Yasl.C84_looks_partial` | Classical.choice, Quot.sound, propext |
| C84 | `Yasl.C84_look_counterexample` | Classical.choice, Quot.sound, propext |
| C85 | `Yasl.C85_terminates_partial` | Classical.choice, Quot.sound, propext |
| C85 | `Yasl.C85_match_hangs` | Classical.choice, Quot.sound, propext |
| C85 | `Yasl.C85_false` | Classical.choice, Quot.sound, propext |
| C86 | `Yasl.C86_grammar` | Classical.choice, Quot.sound, propext |
| C86 | `Yasl.C86_plain_text` | Classical.choice, Quot.sound, propext |
| C86 | `Yasl.C86_bad_token` | Classical.choice, Quot.sound, propext |
| C87 | `Yasl.C87_unambiguous` | Classical.choice, Quot.sound, propext |
| C88 | `Yasl.C88_precedence` | Classical.choice, Quot.sound, propext |
| C88 | `Yasl.C88_power` | Classical.choice, Quot.sound, propext |
| C88 | `Yasl.C88_conditional` | Classical.choice, Quot.sound, propext |
| C89 | `Yasl.C89_augmented_variable` | Classical.choice, Quot.sound, propext |
| C89 | `Yasl.C89_augmented_element` | Classical.choice, Quot.sound, propext |
| C90 | `Yasl.C90_let_count_partial` | Classical.choice, Quot.sound, propext |
| C90 | `Yasl.C90_var_count_partial` | Classical.choice, Quot.sound, propext |
| C90 | `Yasl.C90_too_many` | Classical.choice, Quot.sound, propext |
| C90 | `Yasl.C90_too_few` | Classical.choice, Quot.sound, propext |
| C90 | `Yasl.C90_false` | Classical.choice, Quot.sound, propext |
| C91 | `Yasl.C91_interpolation_partial` | Classical.choice, Quot.sound, propext |
| C91 | `Yasl.C91_extra_token` | Classical.choice, Quot.sound, propext |
| C92 | `Yasl.C92_defined_partial` | Classical.choice, Quot.sound, propext |
| C92 | `Yasl.C92_dot_call_ub` | Classical.choice, Quot.sound, propext |
| C92 | `Yasl.C92_false` | Classical.choice, Quot.sound, propext |
| C93 | `Yasl.C93_runs_the_text` | Classical.choice, Quot.sound, propext |
| C93 | `Yasl.C93_builds` | Classical.choice, Quot.sound, propext |
| C93 | `Yasl.C93_refused` | Classical.choice, Quot.sound, propext |
| C93 | `Yasl.C93_same_tree` | Quot.sound, propext |
| C93 | `Yasl.C93_extra_value_counterexample` | Classical.choice, Quot.sound, propext |
| C93 | `Yasl.C93_post_counterexample` | Classical.choice, Quot.sound, propext |
| C94 | `Yasl.C94_visits_all` | Classical.choice, Quot.sound, propext |
| C94 | `Yasl.C94_host_partial` | Classical.choice, Quot.sound, propext |
| C94 | `Yasl.C94_nan_never_ends` | Classical.choice, Quot.sound, propext |
| C95 | `Yasl.C95_host_containers_partial` | Classical.choice, Quot.sound, propext |
| C95 | `Yasl.C95_undef_counterexample` | Quot.sound, propext |
| C95 | `Yasl.C95_duplicate_counterexample` | Quot.sound, propext |
| C96 | `Yasl.C96_functions` | Classical.choice, Quot.sound, propext |
| C96 | `Yasl.C96_machine_stops` | Classical.choice, Quot.sound, propext |
| C96 | `Yasl.C96_leak_counterexample` | Quot.sound, propext |
| C97 | `Yasl.C97_require` | Classical.choice, Quot.sound, propext |
| C97 | `Yasl.C97_require_c` | Classical.choice, Quot.sound, propext |
| C97 | `Yasl.C97_search` | Classical.choice, Quot.sound, propext |
| C97 | `Yasl.C97_no_mark` | Classical.choice, Quot.sound, propext |
| C98 | `Yasl.C98_modules_partial` | Classical.choice, Quot.sound, propext |
| C98 | `Yasl.C98_require_keeps_partial` | Classical.choice, Quot.sound, propext |
| C99 | `Yasl.C99_lines` | Classical.choice, Quot.sound, propext |
| C99 | `Yasl.C99_read_line` | Classical.choice, Quot.sound, propext |
| C99 | `Yasl.C99_end_invisible` | Quot.sound, propext |
| C100 | `Yasl.C100_write` | Quot.sound, propext |
| C100 | `Yasl.C100_round_trip` | Classical.choice, Quot.sound, propext |
| C100 | `Yasl.C100_round_trip_clean` | Quot.sound, propext |
| C100 | `Yasl.C100_read_all` | Quot.sound, propext |
| C100 | `Yasl.C100_seek` | Classical.choice, Quot.sound, propext |
| C100 | `Yasl.C100_whence` | Classical.choice, Quot.sound, propext |
| C100 | `Yasl.C100_write_only_counterexample` | Classical.choice, Quot.sound, propext |
| C100 | `Yasl.C100_write_then_read_counterexample` | Classical.choice, Quot.sound, propext |
| C101 | `Yasl.C101_open_modes` | Classical.choice, Quot.sound, propext |
| C101 | `Yasl.C101_release_partial` | Classical.choice, Quot.sound, propext |
| C101 | `Yasl.C101_close_counterexample` | Classical.choice, Quot.sound, propext |
| C102 | `Yasl.C102_set_partial` | Classical.choice, Quot.sound, propext |
| C102 | `Yasl.C102_list` | Classical.choice, Quot.sound, propext |
| C102 | `Yasl.C102_tolist` | Classical.choice, Quot.sound, propext |
| C102 | `Yasl.C102_table_partial` | Classical.choice, Quot.sound, propext |
| C102 | `Yasl.C102_odd_counterexample` | Quot.sound, propext |
| C102 | `Yasl.C102_duplicate_key` | Quot.sound, propext |
| C103 | `Yasl.C103_set_text` | Classical.choice, Quot.sound, propext |
| C103 | `Yasl.C103_history` | Classical.choice, Quot.sound, propext |
| C103 | `Yasl.C103_wrong_length` | Classical.choice, Quot.sound, propext |
| C104 | `Yasl.C104_get` | Classical.choice, Quot.sound, propext |
| C104 | `Yasl.C104_set` | Classical.choice, Quot.sound, propext |
| C104 | `Yasl.C104_history` | Quot.sound, propext |
| C104 | `Yasl.C104_types` | propext |
| C104 | `Yasl.C104_host_set` | Quot.sound, propext |
| C104 | `Yasl.C104_host_undef` | Quot.sound, propext |
| C104 | `Yasl.C104_unset_counterexample` | Quot.sound, propext |
| C105 | `Yasl.C105_binary` | Classical.choice, Quot.sound, propext |
| C105 | `Yasl.C105_comparison` | Classical.choice, Quot.sound, propext |
| C105 | `Yasl.C105_unary` | Classical.choice, Quot.sound, propext |
| C105 | `Yasl.C105_set` | Classical.choice, Quot.sound, propext |
| C105 | `Yasl.C105_call_without_self` | Classical.choice, Quot.sound, propext |
| C106 | `Yasl.C106_runs_the_text` | Classical.choice, Quot.sound, propext |
| C106 | `Yasl.C106_execute_stops` | Classical.choice, Quot.sound, propext |
| C106 | `Yasl.C106_refused` | Classical.choice, Quot.sound, propext |
| C106 | `Yasl.C106_same_tree` | Quot.sound, propext |
| C107 | `Yasl.C107_programs_with_data` | Classical.choice, Quot.sound, propext |
| C107 | `Yasl.C107_execute_stops` | Classical.choice, Quot.sound, propext |
| C108 | `Yasl.C108_call_partial` | Classical.choice, Quot.sound, propext |
| C108 | `Yasl.C108_calls_partial` | Classical.choice, Quot.sound, propext |
| C108 | `Yasl.C108_round_trip` | Classical.choice, Quot.sound, propext |
| C108 | `Yasl.C108_strings` | Classical.choice, Quot.sound, propext |
| C108 | `Yasl.C108_pop_counterexample` | Classical.choice, Quot.sound, propext |
| C108 | `Yasl.C108_userdata_counterexample` | Classical.choice, Quot.sound, propext |
| C108 | `Yasl.C108_message_counterexample` | Classical.choice, Quot.sound, propext |
| C109 | `Yasl.C109_session_partial` | Classical.choice, Quot.sound, propext |
| C109 | `Yasl.C109_locals_stay` | Quot.sound, propext |
| C109 | `Yasl.C109_error_stays` | Quot.sound, propext |
| C109 | `Yasl.C109_refused_declares` | Quot.sound, propext |
| C109 | `Yasl.C109_syntax_error_stays` | Quot.sound, propext |
| C109 | `Yasl.C109_constants` | Classical.choice, Quot.sound, propext |
| C110 | `Yasl.C110_reads` | Classical.choice, Quot.sound, propext |
| C110 | `Yasl.C110_file_and_memory` | Classical.choice, Quot.sound, propext |
| C110 | `Yasl.C110_position` | Classical.choice, Quot.sound, propext |
| C110 | `Yasl.C110_byte_255` | Classical.choice, Quot.sound, propext |
| C110 | `Yasl.C110_marks_differ` | Classical.choice, Quot.sound, propext |
| C111 | `Yasl.C111_programs_partial` | Classical.choice, Quot.sound, propext |
| C111 | `Yasl.C111_operand_first` | Quot.sound, propext |
| C111 | `Yasl.C111_operand_counterexample` | Quot.sound, propext |
| C111 | `Yasl.C111_nested_counterexample` | Quot.sound, propext |
| C111 | `Yasl.C111_too_many` | Classical.choice, Quot.sound, propext |
| C112 | `Yasl.C112_text_partial` | Classical.choice, Quot.sound, propext |
| C112 | `Yasl.C112_exact` | Classical.choice, Quot.sound, propext |
| C112 | `Yasl.C112_accepted_partial` | Classical.choice, Quot.sound, propext |
| C112 | `Yasl.C112_refused_partial` | Classical.choice, Quot.sound, propext |
| C112 | `Yasl.C112_dead_code` | Classical.choice, Quot.sound, propext |
| C112 | `Yasl.C112_counterexample_never` | Classical.choice, Quot.sound, propext |
| C112 | `Yasl.C112_counterexample_function` | Classical.choice, Quot.sound, propext |
| C112 | `Yasl.C112_counterexample_params` | Classical.choice, Quot.sound, propext |
| C113 | `Yasl.C113_check_sound` | Classical.choice, Quot.sound, propext |
| C113 | `Yasl.C113_check_complete_partial` | Classical.choice, Quot.sound, propext |
| C113 | `Yasl.C113_check_counterexample` | Classical.choice, Quot.sound, propext |
| C113 | `Yasl.C113_modes` | Classical.choice, Quot.sound, propext |
| C113 | `Yasl.C113_prompt_lines` | propext |
| C113 | `Yasl.C113_prompt_never_ends` | propext |
| C114 | `Yasl.C114_libraries` | Classical.choice, Quot.sound, propext |
| C114 | `Yasl.C114_again` | Classical.choice, Quot.sound, propext |
| C115 | `Yasl.C115_defined` | Classical.choice, Quot.sound, propext |
| C115 | `Yasl.C115_tree` | Classical.choice, Quot.sound, propext |
| C115 | `Yasl.C115_freed` | Classical.choice, Quot.sound, propext |
| C115 | `Yasl.C115_depth` | Classical.choice, Quot.sound, propext |
| C116 | `Yasl.C116_report_partial` | Classical.choice, Quot.sound, propext |
| C116 | `Yasl.C116_report_counterexample` | Classical.choice, Quot.sound, propext |
| C117 | `Yasl.C117_counts_partial` | Classical.choice, Quot.sound, propext |
| C117 | `Yasl.C117_reachable_kept_partial` | Classical.choice, Quot.sound, propext |
| C117 | `Yasl.C117_unreachable_freed_partial` | Classical.choice, Quot.sound, propext |
| C117 | `Yasl.C117_close_partial` | Classical.choice, Quot.sound, propext |
| C117 | `Yasl.C117_cleanup_partial` | Classical.choice, Quot.sound, propext |
| C117 | `Yasl.C117_variable_lost_counterexample` | propext |
| C117 | `Yasl.C117_number_counterexample` | propext |
| C117 | `Yasl.C117_block_counterexample` | propext |
| C117 | `Yasl.C117_error_counterexample` | propext |
| C118 | `Yasl.C118_calls` | Classical.choice, Quot.sound, propext |
| C118 | `Yasl.C118_delete` | Classical.choice, Quot.sound, propext |
| C118 | `Yasl.C118_lost` | Classical.choice, Quot.sound, propext |
| C118 | `Yasl.C118_frees_all_partial` | Classical.choice, Quot.sound, propext |
| C118 | `Yasl.C118_texts_partial` | Classical.choice, Quot.sound, propext |
| C118 | `Yasl.C118_reset_counterexample` | Quot.sound, propext |
| C118 | `Yasl.C118_scopes_counterexample` | Quot.sound, propext |
| C118 | `Yasl.C118_prompt_counterexample` | Classical.choice, Quot.sound, propext |
| C118 | `Yasl.C118_constants_counterexample` | Quot.sound, propext |
| C119 | `Yasl.C119_output` | Classical.choice, Quot.sound, propext |
| C119 | `Yasl.C119_errors_partial` | Classical.choice, Quot.sound, propext |
| C119 | `Yasl.C119_reset_counterexample` | Quot.sound, propext |
| C119 | `Yasl.C119_hidden_counterexample` | Quot.sound, propext |
| C120 | `Yasl.C120_safe_partial` | Classical.choice, Quot.sound, propext |
| C120 | `Yasl.C120_destructor_partial` | Classical.choice, Quot.sound, propext |
| C120 | `Yasl.C120_metatable_partial` | Classical.choice, Quot.sound, propext |
| C120 | `Yasl.C120_delete_partial` | Classical.choice, Quot.sound, propext |
| C120 | `Yasl.C120_cycle_counterexample` | Classical.choice, Quot.sound, propext |
| C120 | `Yasl.C120_getmt_counterexample` | Classical.choice, Quot.sound, propext |
| C121 | `Yasl.C121_only_fn_partial` | Classical.choice, Quot.sound, propext |
| C121 | `Yasl.C121_others_partial` | Classical.choice, Quot.sound, propext |
| C121 | `Yasl.C121_counterexample` | Classical.choice, Quot.sound, propext |
| C122 | `Yasl.C122_methods_partial` | Classical.choice, Quot.sound, propext |
| C122 | `Yasl.C122_copy_noMethod` | Classical.choice, Quot.sound, propext |
| C122 | `Yasl.C122_copy_counterexample` | Classical.choice, Quot.sound, propext |
| C122 | `Yasl.C122_builtin_counterexample` | Classical.choice, Quot.sound, propext |
| C123 | `Yasl.C123_negative_counterexample` | Classical.choice, Quot.sound, propext |
| C123 | `Yasl.C123_rand_covers_partial` | Quot.sound, propext |
| C123 | `Yasl.C123_rand_wrap_partial` | Quot.sound, propext |
| C123 | `Yasl.C123_small_counterexample` | Quot.sound, propext |
| C124 | `Yasl.C124_call_partial` | Quot.sound, propext |
| C124 | `Yasl.C124_mcall_partial` | Quot.sound, propext |
| C124 | `Yasl.C124_argument_counterexample` | Classical.choice, Quot.sound, propext |
| C124 | `Yasl.C124_callee_counterexample` | Classical.choice, Quot.sound, propext |
| C124 | `Yasl.C96_leak_counterexample` | Quot.sound, propext |
| C125 | `Yasl.C125_file` | Quot.sound, propext |
| C125 | `Yasl.C125_file_accepted` | Quot.sound, propext |
| C125 | `Yasl.C125_return` | Quot.sound, propext |
| C125 | `Yasl.C125_prompt_partial` | Quot.sound, propext |
| C125 | `Yasl.C125_prompt_accepted` | Quot.sound, propext |
| C125 | `Yasl.C125_counterexample` | Classical.choice, Quot.sound, propext |
| C126 | `Yasl.C126_export_value` | Classical.choice, Quot.sound, propext |
| C126 | `Yasl.C126_machine_exports` | Classical.choice, Quot.sound, propext |
| C126 | `Yasl.C126_no_export` | Classical.choice, Quot.sound, propext |
