{
 "claims": [
  {
   "property": "C01",
   "status": "partial",
   "theorems": [
    "Yasl.C01_assignments_partial",
    "Yasl.C01_nan_key_lost",
    "Yasl.C01_neg_zero_key"
   ],
   "note": "proved in full (termination and contents) for histories of up to 2^29 assignments and all keys but NaN and -0.0; false for those (proved)"
  },
  {
   "property": "C02",
   "status": "proved",
   "theorems": [
    "Yasl.C02_lookup_correct",
    "Yasl.C02_get_correct"
   ],
   "note": "keys other than undef (C09), NaN and -0.0 (C01); unhashable keys included"
  },
  {
   "property": "C03",
   "status": "partial",
   "theorems": [
    "Yasl.C03_terminates_partial",
    "Yasl.C03_search_terminates_partial",
    "Yasl.C03_hangs",
    "Yasl.C03_lookup_hangs"
   ],
   "note": "false: 31 rounds of assign+remove never end (proved for every fuel); true with at most 7 removals of present keys"
  },
  {
   "property": "C04",
   "status": "partial",
   "theorems": [
    "Yasl.C04_len_partial",
    "Yasl.C04_remove_absent_wraps"
   ],
   "note": "false when an absent key is removed (length wraps to 2^64-1, proved); proved otherwise"
  },
  {
   "property": "C05",
   "status": "proved",
   "theorems": [
    "Yasl.C05_enumeration"
   ],
   "note": ""
  },
  {
   "property": "C06",
   "status": "proved",
   "theorems": [
    "Yasl.C06_probe_in_bounds",
    "Yasl.C06_probe_injective",
    "Yasl.C06_probe_covers",
    "Yasl.C06_composite_size_misses"
   ],
   "note": "for every prime size up to 2^32 (beyond that the product attempt*step wraps in size_t); also shows primality is needed"
  },
  {
   "property": "C07",
   "status": "proved",
   "theorems": [
    "Yasl.C07_resize_keeps_entries"
   ],
   "note": ""
  },
  {
   "property": "C08",
   "status": "proved",
   "theorems": [
    "Yasl.C08_unhashable"
   ],
   "note": ""
  },
  {
   "property": "C09",
   "status": "partial",
   "theorems": [
    "Yasl.C09_undef_key_lost",
    "Yasl.C09_undef_key_breaks_others",
    "Yasl.C09_undef_absent_partial"
   ],
   "note": "false: undef is accepted but the value is lost and other keys become unreadable (proved)"
  },
  {
   "property": "C10",
   "status": "partial",
   "theorems": [
    "Yasl.C10_clear_partial",
    "Yasl.C10_clear_hangs"
   ],
   "note": "contents proved for every later history that completes; termination false: size becomes 30, not prime (proved witness)"
  },
  {
   "property": "C11",
   "status": "proved",
   "theorems": [
    "Yasl.C11_union",
    "Yasl.C11_copy",
    "Yasl.C11_union_copy_terminate"
   ],
   "note": ""
  },
  {
   "property": "C12",
   "status": "partial",
   "theorems": [
    "Yasl.C12_table_eq_partial",
    "Yasl.C12_wrong_after_absent_removal"
   ],
   "note": "false after removal of an absent key (proved); proved otherwise"
  },
  {
   "property": "C13",
   "status": "partial",
   "theorems": [
    "Yasl.C13_membership",
    "Yasl.C13_length_partial",
    "Yasl.C13_remove_absent_wraps",
    "Yasl.C13_undef_lost"
   ],
   "note": "membership and iteration proved for every completed history over values on which == is identity; len false after removal of an absent element or addition of undef (proved), true otherwise"
  },
  {
   "property": "C14",
   "status": "proved",
   "theorems": [
    "Yasl.C14_algebra"
   ],
   "note": "for every pair of completed histories over values on which == is identity (mixed int/float is C16)"
  },
  {
   "property": "C15",
   "status": "partial",
   "theorems": [
    "Yasl.C15_comparisons_partial",
    "Yasl.C15_wrong_after_absent_removal"
   ],
   "note": "false after removal of an absent element (proved), proved otherwise"
  },
  {
   "property": "C16",
   "status": "partial",
   "theorems": [
    "Yasl.C16_equal_values_two_elements",
    "Yasl.C16_same_type_partial"
   ],
   "note": "false across int/float (proved witness); proved within a type"
  },
  {
   "property": "C17",
   "status": "proved",
   "theorems": [
    "Yasl.C17_is_prime_correct",
    "Yasl.C17_next_prime_correct"
   ],
   "note": "floor(sqrt((double)x)) is a parameter with sqrt(x) <= b(x) < x"
  },
  {
   "property": "C18",
   "status": "proved",
   "theorems": [
    "Yasl.C18_vint_roundtrip",
    "Yasl.C18_vint_next",
    "Yasl.C18_vint_length",
    "Yasl.C18_vint_prefix_free"
   ],
   "note": ""
  },
  {
   "property": "C19",
   "status": "partial",
   "theorems": [
    "Yasl.C19_bytebuffer_log_partial",
    "Yasl.C19_header_log",
    "Yasl.C19_zero_size_overflow",
    "Yasl.C19_int_roundtrip"
   ],
   "note": "false for a buffer created with size 0 (add_byte then writes out of bounds, proved); true for every positive initial size, which is what all written buffers use"
  },
  {
   "property": "C20",
   "status": "proved",
   "theorems": [
    "Yasl.C20_line_lookup",
    "Yasl.C20_reported_line"
   ],
   "note": ""
  },
  {
   "property": "C21",
   "status": "proved",
   "theorems": [
    "Yasl.C21_eq_symm",
    "Yasl.C21_eq_refl",
    "Yasl.C21_nan_unequal",
    "Yasl.C21_eq_trans",
    "Yasl.C21_eq_cross_type"
   ],
   "note": ""
  },
  {
   "property": "C22",
   "status": "partial",
   "theorems": [
    "Yasl.C22_mixed_not_transitive",
    "Yasl.C22_mixed_transitive_partial"
   ],
   "note": "false beyond 2^53 (proved on a witness); proved for ints up to 2^53 in absolute value and all floats"
  },
  {
   "property": "C23",
   "status": "proved",
   "theorems": [
    "Yasl.C23_cmp_zero",
    "Yasl.C23_cmp_lex",
    "Yasl.C23_cmp_antisymm",
    "Yasl.C23_le_trans",
    "Yasl.C23_le_total",
    "Yasl.C23_operators"
   ],
   "note": "strings as byte lists; independence of storage is C51"
  },
  {
   "property": "C24",
   "status": "proved",
   "theorems": [
    "Yasl.C24_int_order",
    "Yasl.C24_float_order",
    "Yasl.C24_mixed_order",
    "Yasl.C24_coherent",
    "Yasl.C24_trichotomy",
    "Yasl.C24_nan_false"
   ],
   "note": ""
  },
  {
   "property": "C25",
   "status": "proved",
   "theorems": [
    "Yasl.C25_falsey_iff",
    "Yasl.C25_not",
    "Yasl.C25_int_truthy"
   ],
   "note": ""
  },
  {
   "property": "C26",
   "status": "proved",
   "theorems": [
    "Yasl.C26_add_sub_mul",
    "Yasl.C26_overflow_ub",
    "Yasl.C26_div_mod",
    "Yasl.C26_div_zero",
    "Yasl.C26_min_div_neg_one",
    "Yasl.C26_bitwise",
    "Yasl.C26_shifts",
    "Yasl.C26_shift_ub"
   ],
   "note": "overflow, INT64_MIN // -1 and shift counts outside 0..63 are undefined behaviour in the code, proved as explicit outcomes"
  },
  {
   "property": "C27",
   "status": "partial",
   "theorems": [
    "Yasl.C27_fold_partial",
    "Yasl.C27_fold_defined_partial",
    "Yasl.C27_identity_folded_wrong",
    "Yasl.C27_not_nan_folded_wrong",
    "Yasl.C27_dead_overflow"
   ],
   "note": "false for ===/!== and ! on float constants, and folding dead code can be undefined behaviour (proved witnesses); proved for all other expressions"
  },
  {
   "property": "C28",
   "status": "proved",
   "theorems": [
    "Yasl.C28_expression"
   ],
   "note": "primitive operations on heap objects (lists, tables, methods, string conversion) are parameters; short-circuit, operators, variables, literals, jumps are the real bytecode"
  },
  {
   "property": "C29",
   "status": "proved",
   "theorems": [
    "Yasl.C29_program",
    "Yasl.C29_machine_stops"
   ],
   "note": "from source tree to bytes of the image to final output, globals and stack; both directions (meaning to machine, machine to meaning); limits stated as FitsAll"
  },
  {
   "property": "C30",
   "status": "partial",
   "theorems": [
    "Yasl.C30_stack_restored_partial",
    "Yasl.C30_break_leaves_variables",
    "Yasl.C30_continue_leaves_variables"
   ],
   "note": "false when a variable declared in the loop body is visible at the break/continue (proved on programs); proved otherwise"
  },
  {
   "property": "C31",
   "status": "partial",
   "theorems": [
    "Yasl.C31_literals_partial",
    "Yasl.C31_negative_zero",
    "Yasl.C31_negative_zero_alone"
   ],
   "note": "real hash-table pool; false for -0.0, which can be conflated with 0.0 (proved witness); proved for all sequences without NaN and -0.0"
  },
  {
   "property": "C32",
   "status": "partial",
   "theorems": [
    "Yasl.C32_slots_partial",
    "Yasl.C32_declared",
    "Yasl.C32_high_local",
    "Yasl.C32_accepted",
    "Yasl.C32_program"
   ],
   "note": "false beyond 128 locals although 255 are accepted (proved in general and on a program); proved up to 128"
  },
  {
   "property": "C33",
   "status": "proved",
   "theorems": [
    "Yasl.C33_innermost",
    "Yasl.C33_upvalue_stays",
    "Yasl.C33_distinct",
    "Yasl.C33_leaving_restores"
   ],
   "note": "for every history of blocks, functions, declarations and uses the compiler accepts; upvalues through any number of functions; variables of one block have different names (redeclaration is rejected for let, see C76 for parameters)"
  },
  {
   "property": "C34",
   "status": "proved",
   "theorems": [
    "Yasl.C34_constants"
   ],
   "note": "locals, variables of enclosing functions and globals, after every accepted history"
  },
  {
   "property": "C35",
   "status": "partial",
   "theorems": [
    "Yasl.C35_live_partial",
    "Yasl.C35_in_order_partial",
    "Yasl.C35_file_variable",
    "Yasl.C35_not_shared",
    "Yasl.C35_block",
    "Yasl.C35_early_return"
   ],
   "note": "false in four ways, each with a proved history; proved for all histories while the declaring function runs, and for all histories with captures in descending order of slots afterwards too"
  },
  {
   "property": "C36",
   "status": "proved",
   "theorems": [
    "Yasl.C36_get",
    "Yasl.C36_pos_lt",
    "Yasl.C36_set"
   ],
   "note": ""
  },
  {
   "property": "C37",
   "status": "proved",
   "theorems": [
    "Yasl.C37_op_correct",
    "Yasl.C37_history",
    "Yasl.C37_pop_value"
   ],
   "note": "any history, any initial capacity (including 0)"
  },
  {
   "property": "C38",
   "status": "proved",
   "theorems": [
    "Yasl.C38_reverse",
    "Yasl.C38_reverse_reverse",
    "Yasl.C38_copy",
    "Yasl.C38_concat",
    "Yasl.C38_spread",
    "Yasl.C38_eq"
   ],
   "note": ""
  },
  {
   "property": "C39",
   "status": "proved",
   "theorems": [
    "Yasl.C39_slice",
    "Yasl.C39_bad_bound"
   ],
   "note": ""
  },
  {
   "property": "C40",
   "status": "partial",
   "theorems": [
    "Yasl.C40_no_out_of_bounds",
    "Yasl.C40_permutation",
    "Yasl.C40_mixed_rejected",
    "Yasl.C40_sorted_strings",
    "Yasl.C40_sorted_numbers_partial",
    "Yasl.C40_sorted_as_doubles",
    "Yasl.C40_nan_unsorted",
    "Yasl.C40_big_int_unsorted"
   ],
   "note": "memory safety and permutation for all lists; sortedness proved for strings and NaN-free numbers (ints up to 2^53); false with NaN or larger ints (proved)"
  },
  {
   "property": "C41",
   "status": "partial",
   "theorems": [
    "Yasl.C41_diverges",
    "Yasl.C41_fair_terminates_partial"
   ],
   "note": "false for an adversarial rand() (proved); proved for every fair rand() stream"
  },
  {
   "property": "C42",
   "status": "proved",
   "theorems": [
    "Yasl.C42_search",
    "Yasl.C42_count"
   ],
   "note": "search returns the index of the LAST equal element, which the property allows"
  },
  {
   "property": "C43",
   "status": "proved",
   "theorems": [
    "Yasl.C43_join"
   ],
   "note": "the conversion of elements to strings is a parameter"
  },
  {
   "property": "C44",
   "status": "partial",
   "theorems": [
    "Yasl.C44_index",
    "Yasl.C44_slice_partial",
    "Yasl.C44_slice_crossed",
    "Yasl.C44_slice_offset",
    "Yasl.C44_bad_bound"
   ],
   "note": "indexing proved for all strings; slices proved for heap strings with bounds in order; false (proved) for crossed bounds (undefined behaviour) and for views with an offset (wrong bytes)"
  },
  {
   "property": "C45",
   "status": "proved",
   "theorems": [
    "Yasl.C45_search"
   ],
   "note": ""
  },
  {
   "property": "C46",
   "status": "partial",
   "theorems": [
    "Yasl.C46_replace",
    "Yasl.C46_cut_exists_unique",
    "Yasl.C46_replace_empty",
    "Yasl.C46_replace_limit_partial",
    "Yasl.C46_limit_counts_bytes",
    "Yasl.C46_limit_overflow"
   ],
   "note": "proved without a limit; with a limit false: every byte counts against it (proved witness)"
  },
  {
   "property": "C47",
   "status": "partial",
   "theorems": [
    "Yasl.C47_count_partial",
    "Yasl.C47_count_empty"
   ],
   "note": "proved for nonempty needles; never terminates for the empty one (proved)"
  },
  {
   "property": "C48",
   "status": "partial",
   "theorems": [
    "Yasl.C48_split_actual",
    "Yasl.C48_split_partial",
    "Yasl.C48_split_loses_bytes",
    "Yasl.C48_split_empty",
    "Yasl.C48_split_default",
    "Yasl.C48_words_exists_unique"
   ],
   "note": "split() and one-byte separators proved; false for longer separators (proved; the exact result is C48_split_actual)"
  },
  {
   "property": "C49",
   "status": "partial",
   "theorems": [
    "Yasl.C49_ltrim_default",
    "Yasl.C49_rtrim_default",
    "Yasl.C49_trim_default_partial",
    "Yasl.C49_trim_blank",
    "Yasl.C49_ltrim",
    "Yasl.C49_rtrim",
    "Yasl.C49_trim_partial",
    "Yasl.C49_trim_overlap",
    "Yasl.C49_trim_empty"
   ],
   "note": "ltrim/rtrim proved; trim undefined on blank strings and overlapping needles, endless on empty needles (proved)"
  },
  {
   "property": "C50",
   "status": "partial",
   "theorems": [
    "Yasl.C50_startswith",
    "Yasl.C50_endswith",
    "Yasl.C50_toupper",
    "Yasl.C50_tolower",
    "Yasl.C50_case_idempotent",
    "Yasl.C50_rep_partial",
    "Yasl.C50_rep_empty",
    "Yasl.C50_rep_wraps"
   ],
   "note": "all proved except rep when n*len wraps in size_t (false, proved witnesses)"
  },
  {
   "property": "C51",
   "status": "partial",
   "theorems": [
    "Yasl.C51_storage_partial",
    "Yasl.C51_iter_offset"
   ],
   "note": "proved for the listed methods; false for slices and for-iteration of views with an offset (proved)"
  },
  {
   "property": "C52",
   "status": "proved",
   "theorems": [
    "Yasl.C52_int_roundtrip",
    "Yasl.C52_int_text"
   ],
   "note": ""
  },
  {
   "property": "C53",
   "status": "partial",
   "theorems": [
    "Yasl.C53_skip",
    "Yasl.C53_match_partial",
    "Yasl.C53_no_keys_partial",
    "Yasl.C53_missing_key"
   ],
   "note": "skipping: proved for all patterns; matching: false for table patterns with a key the table lacks (proved), proved whenever no key is missing, and for all successful matches"
  },
  {
   "property": "C54",
   "status": "partial",
   "theorems": [
    "Yasl.C54_match_partial",
    "Yasl.C54_accepted_partial",
    "Yasl.C54_missing_key",
    "Yasl.C54_stale_binding",
    "Yasl.C54_type_key"
   ],
   "note": "false in three ways (proved): keyed table pattern on the left of |, variables of a failed alternative, type names as keys; proved for all other accepted patterns, with the exact bindings"
  },
  {
   "property": "C55",
   "status": "proved",
   "theorems": [
    "Yasl.C55_lifo",
    "Yasl.C55_overflow",
    "Yasl.C55_history",
    "Yasl.C55_middle"
   ],
   "note": "array of 1024 slots with bounds checks; all histories"
  },
  {
   "property": "C56",
   "status": "partial",
   "theorems": [
    "Yasl.C56_not_popped",
    "Yasl.C56_popped_partial"
   ],
   "note": "false: a value of another type is not popped (proved for all of them); proved for values of the right type; YASL_popcstr in full"
  },
  {
   "property": "C57",
   "status": "partial",
   "theorems": [
    "Yasl.C57_history_partial",
    "Yasl.C57_call_partial",
    "Yasl.C57_variadic_short"
   ],
   "note": "all histories of nested calls refine a specification by regions; false (undefined behaviour, proved) when a variadic C function gets fewer arguments than its fixed parameters; beyond 16 loops see C67"
  },
  {
   "property": "C58",
   "status": "partial",
   "theorems": [
    "Yasl.C58_reports_difference",
    "Yasl.C58_compiled_not_run",
    "Yasl.C58_wrong_count"
   ],
   "note": "false: reports n - r (proved in general, and that functions written in YASL are not run); that the results replace function and arguments is proved in C58_reports_difference"
  },
  {
   "property": "C59",
   "status": "partial",
   "theorems": [
    "Yasl.C59_globals_partial",
    "Yasl.C59_refused",
    "Yasl.C59_undef_lost",
    "Yasl.C59_unset_reads_end",
    "Yasl.C59_redeclared_const"
   ],
   "note": "proved for every history of up to 2^29 operations (C API and compiled code) over values other than undef; false for undef: a value of another global with the same hash replaces the entry (proved); a declared global never set reads as the internal end value in compiled code (proved)"
  },
  {
   "property": "C60",
   "status": "partial",
   "theorems": [
    "Yasl.C60_history_partial",
    "Yasl.C60_history_pops_partial",
    "Yasl.C60_reachable_kept_partial",
    "Yasl.C60_unreachable_freed_partial",
    "Yasl.C60_cleanup_partial",
    "Yasl.C60_get_uses_freed",
    "Yasl.C60_get_partial"
   ],
   "note": "every history of stack, list and table operations, any aliasing, cycles included; false for an index into a temporary table without __get (a freed value is pushed, proved for every such state) and for list.pop (C61); upvalues, metatables, constants and globals are not in this model"
  },
  {
   "property": "C61",
   "status": "partial",
   "theorems": [
    "Yasl.C61_leaks",
    "Yasl.C61_never_freed",
    "Yasl.C61_uncounted_partial"
   ],
   "note": "false for every counted value (proved: the count stays one too high and the object is never freed); proved for numbers, booleans, undef"
  },
  {
   "property": "C62",
   "status": "partial",
   "theorems": [
    "Yasl.C62_tostr_partial",
    "Yasl.C62_deep_overflow",
    "Yasl.C62_wrong_length_ub"
   ],
   "note": "termination and the text proved for every finite heap, cyclic or not; false for structures deeper than the stack (StackOverflow, proved for every such depth) and for tables whose length is wrong after removing an absent key (out-of-bounds write, proved)"
  },
  {
   "property": "C63",
   "status": "partial",
   "theorems": [
    "Yasl.C63_gcd",
    "Yasl.C63_nonpositive",
    "Yasl.C63_lcm_partial",
    "Yasl.C63_lcm_overflow"
   ],
   "note": "gcd proved in full; lcm false (undefined behaviour) when the product overflows although the lcm fits (proved), proved otherwise"
  },
  {
   "property": "C64",
   "status": "partial",
   "theorems": [
    "Yasl.C64_extreme_doubles",
    "Yasl.C64_extreme_partial",
    "Yasl.C64_max_wrong",
    "Yasl.C64_nan",
    "Yasl.C64_empty"
   ],
   "note": "false for ints beyond 2^53 (proved on a witness); proved for ints up to 2^53 with the language's own >=, and for all numbers as doubles"
  },
  {
   "property": "C65",
   "status": "partial",
   "theorems": [
    "Yasl.C65_echo_partial",
    "Yasl.C65_echo_completes",
    "Yasl.C65_long_string_lost"
   ],
   "note": "false for strings of 2^31 bytes or more (length cut to int, proved for 2^32); proved for all shorter ones"
  },
  {
   "property": "C66",
   "status": "partial",
   "theorems": [
    "Yasl.C66_list",
    "Yasl.C66_list_any_body",
    "Yasl.C66_string_partial",
    "Yasl.C66_string_part_wrong",
    "Yasl.C66_table_partial",
    "Yasl.C66_assignment_revisits"
   ],
   "note": "lists in full, also for bodies that change the list; strings: false for a part of a literal (proved: visits other bytes), proved for the rest; tables: proved when the body leaves the table alone, false when it assigns to present keys (proved: keys visited twice)"
  },
  {
   "property": "C67",
   "status": "partial",
   "theorems": [
    "Yasl.C67_seventeenth_loop",
    "Yasl.C67_recursion",
    "Yasl.C67_loops_partial"
   ],
   "note": "false: the 17th running loop is written out of bounds (proved, also for recursion); proved up to 16"
  },
  {
   "property": "C68",
   "status": "partial",
   "theorems": [
    "Yasl.C68_own_entry_partial",
    "Yasl.C68_set_then_get_partial",
    "Yasl.C68_shadowed",
    "Yasl.C68_metatable"
   ],
   "note": "false for the eleven names of table methods, for every table (proved); proved for all other keys (histories of up to 2^29 assignments)"
  },
  {
   "property": "C69",
   "status": "partial",
   "theorems": [
    "Yasl.C69_clear_leaves_elements",
    "Yasl.C69_clear_small_partial"
   ],
   "note": "false for sets that have grown (proved witness); proved for sets of base size < 60"
  },
  {
   "property": "C70",
   "status": "partial",
   "theorems": [
    "Yasl.C70_is_partial",
    "Yasl.C70_isspace",
    "Yasl.C70_is_nonascii"
   ],
   "note": "ASCII proved; undefined behaviour beyond ASCII (proved)"
  },
  {
   "property": "C72",
   "status": "partial",
   "theorems": [
    "Yasl.C72_isprime_partial",
    "Yasl.C72_negative_prime"
   ],
   "note": "false for negative ints: math.isprime(-59) is true (proved); proved for non-negative ones"
  },
  {
   "property": "C73",
   "status": "proved",
   "theorems": [
    "Yasl.C73_abs_int",
    "Yasl.C73_abs_float",
    "Yasl.C73_toint",
    "Yasl.C73_roundtrip",
    "Yasl.C73_roundtrip_lossy"
   ],
   "note": "undefined behaviour at the range limits is an explicit outcome"
  },
  {
   "property": "C71",
   "status": "proved",
   "theorems": [
    "Yasl.C71_decimal",
    "Yasl.C71_hexadecimal",
    "Yasl.C71_binary",
    "Yasl.C71_accepts_more"
   ],
   "note": ""
  },
  {
   "property": "C74",
   "status": "partial",
   "theorems": [
    "Yasl.C74_float_roundtrip_partial",
    "Yasl.C74_negative_lost",
    "Yasl.C74_small_lost"
   ],
   "note": "false for every negative float (tofloat of its text is NaN, proved) and for small ones; for non-negative finite floats tofloat calls strtod on exactly the text (strtod is not modelled)"
  },
  {
   "property": "C75",
   "status": "proved",
   "theorems": [
    "Yasl.C75_float_text",
    "Yasl.C75_special"
   ],
   "note": "printf(\"%f\") modelled as exact decimal expansion rounded half to even"
  },
  {
   "property": "C76",
   "status": "partial",
   "theorems": [
    "Yasl.C76_parameters_partial",
    "Yasl.C76_repeated_parameter"
   ],
   "note": "false for repeated parameter names, which are accepted; proved for different names"
  },
  {
   "property": "C77",
   "status": "partial",
   "theorems": [
    "Yasl.C77_match_partial",
    "Yasl.C77_no_clause",
    "Yasl.C77_guard_fails",
    "Yasl.C77_last_guard"
   ],
   "note": "false in three ways (proved): no clause taken, guard false on a clause with variables, guard on a last clause with variables; otherwise proved for all clause lists and values"
  },
  {
   "property": "C78",
   "status": "proved",
   "theorems": [
    "Yasl.C78_progress",
    "Yasl.C78_terminates"
   ],
   "note": "every state of the lexer and every byte sequence; the source is in memory (lexinput_new_bb)"
  },
  {
   "property": "C79",
   "status": "partial",
   "theorems": [
    "Yasl.C79_single",
    "Yasl.C79_every_string",
    "Yasl.C79_raw",
    "Yasl.C79_double",
    "Yasl.C79_interp_rest",
    "Yasl.C79_unclosed",
    "Yasl.C79_hex_too_lenient"
   ],
   "note": "proved for all literals of the grammar; false in that \\x also accepts a sign or white space and one digit (proved)"
  },
  {
   "property": "C80",
   "status": "partial",
   "theorems": [
    "Yasl.C80_decimal_partial",
    "Yasl.C80_hex_partial",
    "Yasl.C80_bin_partial",
    "Yasl.C80_value",
    "Yasl.C80_clamped",
    "Yasl.C80_float_partial",
    "Yasl.C80_exponent_partial",
    "Yasl.C80_exponent_swallows"
   ],
   "note": "proved for all numerals below 2^63 and all float literals (the text given to strtod); false from 2^63 on, where every numeral is silently 2^63-1, and for 1.5e, which takes the byte after it, whatever it is (both proved for all such texts)"
  },
  {
   "property": "C81",
   "status": "proved",
   "theorems": [
    "Yasl.C81_longest",
    "Yasl.C81_unknown"
   ],
   "note": "all 61 operators and all continuations, against a table of spellings in Spec/Lexer"
  },
  {
   "property": "C82",
   "status": "proved",
   "theorems": [
    "Yasl.C82_blank",
    "Yasl.C82_newline",
    "Yasl.C82_comment_at_end",
    "Yasl.C82_open_comment"
   ],
   "note": "all layout, as an inductive grammar in Spec/Lexer"
  },
  {
   "property": "C83",
   "status": "proved",
   "theorems": [
    "Yasl.C83_name",
    "Yasl.C83_field",
    "Yasl.C83_keyword",
    "Yasl.C83_bool",
    "Yasl.C83_reserved"
   ],
   "note": "all words; the lists of words are in Spec/Lexer"
  },
  {
   "property": "C84",
   "status": "partial",
   "theorems": [
    "Yasl.C84_lines_partial",
    "Yasl.C84_wrong_line",
    "Yasl.C84_looks_partial",
    "Yasl.C84_look_counterexample"
   ],
   "note": "proved for all texts without errors in which no float literal swallows a line end and no \\x is before one; false there (proved), and after a statement that is just a name: the look ahead of the parser counts the line end twice (exact with any looks ahead)"
  },
  {
   "property": "C85",
   "status": "partial",
   "theorems": [
    "Yasl.C85_terminates_partial",
    "Yasl.C85_match_hangs",
    "Yasl.C85_false"
   ],
   "note": "proved for all texts that do not have both # and match in them; false otherwise: a match with a string with interpolation as a pattern and no further quote hangs (proved for all such texts)"
  },
  {
   "property": "C86",
   "status": "proved",
   "theorems": [
    "Yasl.C86_grammar",
    "Yasl.C86_plain_text",
    "Yasl.C86_bad_token"
   ],
   "note": "the grammar is an inductive definition in Spec/Grammar, written without the parser; strtod and constant folding are parameters; the depth of the C stack is not modelled; that the grammar itself is wrong where the parser has a bug is recorded in C90 and C91"
  },
  {
   "property": "C87",
   "status": "proved",
   "theorems": [
    "Yasl.C87_unambiguous"
   ],
   "note": "all texts, all derivations"
  },
  {
   "property": "C88",
   "status": "proved",
   "theorems": [
    "Yasl.C88_precedence",
    "Yasl.C88_power",
    "Yasl.C88_conditional"
   ],
   "note": "all operands; constant folding (C28) aside"
  },
  {
   "property": "C89",
   "status": "proved",
   "theorems": [
    "Yasl.C89_augmented_variable",
    "Yasl.C89_augmented_element"
   ],
   "note": "the container and the key of an element are evaluated twice"
  },
  {
   "property": "C90",
   "status": "partial",
   "theorems": [
    "Yasl.C90_let_count_partial",
    "Yasl.C90_var_count_partial",
    "Yasl.C90_too_many",
    "Yasl.C90_too_few",
    "Yasl.C90_false"
   ],
   "note": "proved for lists that start with a variable or let and have no expression too many; one expression too many is accepted, and lists that start with an element get one value too few (both proved)"
  },
  {
   "property": "C91",
   "status": "partial",
   "theorems": [
    "Yasl.C91_interpolation_partial",
    "Yasl.C91_extra_token"
   ],
   "note": "proved for all such literals; false in that one further token before } is dropped and } kept (proved for all tokens)"
  },
  {
   "property": "C92",
   "status": "partial",
   "theorems": [
    "Yasl.C92_defined_partial",
    "Yasl.C92_dot_call_ub",
    "Yasl.C92_false"
   ],
   "note": "proved for texts without .; false for x.(f(a)) (proved).  Not counted: for a call without arguments body_last reads children[-1], which is the field children_len, 0, taken for the null pointer"
  },
  {
   "property": "C93",
   "status": "partial",
   "theorems": [
    "Yasl.C93_runs_the_text",
    "Yasl.C93_builds",
    "Yasl.C93_refused",
    "Yasl.C93_same_tree",
    "Yasl.C93_extra_value_counterexample",
    "Yasl.C93_post_counterexample"
   ],
   "note": "proved for all texts of programs without functions, calls, comprehensions, match, export and return, that fit the stack, do not leave blocks with variables by break or continue (C30) and have no constants on which folding goes wrong (C27); composes C86, C87, C27 and C29; container operations and strtod are parameters.  False (proved by counterexamples) for a declaration with one value too many, whose value stays on the stack and takes the place of the next variable, and for a for loop whose third part is an expression, whose value is removed twice"
  },
  {
   "property": "C94",
   "status": "partial",
   "theorems": [
    "Yasl.C94_visits_all",
    "Yasl.C94_host_partial",
    "Yasl.C94_nan_never_ends"
   ],
   "note": "proved for all histories with keys other than undef, NaN and -0.0; with a NaN key the loop never ends (proved)"
  },
  {
   "property": "C95",
   "status": "partial",
   "theorems": [
    "Yasl.C95_host_containers_partial",
    "Yasl.C95_undef_counterexample",
    "Yasl.C95_duplicate_counterexample"
   ],
   "note": "proved for all sequences of at most 2^29 calls, with keys other than undef, NaN, -0.0 and values other than undef set in tables; undef set by the host is counted but not there, and a key behind it can then occur twice in the table (both proved); objects are not freed in this model (C60)"
  },
  {
   "property": "C96",
   "status": "proved",
   "theorems": [
    "Yasl.C96_functions",
    "Yasl.C96_machine_stops",
    "Yasl.C96_leak_counterexample"
   ],
   "note": "from the tree to the image to the run, both directions; conditions in FFitsTop (no capture of local variables of an enclosing function, no break out of a function or over variables, at most 128 variables per frame); not described: foreign function values, several results of a C function where all are taken (a call below return takes them all, C96_leak_counterexample), metamethod __call"
  },
  {
   "property": "C97",
   "status": "proved",
   "theorems": [
    "Yasl.C97_require",
    "Yasl.C97_require_c",
    "Yasl.C97_search",
    "Yasl.C97_no_mark"
   ],
   "note": "the name is taken up to its first NUL byte; C97_no_mark: an entry of a (changed) path without the mark is undefined behaviour, the default paths have none"
  },
  {
   "property": "C98",
   "status": "partial",
   "theorems": [
    "Yasl.C98_modules_partial",
    "Yasl.C98_require_keeps_partial"
   ],
   "note": "real hash-table pool; proved for literals other than NaN and -0.0 (for -0.0 false, see C31) and at most 2^29 of them; modules that end with an error end the program and are left out"
  },
  {
   "property": "C99",
   "status": "proved",
   "theorems": [
    "Yasl.C99_lines",
    "Yasl.C99_read_line",
    "Yasl.C99_end_invisible"
   ],
   "note": "C library modelled by its documented behaviour on regular files, no I/O errors; C99_end_invisible proves that the end cannot be seen"
  },
  {
   "property": "C100",
   "status": "partial",
   "theorems": [
    "Yasl.C100_write",
    "Yasl.C100_round_trip",
    "Yasl.C100_round_trip_clean",
    "Yasl.C100_read_all",
    "Yasl.C100_seek",
    "Yasl.C100_whence",
    "Yasl.C100_write_only_counterexample",
    "Yasl.C100_write_then_read_counterexample"
   ],
   "note": "a string is written up to its first NUL byte only, so the round trip holds for strings without NUL; reading everything from a file opened for writing only returns memory that was never written (proved), reading a line straight after a write on a file opened for both is undefined behaviour (proved)"
  },
  {
   "property": "C101",
   "status": "partial",
   "theorems": [
    "Yasl.C101_open_modes",
    "Yasl.C101_release_partial",
    "Yasl.C101_close_counterexample"
   ],
   "note": "the modes are proved; a file that is not closed by the program is closed once; one that is closed by the program is closed again when it is released (proved for all sequences of calls)"
  },
  {
   "property": "C102",
   "status": "partial",
   "theorems": [
    "Yasl.C102_set_partial",
    "Yasl.C102_list",
    "Yasl.C102_tolist",
    "Yasl.C102_table_partial",
    "Yasl.C102_odd_counterexample",
    "Yasl.C102_duplicate_key"
   ],
   "note": "sets: when the call completes; for values that are equal only if the same; tables: an even number of arguments, the first pair with a key wins, not the last (proved); with an odd number a key is stored with undef (proved)"
  },
  {
   "property": "C103",
   "status": "partial",
   "theorems": [
    "Yasl.C103_set_text",
    "Yasl.C103_history",
    "Yasl.C103_wrong_length"
   ],
   "note": "proved for histories that remove only members; after the removal of an absent value an empty set is printed as se) (proved)"
  },
  {
   "property": "C104",
   "status": "partial",
   "theorems": [
    "Yasl.C104_get",
    "Yasl.C104_set",
    "Yasl.C104_history",
    "Yasl.C104_types",
    "Yasl.C104_host_set",
    "Yasl.C104_host_undef",
    "Yasl.C104_unset_counterexample"
   ],
   "note": "proved for all histories; false for functions, C functions and user pointers, for which mt.get reads memory that was never written (proved); the host cannot remove a metatable with YASL_setmt and undef, although it accepts it (proved)"
  },
  {
   "property": "C105",
   "status": "proved",
   "theorems": [
    "Yasl.C105_binary",
    "Yasl.C105_comparison",
    "Yasl.C105_unary",
    "Yasl.C105_set",
    "Yasl.C105_call_without_self"
   ],
   "note": "stack with room for one more value and fewer than 1000 frames; the call itself is that of C57; an object with __call is called without itself among the arguments (proved)"
  },
  {
   "property": "C106",
   "status": "partial",
   "theorems": [
    "Yasl.C106_runs_the_text",
    "Yasl.C106_execute_stops",
    "Yasl.C106_refused",
    "Yasl.C106_same_tree"
   ],
   "note": "composes C86, C87, C27 and C96, in both directions; the fragment: declarations and assignments of several names at once have no elements of collections among their places and no call filling several of them, no const parameters, comprehensions, match, export, several results of return; what a for with three parts does after a round must be an assignment (for an expression there the code generated pops the value twice); conditions of C96 (FFitsTop) and C27 (SafeFSs)"
  },
  {
   "property": "C107",
   "status": "partial",
   "theorems": [
    "Yasl.C107_programs_with_data",
    "Yasl.C107_execute_stops"
   ],
   "note": "both directions, from the text; the fragment and conditions of C106; entries are removed by `t[k] = undef` and t->remove(k), tables united by | and compared by == (whole, to any depth that is known); not described (nothing claimed): removing a key which is not there (C04) and the eighth removal from one table (C06), keys undef, NaN and -0.0, the order of the entries of a table, copy and clear of tables, slices of and loops over strings (they depend on how the string was made, C44), list.sort, str.tofloat, what is undefined or endless in the string methods (C46-C49, C70), strings of 2 GiB, tables of more than 2^29 entries; objects are never freed in this model (C60) and the stack used inside of an operation is not counted"
  },
  {
   "property": "C108",
   "status": "partial",
   "theorems": [
    "Yasl.C108_call_partial",
    "Yasl.C108_calls_partial",
    "Yasl.C108_round_trip",
    "Yasl.C108_strings",
    "Yasl.C108_pop_counterexample",
    "Yasl.C108_userdata_counterexample",
    "Yasl.C108_message_counterexample"
   ],
   "note": "proved for all sequences of calls with three exceptions, each false as proved by a counterexample: popint, popfloat and popbool leave a value of another type on the stack, although yasl.h says they remove it; peeknuserdata of a value that is no object dereferences it; checknint, checkfloat, checkbool and checktable report the type of the top instead of that of the n-th value.  YASL_isuserptr, YASL_isnuserptr, YASL_peekuserdata and YASL_peekuserptr are declared in yasl.h but defined nowhere"
  },
  {
   "property": "C109",
   "status": "partial",
   "theorems": [
    "Yasl.C109_session_partial",
    "Yasl.C109_locals_stay",
    "Yasl.C109_error_stays",
    "Yasl.C109_refused_declares",
    "Yasl.C109_syntax_error_stays",
    "Yasl.C109_constants"
   ],
   "note": "proved for all sequences of texts of the fragment of C29 that leave nothing behind; false (proved by four counterexamples) after a file with variables at the top level, after a run-time error, after a refused line that declares something, and after a file with a syntax error.  A constant of the prompt stays one whatever is given in between, but for files with syntax errors.  Texts are given as the statements the parser makes (C86)"
  },
  {
   "property": "C110",
   "status": "proved",
   "theorems": [
    "Yasl.C110_reads",
    "Yasl.C110_file_and_memory",
    "Yasl.C110_position",
    "Yasl.C110_byte_255",
    "Yasl.C110_marks_differ"
   ],
   "note": "files that can be sought in, read from their beginning without errors, texts below 2 GiB; the parser's calls: gettok, the looks ahead of isfndecl, isconstfndecl and ismultiassign, and the parts of a string with holes"
  },
  {
   "property": "C111",
   "status": "partial",
   "theorems": [
    "Yasl.C111_programs_partial",
    "Yasl.C111_operand_first",
    "Yasl.C111_operand_counterexample",
    "Yasl.C111_nested_counterexample",
    "Yasl.C111_too_many"
   ],
   "note": "proved for programs with comprehensions at the top level, as the first part of their statement to be evaluated (alone, as left operand, under an index, or as the collection of another comprehension), with at most 800 values; false (proved) as right operand (the variable takes the slot of the left operand), inside of the element of another comprehension (reads below the stack), and with 1022 elements or more (stack overflow)"
  },
  {
   "property": "C112",
   "status": "partial",
   "theorems": [
    "Yasl.C112_text_partial",
    "Yasl.C112_exact",
    "Yasl.C112_accepted_partial",
    "Yasl.C112_refused_partial",
    "Yasl.C112_dead_code",
    "Yasl.C112_counterexample_never",
    "Yasl.C112_counterexample_function",
    "Yasl.C112_counterexample_params"
   ],
   "note": "C112_text_partial: from the text, nothing of it is run; the constructs of C96, functions that use variables of the functions around them included; C112_exact gives the rules of the code exactly; they differ from those of the language in three places, each proved by a counterexample: while false { break } is refused, break in a function that stands in a loop is accepted, two parameters of the same name are accepted"
  },
  {
   "property": "C113",
   "status": "partial",
   "theorems": [
    "Yasl.C113_check_sound",
    "Yasl.C113_check_complete_partial",
    "Yasl.C113_check_counterexample",
    "Yasl.C113_modes",
    "Yasl.C113_prompt_lines",
    "Yasl.C113_prompt_never_ends"
   ],
   "note": "programs of the constructs of C96; what -C accepts is compiled when run; what it refuses is refused when run if the program does not use args (declared too late in main_compile: echo args is refused by -C and runs, proved); the prompt executes all lines up to quit, and never ends at the end of the input (proved for all inputs)"
  },
  {
   "property": "C114",
   "status": "proved",
   "theorems": [
    "Yasl.C114_libraries",
    "Yasl.C114_again"
   ],
   "note": "at most 2^29 assignments to each of the three tables before, four free places on the stack; files are the streams of the C library by name; what the C functions do is C15, C17, C63, C64, C69, C72, C73, C97-C104"
  },
  {
   "property": "C115",
   "status": "proved",
   "theorems": [
    "Yasl.C115_defined",
    "Yasl.C115_tree",
    "Yasl.C115_freed",
    "Yasl.C115_depth"
   ],
   "note": "for sequences of operations that follow the rules of Allowed, which are read off parser.c (who gets a name, which names are shared, which types change into which, bodies are extended only while one pointer refers to them); names of tokens that never get into a node (dropped after a syntax error) are not covered; node_clone is called nowhere"
  },
  {
   "property": "C116",
   "status": "partial",
   "theorems": [
    "Yasl.C116_report_partial",
    "Yasl.C116_report_counterexample"
   ],
   "note": "all histories of Verif.Spec.Calls (C57); false while a running function computes the arguments of a call: this call, which has not been made, is reported too, as proved for every such state; the texts of the messages are not modelled, line numbers are C20"
  },
  {
   "property": "C117",
   "status": "partial",
   "theorems": [
    "Yasl.C117_counts_partial",
    "Yasl.C117_reachable_kept_partial",
    "Yasl.C117_unreachable_freed_partial",
    "Yasl.C117_close_partial",
    "Yasl.C117_cleanup_partial",
    "Yasl.C117_variable_lost_counterexample",
    "Yasl.C117_number_counterexample",
    "Yasl.C117_block_counterexample",
    "Yasl.C117_error_counterexample"
   ],
   "note": "proved for all histories in which no captured variable is lost, that is, no closure is freed that alone held the upvalue of a variable still on the stack, and no variable of a left block is read; false otherwise, as proved: a closure given as an argument and dropped takes the variables it captured with it and leaves a dangling pointer that the end of the function reads; a variable of a left block is used after it was freed; an error inside of a function makes the end of the program free captured variables twice.  Which variable an upvalue belongs to is C35; the rest of the reference counting is C60"
  },
  {
   "property": "C118",
   "status": "partial",
   "theorems": [
    "Yasl.C118_calls",
    "Yasl.C118_delete",
    "Yasl.C118_lost",
    "Yasl.C118_frees_all_partial",
    "Yasl.C118_texts_partial",
    "Yasl.C118_reset_counterexample",
    "Yasl.C118_scopes_counterexample",
    "Yasl.C118_prompt_counterexample",
    "Yasl.C118_constants_counterexample"
   ],
   "note": "exact: which histories use freed memory (a function of a text is called after YASL_resetstate_bb freed its code, as at every prompt), for which YASL_delstate frees a block twice (the code of the last text run, freed by YASL_resetstate_bb and still in vm.headers; the scopes left by two texts that could not be parsed), and how many blocks are never freed (the constants of all runs but the last, code that was overwritten, code made by YASL_compile); values on the stack are C60 and C117, the tree C115"
  },
  {
   "property": "C119",
   "status": "partial",
   "theorems": [
    "Yasl.C119_output",
    "Yasl.C119_errors_partial",
    "Yasl.C119_reset_counterexample",
    "Yasl.C119_hidden_counterexample"
   ],
   "note": "output: proved; errors: exact, but false as stated: YASL_resetstate makes a new lexer that writes to stderr again, so that the compiler's reports for the next text are not captured; the reports of runs cannot be read while a later text is refused"
  },
  {
   "property": "C120",
   "status": "partial",
   "theorems": [
    "Yasl.C120_safe_partial",
    "Yasl.C120_destructor_partial",
    "Yasl.C120_metatable_partial",
    "Yasl.C120_delete_partial",
    "Yasl.C120_cycle_counterexample",
    "Yasl.C120_getmt_counterexample"
   ],
   "note": "proved for all histories in which mt.get is used on objects that something else refers to as well, or whose metatable is a global, registered or built-in one, and for all objects but those held by a cycle; false otherwise, as proved: mt.get on the only reference to an object frees the object and then pushes its freed metatable; a table that is its own metatable, or any other cycle, is never destroyed, not even by YASL_delstate"
  },
  {
   "property": "C121",
   "status": "partial",
   "theorems": [
    "Yasl.C121_only_fn_partial",
    "Yasl.C121_others_partial",
    "Yasl.C121_counterexample"
   ],
   "note": "an expression statement that begins with fn ( is compiled without the pop, so that its value stays on the stack and the variables declared after it are read from the wrong slots: fn() { return 7; }(), let y = 2, echo y prints 7, through the models of parser, compiler and machine; no other statement is a bare expression, and texts without one (on the top level) run as C106 says"
  },
  {
   "property": "C122",
   "status": "partial",
   "theorems": [
    "Yasl.C122_methods_partial",
    "Yasl.C122_copy_noMethod",
    "Yasl.C122_copy_counterexample",
    "Yasl.C122_builtin_counterexample"
   ],
   "note": "proved for all histories and all places but table.copy, which forgets the metatable: len, echo, assignment, operators and missing keys of a copied table are errors, in every state, as proved; the tables that mt.get gives for built-in types have no methods either; programs that give the built-in metatables a metatable and change them are not covered"
  },
  {
   "property": "C123",
   "status": "partial",
   "theorems": [
    "Yasl.C123_negative_counterexample",
    "Yasl.C123_rand_covers_partial",
    "Yasl.C123_rand_wrap_partial",
    "Yasl.C123_small_counterexample"
   ],
   "note": "false as stated: where the result is defined by C it is never negative, since the shifts of signed numbers overflow before they reach the highest bit; every other int is possible where RAND_MAX is at least 65535, and every int with compilers that drop the bits; with the RAND_MAX of 32767 the comment mentions, four bits are always 0"
  },
  {
   "property": "C124",
   "status": "partial",
   "theorems": [
    "Yasl.C124_call_partial",
    "Yasl.C124_mcall_partial",
    "Yasl.C124_argument_counterexample",
    "Yasl.C124_callee_counterexample",
    "Yasl.C96_leak_counterexample"
   ],
   "note": "false as stated: calls inside of the function and the arguments of such a call give several values too: let a, let b = f(g(1), 2, 3) calls f with 1, undef, 2 and let a, let b = h(1)(2) calls undef (both proved by running the compiled code, the first from the text), and return f(x) + 1 likewise; where function and arguments have no calls but in last arguments, and no function literals, only the call itself asks for several values, for all expressions and states of the compiler; that such code runs as written is C106 for one value and not proved for several"
  },
  {
   "property": "C125",
   "status": "partial",
   "theorems": [
    "Yasl.C125_file",
    "Yasl.C125_file_accepted",
    "Yasl.C125_return",
    "Yasl.C125_prompt_partial",
    "Yasl.C125_prompt_accepted",
    "Yasl.C125_counterexample"
   ],
   "note": "proved for texts that are executed as files (accepted texts have every export at the top level, and such exports are never refused) and for return; at the prompt there is no outermost scope, and an export in one block is accepted: if true { export 1; }, as proved from the text; exact there: in no function and in at most one block; which names are refused is a parameter, over which the theorems quantify"
  },
  {
   "property": "C126",
   "status": "proved",
   "theorems": [
    "Yasl.C126_export_value",
    "Yasl.C126_machine_exports",
    "Yasl.C126_no_export"
   ],
   "note": "from the tree to the image to the run, both directions, for a file prog; export e; rest, under the conditions of C96 (and its limits at run time); O_EXPORT is described by FVM.exports (the machine is at the opcode, the value is the top of the stack), as require takes it; the closing of captured variables and the calls of exported functions in the state of the importer are not described"
  }
 ]
}