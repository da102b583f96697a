c("C06","proved","C06_probe_in_bounds C06_probe_injective C06_probe_covers C06_composite_size_misses",
  "for every prime size up to 2^32 (beyond that the product attempt*step wraps in size_t); also shows primality is needed")
c("C17","proved","C17_is_prime_correct C17_next_prime_correct",
  "floor(sqrt((double)x)) is a parameter with sqrt(x) <= b(x) < x")
c("C18","proved","C18_vint_roundtrip C18_vint_next C18_vint_length C18_vint_prefix_free","")
c("C19","partial","C19_bytebuffer_log_partial C19_header_log C19_zero_size_overflow C19_int_roundtrip",
  "false for a buffer created with size 0 (add_byte then writes out of bounds, proved); true for every positive initial size, which is what all written buffers use")
c("C21","proved","C21_eq_symm C21_eq_refl C21_nan_unequal C21_eq_trans C21_eq_cross_type","")
c("C22","partial","C22_mixed_not_transitive C22_mixed_transitive_partial",
  "false beyond 2^53 (proved on a witness); proved for ints up to 2^53 in absolute value and all floats")
c("C23","proved","C23_cmp_zero C23_cmp_lex C23_cmp_antisymm C23_le_trans C23_le_total C23_operators",
  "strings as byte lists; independence of storage is C51")
c("C24","proved","C24_int_order C24_float_order C24_mixed_order C24_coherent C24_trichotomy C24_nan_false","")
c("C25","proved","C25_falsey_iff C25_not C25_int_truthy","")
c("C26","proved","C26_add_sub_mul C26_overflow_ub C26_div_mod C26_div_zero C26_min_div_neg_one C26_bitwise C26_shifts C26_shift_ub",
  "overflow, INT64_MIN // -1 and shift counts outside 0..63 are undefined behaviour in the code, proved as explicit outcomes")

c("C01","partial","C01_assignments_partial C01_nan_key_lost C01_neg_zero_key",
  "proved in full (termination and contents) for histories of up to 2^29 assignments and all keys but NaN and -0.0; false for those (proved)")
c("C02","proved","C02_lookup_correct C02_get_correct","keys other than undef (C09), NaN and -0.0 (C01); unhashable keys included")
c("C03","partial","C03_terminates_partial C03_search_terminates_partial C03_hangs C03_lookup_hangs",
  "false: 31 rounds of assign+remove never end (proved for every fuel); true with at most 7 removals of present keys")
c("C04","partial","C04_len_partial C04_remove_absent_wraps","false when an absent key is removed (length wraps to 2^64-1, proved); proved otherwise")
c("C05","proved","C05_enumeration","")
c("C07","proved","C07_resize_keeps_entries","")
c("C08","proved","C08_unhashable","")
c("C09","partial","C09_undef_key_lost C09_undef_key_breaks_others C09_undef_absent_partial","false: undef is accepted but the value is lost and other keys become unreadable (proved)")
c("C10","partial","C10_clear_partial C10_clear_hangs","contents proved for every later history that completes; termination false: size becomes 30, not prime (proved witness)")
c("C11","proved","C11_union C11_copy C11_union_copy_terminate","")
c("C12","partial","C12_table_eq_partial C12_wrong_after_absent_removal","false after removal of an absent key (proved); proved otherwise")

c("C13","partial","C13_membership C13_length_partial C13_remove_absent_wraps C13_undef_lost","membership and iteration proved for every completed history over values on which == is identity; len false after removal of an absent element or addition of undef (proved), true otherwise")
c("C14","proved","C14_algebra","for every pair of completed histories over values on which == is identity (mixed int/float is C16)")
c("C15","partial","C15_comparisons_partial C15_wrong_after_absent_removal","false after removal of an absent element (proved), proved otherwise")
c("C16","partial","C16_equal_values_two_elements C16_same_type_partial","false across int/float (proved witness); proved within a type")
c("C69","partial","C69_clear_leaves_elements C69_clear_small_partial","false for sets that have grown (proved witness); proved for sets of base size < 60")

c("C36","proved","C36_get C36_pos_lt C36_set","")
c("C37","proved","C37_op_correct C37_history C37_pop_value","any history, any initial capacity (including 0)")
c("C38","proved","C38_reverse C38_reverse_reverse C38_copy C38_concat C38_spread C38_eq","")
c("C39","proved","C39_slice C39_bad_bound","")
c("C42","proved","C42_search C42_count","search returns the index of the LAST equal element, which the property allows")
c("C43","proved","C43_join","the conversion of elements to strings is a parameter")
c("C40","partial","C40_no_out_of_bounds C40_permutation C40_mixed_rejected C40_sorted_strings C40_sorted_numbers_partial C40_sorted_as_doubles C40_nan_unsorted C40_big_int_unsorted",
  "memory safety and permutation for all lists; sortedness proved for strings and NaN-free numbers (ints up to 2^53); false with NaN or larger ints (proved)")
c("C41","partial","C41_diverges C41_fair_terminates_partial","false for an adversarial rand() (proved); proved for every fair rand() stream")

c("C44","partial","C44_index C44_slice_partial C44_slice_crossed C44_slice_offset C44_bad_bound","indexing proved for all strings; slices proved for heap strings with bounds in order; false (proved) for crossed bounds (undefined behaviour) and for views with an offset (wrong bytes)")
c("C45","proved","C45_search","")
c("C46","partial","C46_replace C46_cut_exists_unique C46_replace_empty C46_replace_limit_partial C46_limit_counts_bytes C46_limit_overflow","proved without a limit; with a limit false: every byte counts against it (proved witness)")
c("C47","partial","C47_count_partial C47_count_empty","proved for nonempty needles; never terminates for the empty one (proved)")
c("C48","partial","C48_split_actual C48_split_partial C48_split_loses_bytes C48_split_empty C48_split_default C48_words_exists_unique","split() and one-byte separators proved; false for longer separators (proved; the exact result is C48_split_actual)")
c("C49","partial","C49_ltrim_default C49_rtrim_default C49_trim_default_partial C49_trim_blank C49_ltrim C49_rtrim C49_trim_partial C49_trim_overlap C49_trim_empty","ltrim/rtrim proved; trim undefined on blank strings and overlapping needles, endless on empty needles (proved)")
c("C50","partial","C50_startswith C50_endswith C50_toupper C50_tolower C50_case_idempotent C50_rep_partial C50_rep_empty C50_rep_wraps","all proved except rep when n*len wraps in size_t (false, proved witnesses)")
c("C51","partial","C51_storage_partial C51_iter_offset","proved for the listed methods; false for slices and for-iteration of views with an offset (proved)")
c("C70","partial","C70_is_partial C70_isspace C70_is_nonascii","ASCII proved; undefined behaviour beyond ASCII (proved)")
c("C20","proved","C20_line_lookup C20_reported_line","")
c("C63","partial","C63_gcd C63_nonpositive C63_lcm_partial C63_lcm_overflow",
  "gcd proved in full; lcm false (undefined behaviour) when the product overflows although the lcm fits (proved), proved otherwise")
c("C64","partial","C64_extreme_doubles C64_extreme_partial C64_max_wrong C64_nan C64_empty",
  "false for ints beyond 2^53 (proved on a witness); proved for ints up to 2^53 with the language's own >=, and for all numbers as doubles")
c("C72","partial","C72_isprime_partial C72_negative_prime","false for negative ints: math.isprime(-59) is true (proved); proved for non-negative ones")
c("C73","proved","C73_abs_int C73_abs_float C73_toint C73_roundtrip C73_roundtrip_lossy","undefined behaviour at the range limits is an explicit outcome")
c("C52","proved","C52_int_roundtrip C52_int_text","")
c("C71","proved","C71_decimal C71_hexadecimal C71_binary C71_accepts_more","")
c("C74","partial","C74_float_roundtrip_partial C74_negative_lost C74_small_lost",
  "false for every negative float (tofloat of its text is NaN, proved) and for small ones; for non-negative finite floats tofloat calls strtod on exactly the text (strtod is not modelled)")
c("C75","proved","C75_float_text C75_special","printf(\"%f\") modelled as exact decimal expansion rounded half to even")
c("C65","partial","C65_echo_partial C65_echo_completes C65_long_string_lost","false for strings of 2^31 bytes or more (length cut to int, proved for 2^32); proved for all shorter ones")
c("C27","partial","C27_fold_partial C27_fold_defined_partial C27_identity_folded_wrong C27_not_nan_folded_wrong C27_dead_overflow",
  "false for ===/!== and ! on float constants, and folding dead code can be undefined behaviour (proved witnesses); proved for all other expressions")
c("C28","proved","C28_expression","primitive operations on heap objects (lists, tables, methods, string conversion) are parameters; short-circuit, operators, variables, literals, jumps are the real bytecode")
c("C29","proved","C29_program C29_machine_stops","from source tree to bytes of the image to final output, globals and stack; both directions (meaning to machine, machine to meaning); limits stated as FitsAll")
c("C30","partial","C30_stack_restored_partial C30_break_leaves_variables C30_continue_leaves_variables","false when a variable declared in the loop body is visible at the break/continue (proved on programs); proved otherwise")
c("C31","partial","C31_literals_partial C31_negative_zero C31_negative_zero_alone","real hash-table pool; false for -0.0, which can be conflated with 0.0 (proved witness); proved for all sequences without NaN and -0.0")
c("C32","partial","C32_slots_partial C32_declared C32_high_local C32_accepted C32_program","false beyond 128 locals although 255 are accepted (proved in general and on a program); proved up to 128")
c("C33","proved","C33_innermost C33_upvalue_stays C33_distinct C33_leaving_restores","for every history of blocks, functions, declarations and uses the compiler accepts; upvalues through any number of functions; variables of one block have different names (redeclaration is rejected for let, see C76 for parameters)")
c("C34","proved","C34_constants","locals, variables of enclosing functions and globals, after every accepted history")
c("C76","partial","C76_parameters_partial C76_repeated_parameter","false for repeated parameter names, which are accepted; proved for different names")
c("C35","partial","C35_live_partial C35_in_order_partial C35_file_variable C35_not_shared C35_block C35_early_return","false in four ways, each with a proved history; proved for all histories while the declaring function runs, and for all histories with captures in descending order of slots afterwards too")
c("C53","partial","C53_skip C53_match_partial C53_no_keys_partial C53_missing_key","skipping: proved for all patterns; matching: false for table patterns with a key the table lacks (proved), proved whenever no key is missing, and for all successful matches")
c("C54","partial","C54_match_partial C54_accepted_partial C54_missing_key C54_stale_binding C54_type_key","false in three ways (proved): keyed table pattern on the left of |, variables of a failed alternative, type names as keys; proved for all other accepted patterns, with the exact bindings")
c("C77","partial","C77_match_partial C77_no_clause C77_guard_fails C77_last_guard","false in three ways (proved): no clause taken, guard false on a clause with variables, guard on a last clause with variables; otherwise proved for all clause lists and values")
c("C55","proved","C55_lifo C55_overflow C55_history C55_middle","array of 1024 slots with bounds checks; all histories")
c("C56","partial","C56_not_popped C56_popped_partial","false: a value of another type is not popped (proved for all of them); proved for values of the right type; YASL_popcstr in full")
c("C57","partial","C57_history_partial C57_call_partial C57_variadic_short","all histories of nested calls refine a specification by regions; false (undefined behaviour, proved) when a variadic C function gets fewer arguments than its fixed parameters; beyond 16 loops see C67")
c("C58","partial","C58_reports_difference C58_compiled_not_run C58_wrong_count","false: reports n - r (proved in general, and that functions written in YASL are not run); that the results replace function and arguments is proved in C58_reports_difference")
c("C67","partial","C67_seventeenth_loop C67_recursion C67_loops_partial","false: the 17th running loop is written out of bounds (proved, also for recursion); proved up to 16")

c("C59","partial","C59_globals_partial C59_refused C59_undef_lost C59_unset_reads_end C59_redeclared_const",
  "proved for every history of up to 2^29 operations (C API and compiled code) over values other than undef; false for undef: a value of another global with the same hash replaces the entry (proved); a declared global never set reads as the internal end value in compiled code (proved)")
c("C66","partial","C66_list C66_list_any_body C66_string_partial C66_string_part_wrong C66_table_partial C66_assignment_revisits",
  "lists in full, also for bodies that change the list; strings: false for a part of a literal (proved: visits other bytes), proved for the rest; tables: proved when the body leaves the table alone, false when it assigns to present keys (proved: keys visited twice)")
c("C68","partial","C68_own_entry_partial C68_set_then_get_partial C68_shadowed C68_metatable",
  "false for the eleven names of table methods, for every table (proved); proved for all other keys (histories of up to 2^29 assignments)")
c("C62","partial","C62_tostr_partial C62_deep_overflow C62_wrong_length_ub",
  "termination and the text proved for every finite heap, cyclic or not; false for structures deeper than the stack (StackOverflow, proved for every such depth) and for tables whose length is wrong after removing an absent key (out-of-bounds write, proved)")
c("C60","partial","C60_history_partial C60_history_pops_partial C60_reachable_kept_partial C60_unreachable_freed_partial C60_cleanup_partial C60_get_uses_freed C60_get_partial",
  "every history of stack, list and table operations, any aliasing, cycles included; false for an index into a temporary table without __get (a freed value is pushed, proved for every such state) and for list.pop (C61); upvalues, metatables, constants and globals are not in this model")
c("C61","partial","C61_leaks C61_never_freed C61_uncounted_partial",
  "false for every counted value (proved: the count stays one too high and the object is never freed); proved for numbers, booleans, undef")
c("C78","proved","C78_progress C78_terminates","every state of the lexer and every byte sequence; the source is in memory (lexinput_new_bb)")
c("C79","partial","C79_single C79_every_string C79_raw C79_double C79_interp_rest C79_unclosed C79_hex_too_lenient",
  "proved for all literals of the grammar; false in that \\x also accepts a sign or white space and one digit (proved)")
c("C80","partial","C80_decimal_partial C80_hex_partial C80_bin_partial C80_value C80_clamped C80_float_partial C80_exponent_partial C80_exponent_swallows",
  "proved for all numerals below 2^63 and all float literals (the text given to strtod); false from 2^63 on, where every numeral is silently 2^63-1, and for 1.5e, which takes the byte after it, whatever it is (both proved for all such texts)")
c("C81","proved","C81_longest C81_unknown","all 61 operators and all continuations, against a table of spellings in Spec/Lexer")
c("C82","proved","C82_blank C82_newline C82_comment_at_end C82_open_comment","all layout, as an inductive grammar in Spec/Lexer")
c("C83","proved","C83_name C83_field C83_keyword C83_bool C83_reserved","all words; the lists of words are in Spec/Lexer")
c("C84","partial","C84_lines_partial C84_wrong_line C84_looks_partial C84_look_counterexample","proved for all texts without errors in which no float literal swallows a line end and no \\x is before one; false there (proved), and after a statement that is just a name: the look ahead of the parser counts the line end twice (exact with any looks ahead)")
c("C85","partial","C85_terminates_partial C85_match_hangs C85_false",
  "proved for all texts that do not have both # and match in them; false otherwise: a match with a string with interpolation as a pattern and no further quote hangs (proved for all such texts)")
c("C86","proved","C86_grammar C86_plain_text C86_bad_token","the grammar is an inductive definition in Spec/Grammar, written without the parser; strtod and constant folding are parameters; the depth of the C stack is not modelled; that the grammar itself is wrong where the parser has a bug is recorded in C90 and C91")
c("C87","proved","C87_unambiguous","all texts, all derivations")
c("C88","proved","C88_precedence C88_power C88_conditional","all operands; constant folding (C28) aside")
c("C89","proved","C89_augmented_variable C89_augmented_element","the container and the key of an element are evaluated twice")
c("C90","partial","C90_let_count_partial C90_var_count_partial C90_too_many C90_too_few C90_false",
  "proved for lists that start with a variable or let and have no expression too many; one expression too many is accepted, and lists that start with an element get one value too few (both proved)")
c("C91","partial","C91_interpolation_partial C91_extra_token","proved for all such literals; false in that one further token before } is dropped and } kept (proved for all tokens)")
c("C92","partial","C92_defined_partial C92_dot_call_ub C92_false","proved for texts without .; false for x.(f(a)) (proved).  Not counted: for a call without arguments body_last reads children[-1], which is the field children_len, 0, taken for the null pointer")
c("C93","partial","C93_runs_the_text C93_builds C93_refused C93_same_tree C93_extra_value_counterexample C93_post_counterexample",
  "proved for all texts of programs without functions, calls, comprehensions, match, export and return, that fit the stack, do not leave blocks with variables by break or continue (C30) and have no constants on which folding goes wrong (C27); composes C86, C87, C27 and C29; container operations and strtod are parameters.  False (proved by counterexamples) for a declaration with one value too many, whose value stays on the stack and takes the place of the next variable, and for a for loop whose third part is an expression, whose value is removed twice")
c("C94","partial","C94_visits_all C94_host_partial C94_nan_never_ends",
  "proved for all histories with keys other than undef, NaN and -0.0; with a NaN key the loop never ends (proved)")
c("C95","partial","C95_host_containers_partial C95_undef_counterexample C95_duplicate_counterexample",
  "proved for all sequences of at most 2^29 calls, with keys other than undef, NaN, -0.0 and values other than undef set in tables; undef set by the host is counted but not there, and a key behind it can then occur twice in the table (both proved); objects are not freed in this model (C60)")
c("C96","proved","C96_functions C96_machine_stops C96_leak_counterexample",
  "from the tree to the image to the run, both directions; conditions in FFitsTop (no capture of local variables of an enclosing function, no break out of a function or over variables, at most 128 variables per frame); not described: foreign function values, several results of a C function where all are taken (a call below return takes them all, C96_leak_counterexample), metamethod __call")
c("C97","proved","C97_require C97_require_c C97_search C97_no_mark",
  "the name is taken up to its first NUL byte; C97_no_mark: an entry of a (changed) path without the mark is undefined behaviour, the default paths have none")
c("C98","partial","C98_modules_partial C98_require_keeps_partial",
  "real hash-table pool; proved for literals other than NaN and -0.0 (for -0.0 false, see C31) and at most 2^29 of them; modules that end with an error end the program and are left out")
c("C99","proved","C99_lines C99_read_line C99_end_invisible",
  "C library modelled by its documented behaviour on regular files, no I/O errors; C99_end_invisible proves that the end cannot be seen")
c("C100","partial","C100_write C100_round_trip C100_round_trip_clean C100_read_all C100_seek C100_whence C100_write_only_counterexample C100_write_then_read_counterexample",
  "a string is written up to its first NUL byte only, so the round trip holds for strings without NUL; reading everything from a file opened for writing only returns memory that was never written (proved), reading a line straight after a write on a file opened for both is undefined behaviour (proved)")
c("C101","partial","C101_open_modes C101_release_partial C101_close_counterexample",
  "the modes are proved; a file that is not closed by the program is closed once; one that is closed by the program is closed again when it is released (proved for all sequences of calls)")
c("C102","partial","C102_set_partial C102_list C102_tolist C102_table_partial C102_odd_counterexample C102_duplicate_key",
  "sets: when the call completes; for values that are equal only if the same; tables: an even number of arguments, the first pair with a key wins, not the last (proved); with an odd number a key is stored with undef (proved)")
c("C103","partial","C103_set_text C103_history C103_wrong_length",
  "proved for histories that remove only members; after the removal of an absent value an empty set is printed as se) (proved)")
c("C104","partial","C104_get C104_set C104_history C104_types C104_host_set C104_host_undef C104_unset_counterexample",
  "proved for all histories; false for functions, C functions and user pointers, for which mt.get reads memory that was never written (proved); the host cannot remove a metatable with YASL_setmt and undef, although it accepts it (proved)")
c("C105","proved","C105_binary C105_comparison C105_unary C105_set C105_call_without_self",
  "stack with room for one more value and fewer than 1000 frames; the call itself is that of C57; an object with __call is called without itself among the arguments (proved)")
c("C106","partial","C106_runs_the_text C106_execute_stops C106_refused C106_same_tree",
  "composes C86, C87, C27 and C96, in both directions; the fragment: declarations and assignments of several names at once have no elements of collections among their places and no call filling several of them, no const parameters, comprehensions, match, export, several results of return; what a for with three parts does after a round must be an assignment (for an expression there the code generated pops the value twice); conditions of C96 (FFitsTop) and C27 (SafeFSs)")
c("C107","partial","C107_programs_with_data C107_execute_stops",
  "both directions, from the text; the fragment and conditions of C106; entries are removed by `t[k] = undef` and t->remove(k), tables united by | and compared by == (whole, to any depth that is known); not described (nothing claimed): removing a key which is not there (C04) and the eighth removal from one table (C06), keys undef, NaN and -0.0, the order of the entries of a table, copy and clear of tables, slices of and loops over strings (they depend on how the string was made, C44), list.sort, str.tofloat, what is undefined or endless in the string methods (C46-C49, C70), strings of 2 GiB, tables of more than 2^29 entries; objects are never freed in this model (C60) and the stack used inside of an operation is not counted")
c("C108","partial","C108_call_partial C108_calls_partial C108_round_trip C108_strings C108_pop_counterexample C108_userdata_counterexample C108_message_counterexample",
  "proved for all sequences of calls with three exceptions, each false as proved by a counterexample: popint, popfloat and popbool leave a value of another type on the stack, although yasl.h says they remove it; peeknuserdata of a value that is no object dereferences it; checknint, checkfloat, checkbool and checktable report the type of the top instead of that of the n-th value.  YASL_isuserptr, YASL_isnuserptr, YASL_peekuserdata and YASL_peekuserptr are declared in yasl.h but defined nowhere")

c("C109","partial","C109_session_partial C109_locals_stay C109_error_stays C109_refused_declares C109_syntax_error_stays C109_constants",
  "proved for all sequences of texts of the fragment of C29 that leave nothing behind; false (proved by four counterexamples) after a file with variables at the top level, after a run-time error, after a refused line that declares something, and after a file with a syntax error.  A constant of the prompt stays one whatever is given in between, but for files with syntax errors.  Texts are given as the statements the parser makes (C86)")
c("C110","proved","C110_reads C110_file_and_memory C110_position C110_byte_255 C110_marks_differ",
  "files that can be sought in, read from their beginning without errors, texts below 2 GiB; the parser's calls: gettok, the looks ahead of isfndecl, isconstfndecl and ismultiassign, and the parts of a string with holes")
c("C111","partial","C111_programs_partial C111_operand_first C111_operand_counterexample C111_nested_counterexample C111_too_many",
  "proved for programs with comprehensions at the top level, as the first part of their statement to be evaluated (alone, as left operand, under an index, or as the collection of another comprehension), with at most 800 values; false (proved) as right operand (the variable takes the slot of the left operand), inside of the element of another comprehension (reads below the stack), and with 1022 elements or more (stack overflow)")
c("C112","partial","C112_text_partial C112_exact C112_accepted_partial C112_refused_partial C112_dead_code C112_counterexample_never C112_counterexample_function C112_counterexample_params",
  "C112_text_partial: from the text, nothing of it is run; the constructs of C96, functions that use variables of the functions around them included; C112_exact gives the rules of the code exactly; they differ from those of the language in three places, each proved by a counterexample: while false { break } is refused, break in a function that stands in a loop is accepted, two parameters of the same name are accepted")
c("C113","partial","C113_check_sound C113_check_complete_partial C113_check_counterexample C113_modes C113_prompt_lines C113_prompt_never_ends",
  "programs of the constructs of C96; what -C accepts is compiled when run; what it refuses is refused when run if the program does not use args (declared too late in main_compile: echo args is refused by -C and runs, proved); the prompt executes all lines up to quit, and never ends at the end of the input (proved for all inputs)")
c("C114","proved","C114_libraries C114_again",
  "at most 2^29 assignments to each of the three tables before, four free places on the stack; files are the streams of the C library by name; what the C functions do is C15, C17, C63, C64, C69, C72, C73, C97-C104")
c("C115","proved","C115_defined C115_tree C115_freed C115_depth",
  "for sequences of operations that follow the rules of Allowed, which are read off parser.c (who gets a name, which names are shared, which types change into which, bodies are extended only while one pointer refers to them); names of tokens that never get into a node (dropped after a syntax error) are not covered; node_clone is called nowhere")
c("C116","partial","C116_report_partial C116_report_counterexample",
  "all histories of Verif.Spec.Calls (C57); false while a running function computes the arguments of a call: this call, which has not been made, is reported too, as proved for every such state; the texts of the messages are not modelled, line numbers are C20")
c("C117","partial","C117_counts_partial C117_reachable_kept_partial C117_unreachable_freed_partial C117_close_partial C117_cleanup_partial C117_variable_lost_counterexample C117_number_counterexample C117_block_counterexample C117_error_counterexample",
  "proved for all histories in which no captured variable is lost, that is, no closure is freed that alone held the upvalue of a variable still on the stack, and no variable of a left block is read; false otherwise, as proved: a closure given as an argument and dropped takes the variables it captured with it and leaves a dangling pointer that the end of the function reads; a variable of a left block is used after it was freed; an error inside of a function makes the end of the program free captured variables twice.  Which variable an upvalue belongs to is C35; the rest of the reference counting is C60")
c("C118","partial","C118_calls C118_delete C118_lost C118_frees_all_partial C118_texts_partial C118_reset_counterexample C118_scopes_counterexample C118_prompt_counterexample C118_constants_counterexample",
  "exact: which histories use freed memory (a function of a text is called after YASL_resetstate_bb freed its code, as at every prompt), for which YASL_delstate frees a block twice (the code of the last text run, freed by YASL_resetstate_bb and still in vm.headers; the scopes left by two texts that could not be parsed), and how many blocks are never freed (the constants of all runs but the last, code that was overwritten, code made by YASL_compile); values on the stack are C60 and C117, the tree C115")
c("C119","partial","C119_output C119_errors_partial C119_reset_counterexample C119_hidden_counterexample",
  "output: proved; errors: exact, but false as stated: YASL_resetstate makes a new lexer that writes to stderr again, so that the compiler's reports for the next text are not captured; the reports of runs cannot be read while a later text is refused")
c("C120","partial","C120_safe_partial C120_destructor_partial C120_metatable_partial C120_delete_partial C120_cycle_counterexample C120_getmt_counterexample",
  "proved for all histories in which mt.get is used on objects that something else refers to as well, or whose metatable is a global, registered or built-in one, and for all objects but those held by a cycle; false otherwise, as proved: mt.get on the only reference to an object frees the object and then pushes its freed metatable; a table that is its own metatable, or any other cycle, is never destroyed, not even by YASL_delstate")
c("C121","partial","C121_only_fn_partial C121_others_partial C121_counterexample",
  "an expression statement that begins with fn ( is compiled without the pop, so that its value stays on the stack and the variables declared after it are read from the wrong slots: fn() { return 7; }(), let y = 2, echo y prints 7, through the models of parser, compiler and machine; no other statement is a bare expression, and texts without one (on the top level) run as C106 says")
c("C122","partial","C122_methods_partial C122_copy_noMethod C122_copy_counterexample C122_builtin_counterexample",
  "proved for all histories and all places but table.copy, which forgets the metatable: len, echo, assignment, operators and missing keys of a copied table are errors, in every state, as proved; the tables that mt.get gives for built-in types have no methods either; programs that give the built-in metatables a metatable and change them are not covered")
c("C123","partial","C123_negative_counterexample C123_rand_covers_partial C123_rand_wrap_partial C123_small_counterexample",
  "false as stated: where the result is defined by C it is never negative, since the shifts of signed numbers overflow before they reach the highest bit; every other int is possible where RAND_MAX is at least 65535, and every int with compilers that drop the bits; with the RAND_MAX of 32767 the comment mentions, four bits are always 0")
c("C124","partial","C124_call_partial C124_mcall_partial C124_argument_counterexample C124_callee_counterexample C96_leak_counterexample",
  "false as stated: calls inside of the function and the arguments of such a call give several values too: let a, let b = f(g(1), 2, 3) calls f with 1, undef, 2 and let a, let b = h(1)(2) calls undef (both proved by running the compiled code, the first from the text), and return f(x) + 1 likewise; where function and arguments have no calls but in last arguments, and no function literals, only the call itself asks for several values, for all expressions and states of the compiler; that such code runs as written is C106 for one value and not proved for several")
c("C125","partial","C125_file C125_file_accepted C125_return C125_prompt_partial C125_prompt_accepted C125_counterexample",
  "proved for texts that are executed as files (accepted texts have every export at the top level, and such exports are never refused) and for return; at the prompt there is no outermost scope, and an export in one block is accepted: if true { export 1; }, as proved from the text; exact there: in no function and in at most one block; which names are refused is a parameter, over which the theorems quantify")
c("C126","proved","C126_export_value C126_machine_exports C126_no_export",
  "from the tree to the image to the run, both directions, for a file prog; export e; rest, under the conditions of C96 (and its limits at run time); O_EXPORT is described by FVM.exports (the machine is at the opcode, the value is the top of the stack), as require takes it; the closing of captured variables and the calls of exported functions in the state of the importer are not described")
