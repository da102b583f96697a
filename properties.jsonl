{"id": "C01", "title": "Tables behave as maps under any history of assignments", "statement": "After any finite sequence of assignments t[k]=v (k hashable, not undef; v not undef), every assignment terminates, and t[k] reads the most recently assigned value for k, and reports absence for a key never assigned, however many times the table was resized in between.", "quantifier": "all finite sequences of assignments, all hashable keys and values, all lookup keys", "why_tests_cant": "Depends on every collision pattern of the double hash and on every resize point; tests sample a few keys.", "anchors": ["data-structures/YASL_Table.c:YASL_Table_insert", "data-structures/YASL_Table.c:YASL_Table_insert_fast", "data-structures/YASL_Table.c:YASL_Table_search", "data-structures/YASL_Table.c:YASL_Table_getindex", "data-structures/YASL_Table.c:table_resize_up"]}
{"id": "C02", "title": "Tables behave as maps under any history of assignments and removals that completes", "statement": "For any interleaving of assignments and removals which completes, every lookup that completes returns the value of the last assignment to that key not followed by a removal, or absence.", "quantifier": "all finite sequences of assignments/removals, all lookup keys", "why_tests_cant": "Tombstones, resizes down and up interleave arbitrarily.", "anchors": ["data-structures/YASL_Table.c:YASL_Table_insert", "data-structures/YASL_Table.c:YASL_Table_rm", "data-structures/YASL_Table.c:YASL_Table_search", "data-structures/YASL_Table.c:table_resize_down"]}
{"id": "C03", "title": "No sequence of table operations hangs", "statement": "Every insertion, removal and lookup on a table terminates, whatever operations preceded it.", "quantifier": "all finite operation histories", "why_tests_cant": "Non-termination after a particular history is invisible to tests that do not contain that history.", "anchors": ["data-structures/YASL_Table.c:YASL_Table_getindex", "data-structures/YASL_Table.c:YASL_Table_search", "data-structures/YASL_Table.c:YASL_Table_rm"]}
{"id": "C04", "title": "len of a table is its number of keys", "statement": "After any history, len t equals the number of distinct keys currently present in t.", "quantifier": "all finite operation histories", "why_tests_cant": "The counter is maintained incrementally along every path.", "anchors": ["data-structures/YASL_Table.c:YASL_Table_length", "data-structures/YASL_Table.c:YASL_Table_insert_fast", "data-structures/YASL_Table.c:YASL_Table_rm", "interpreter/table_methods.c:table___len", "interpreter/table_methods.c:table_remove"]}
{"id": "C05", "title": "Iterating, keys() and values() enumerate every entry exactly once", "statement": "The list of keys returned by keys() (and visited by for-iteration) contains each present key exactly once and nothing else, and values() gives the value of each in the same order.", "quantifier": "all table histories", "why_tests_cant": "Depends on all slot layouts.", "anchors": ["interpreter/table_methods.c:table_keys", "interpreter/table_methods.c:table_values", "interpreter/VM.c:vm_ITER_1", "data-structures/YASL_Table.h:FOR_TABLE"]}
{"id": "C06", "title": "Probing reaches every slot", "statement": "For every hashable key and every prime table size, the first `size` probes visit each slot of the table exactly once and every probe is in bounds.", "quantifier": "all keys, all prime sizes", "why_tests_cant": "Infinitely many keys and sizes.", "anchors": ["util/hash_function.c:get_hash", "util/hash_function.c:hash_function"]}
{"id": "C07", "title": "Growing or shrinking a table never changes its contents", "statement": "The automatic resize triggered by insertion or removal preserves exactly the set of key/value pairs.", "quantifier": "all reachable tables", "why_tests_cant": "Every resize point of every history.", "anchors": ["data-structures/YASL_Table.c:table_resize", "data-structures/YASL_Table.c:table_resize_up", "data-structures/YASL_Table.c:table_resize_down"]}
{"id": "C08", "title": "Unhashable keys are rejected without side effects", "statement": "Assigning or removing with a list, table, function or userdata key leaves the table unchanged; assignment reports a type error; lookup reports absence.", "quantifier": "all tables and all unhashable keys", "why_tests_cant": "All table states.", "anchors": ["data-structures/YASL_Table.c:YASL_Table_insert", "data-structures/YASL_Table.c:YASL_Table_search", "data-structures/YASL_Table.c:YASL_Table_rm", "interpreter/YASL_Object.c:ishashable"]}
{"id": "C09", "title": "undef as a key", "statement": "undef is accepted as a key; storing under undef and reading undef back returns the stored value and other keys are unaffected.", "quantifier": "all tables", "why_tests_cant": "A corrupted probe chain shows only for particular collisions.", "anchors": ["data-structures/YASL_Table.c:YASL_Table_insert_fast", "data-structures/YASL_Table.c:YASL_Table_search", "data-structures/YASL_Table.c:YASL_Table_getindex"]}
{"id": "C10", "title": "clear empties a table and leaves it fully usable", "statement": "After t.clear() every lookup reports absence, len is 0 and any subsequent history behaves as on a fresh table.", "quantifier": "all tables, all later histories", "why_tests_cant": "The failure needs a particular key set after clear.", "anchors": ["interpreter/table_methods.c:table_clear"]}
{"id": "C11", "title": "Table union and copy", "statement": "(a | b)[k] is b[k] if present in b, else a[k]; a.copy() has exactly the entries of a; both leave the operands unchanged.", "quantifier": "all pairs of reachable tables, all keys", "why_tests_cant": "All layouts.", "anchors": ["interpreter/table_methods.c:table___bor", "interpreter/table_methods.c:table_copy"]}
{"id": "C12", "title": "Table equality is extensional", "statement": "a == b on tables with primitive values is true exactly when both have the same keys and pairwise equal values, independent of insertion order.", "quantifier": "all pairs of reachable tables", "why_tests_cant": "Order independence quantifies over permutations.", "anchors": ["interpreter/table_methods.c:table___eq"]}
{"id": "C13", "title": "Sets behave as mathematical sets under add and remove", "statement": "After any completed history of add/remove on a collections.set, membership of x is true iff the last operation on x was add; len counts distinct members.", "quantifier": "all histories, all elements of one type", "why_tests_cant": "As C01/C02.", "anchors": ["data-structures/YASL_Set.c:YASL_Set_insert", "data-structures/YASL_Set.c:YASL_Set_search", "data-structures/YASL_Set.c:YASL_Set_rm"]}
{"id": "C14", "title": "Set algebra", "statement": "x in (a|b), (a&b), (a^b), (a&^b) iff the corresponding boolean combination of x in a and x in b; operands unchanged.", "quantifier": "all pairs of reachable sets, all elements", "why_tests_cant": "All layouts.", "anchors": ["data-structures/YASL_Set.c:YASL_Set_union", "data-structures/YASL_Set.c:YASL_Set_intersection", "data-structures/YASL_Set.c:YASL_Set_symmetric_difference", "data-structures/YASL_Set.c:YASL_Set_difference"]}
{"id": "C15", "title": "Set comparison operators are subset relations", "statement": "a == b, a <= b, a < b, a >= b, a > b decide set equality / inclusion / strict inclusion.", "quantifier": "all pairs of reachable sets", "why_tests_cant": "All layouts.", "anchors": ["std/yasl-std-collections.c:YASL_collections_set___eq", "std/yasl-std-collections.c:YASL_collections_set___le"]}
{"id": "C16", "title": "Equal values are the same set element / table key regardless of type", "statement": "For a set, adding x and then y with x == y leaves one element (e.g. 1 and 1.0).", "quantifier": "all values", "why_tests_cant": "Depends on hash of both representations.", "anchors": ["data-structures/YASL_Set.c:YASL_Set_insert", "interpreter/YASL_Object.c:isequal", "util/hash_function.c:hash_function"]}
{"id": "C17", "title": "math.isprime decides primality; table sizes are prime", "statement": "is_prime(x) is true iff x is prime; next_prime(x) is the least prime >= x.", "quantifier": "all x in the 64-bit range (given the C library sqrt bound)", "why_tests_cant": "2^64 inputs.", "anchors": ["util/prime.c:is_prime", "util/prime.c:next_prime", "std/yasl-std-math.c:YASL_math_isprime"]}
{"id": "C18", "title": "Variable-width integers round-trip", "statement": "Decoding the encoding of any size_t returns it, for any bytes that follow; skipping advances past exactly the encoding; the encoding fits the 12-byte buffer.", "quantifier": "all 64-bit values, all suffixes", "why_tests_cant": "2^64 values.", "anchors": ["util/varint.c:vint_encode", "util/varint.c:vint_decode", "util/varint.c:vint_next"]}
{"id": "C19", "title": "Byte buffers are append-only logs without overflow", "statement": "After any sequence of appends the buffer's bytes are the concatenation of what was appended and no write is out of bounds; back-patching changes exactly the eight bytes addressed.", "quantifier": "all sequences of buffer operations", "why_tests_cant": "All growth points.", "anchors": ["data-structures/YASL_ByteBuffer.c:YASL_ByteBuffer_extend", "data-structures/YASL_ByteBuffer.c:YASL_ByteBuffer_add_byte", "data-structures/YASL_ByteBuffer.c:YASL_ByteBuffer_add_vint", "data-structures/YASL_ByteBuffer.c:YASL_ByteBuffer_rewrite_int_fast"]}
{"id": "C20", "title": "Error line numbers", "statement": "For any line table written by the compiler (nondecreasing code offsets) the line reported for a code offset is the number of recorded line ends strictly before it.", "quantifier": "all line tables, all offsets", "why_tests_cant": "All programs.", "anchors": ["interpreter/VM.c:vm_getcurrline"]}
{"id": "C21", "title": "== is an equivalence on non-NaN values of one type; NaN equals nothing", "statement": "== is symmetric always, reflexive except on NaN, and transitive within ints, floats, strings, bools, undef, userptrs.", "quantifier": "all values", "why_tests_cant": "Infinite domain.", "anchors": ["interpreter/YASL_Object.c:isequal"]}
{"id": "C22", "title": "Mixed int/float equality is transitive", "statement": "a == b and b == c imply a == c for all numbers.", "quantifier": "all numbers", "why_tests_cant": "Only fails beyond 2^53.", "anchors": ["interpreter/YASL_Object.c:isequal"]}
{"id": "C23", "title": "String ordering is a total lexicographic byte order", "statement": "The comparison used by < <= > >= == and sort on strings is antisymmetric, transitive, total, equals byte-wise lexicographic order and is 0 exactly for equal contents, independent of how each string is stored.", "quantifier": "all pairs/triples of strings", "why_tests_cant": "Infinite domain.", "anchors": ["data-structures/YASL_String.c:YASL_String_cmp"]}
{"id": "C24", "title": "Numeric comparison operators are coherent", "statement": "For ints exactly one of <, ==, > holds and they agree with mathematical order; a<=b iff a<b or a==b; for floats without NaN likewise; any comparison with NaN is false.", "quantifier": "all numbers", "why_tests_cant": "Infinite domain.", "anchors": ["interpreter/VM.c:DEFINE_COMP", "interpreter/VM.h:COMP"]}
{"id": "C25", "title": "Falsiness", "statement": "Exactly undef, false, the empty string and NaN are falsey; ! returns the boolean of that; every int including 0 is truthy.", "quantifier": "all values", "why_tests_cant": "Infinite domain.", "anchors": ["interpreter/YASL_Object.c:isfalsey", "interpreter/VM.c:O_NOT"]}
{"id": "C26", "title": "Integer arithmetic", "statement": "+,-,* return the exact result whenever it fits in 64 bits; a//b and a%b satisfy a == (a//b)*b + a%b with |a%b| < |b|; // and % by zero raise DivisionByZero; &,|,^,&^,~ act bitwise; << and >> by 0..63.", "quantifier": "all pairs of ints", "why_tests_cant": "2^128 inputs.", "anchors": ["interpreter/VM.c:vm_int_binop", "interpreter/VM.c:vm_num_binop", "interpreter/VM.c:O_IDIV", "interpreter/VM.c:O_MOD"]}
{"id": "C27", "title": "Constant folding preserves meaning", "statement": "Evaluating an expression after compile-time constant folding gives the same value or the same error as evaluating it without folding.", "quantifier": "all expressions, all environments", "why_tests_cant": "All expression trees.", "anchors": ["compiler/middleend.c:fold_BinOp", "compiler/middleend.c:fold_UnOp", "compiler/middleend.c:fold"]}
{"id": "C28", "title": "Compiled expressions compute the value of the source expression", "statement": "Running the bytecode generated for an expression pushes exactly the value given by the language's evaluation rules (including short-circuit of && || ?? and ?:) on top of an otherwise unchanged stack, and continues right after the generated code; errors raised are the same.", "quantifier": "all expressions over literals, locals, globals, operators; all stacks; any code before and after", "why_tests_cant": "All program trees.", "anchors": ["compiler/compiler.c:visit_BinOp", "compiler/compiler.c:visit_TriOp", "compiler/compiler.c:visit_UnOp", "interpreter/VM.c:vm_executenext"]}
{"id": "C29", "title": "Compiled statements execute as written", "statement": "Running the bytecode of if/else, while loops, blocks, let/assignment and echo has the effect of the source-level semantics on variables and output and leaves the stack as it was apart from declared locals.", "quantifier": "all programs of the modelled statements that stay within the machine's limits: at most 128 locals at a time (C32 is about more), a stack need of at most 1024, and break/continue only where no variable declared since the start of the loop body is visible (C30 is about the others)", "why_tests_cant": "All program trees and loop counts.", "anchors": ["compiler/compiler.c:visit_If", "compiler/compiler.c:visit_While", "compiler/compiler.c:visit_Block", "compiler/compiler.c:visit_Assign"]}
{"id": "C30", "title": "break and continue leave variables intact", "statement": "Leaving or continuing a loop from inside a block restores the stack to its height at loop entry so later variables keep their values.", "quantifier": "all loop bodies", "why_tests_cant": "Depends on locals declared before the break.", "anchors": ["compiler/compiler.c:visit_Break", "compiler/compiler.c:visit_Continue", "compiler/compiler.c:exit_scope"]}
{"id": "C31", "title": "Literals survive compilation", "statement": "The value loaded at run time for a literal is the literal: interning any sequence of strings, ints and floats gives indices whose decoded constants equal what was interned, and equal literals share an index.", "quantifier": "all sequences of literals", "why_tests_cant": "All pools, all sizes, all byte values.", "anchors": ["compiler/compiler.c:compiler_intern_int", "compiler/compiler.c:compiler_intern_string", "compiler/compiler.c:compiler_intern_float", "interpreter/VM.c:vm_setupconstants", "compiler/compiler.c:compiler_add_literal"]}
{"id": "C32", "title": "Every local variable has its own slot", "statement": "With any number of locals the compiler accepts in one function, reading a variable returns the last value stored in that variable, and storing affects no other variable.", "quantifier": "all numbers of locals, all variables", "why_tests_cant": "Only fails with many locals.", "anchors": ["compiler/compiler.c:decl_var", "compiler/compiler.c:load_var_local", "compiler/compiler.c:store_var_cur_scope", "interpreter/VM.c:O_LLOAD", "interpreter/VM.c:O_LSTORE"]}
{"id": "C33", "title": "Names resolve to the innermost enclosing declaration", "statement": "A name refers to the most recent declaration in the innermost enclosing scope; leaving a scope restores the previous meaning; distinct visible locals have distinct indices.", "quantifier": "all nesting structures and declaration sequences", "why_tests_cant": "All programs.", "anchors": ["compiler/env.c:scope_get", "compiler/env.c:scope_decl_var", "compiler/env.c:scope_len", "compiler/env.c:scope_contains", "compiler/compiler.c:exit_scope"]}
{"id": "C34", "title": "Constants cannot be reassigned", "statement": "An assignment to a variable declared const is rejected at compile time wherever it is written, and one to a let variable is not rejected for that reason.", "quantifier": "all scopes and nestings", "why_tests_cant": "All programs.", "anchors": ["compiler/env.c:scope_make_const", "compiler/compiler.c:store_var", "compiler/compiler.c:store_var_cur_scope"]}
{"id": "C35", "title": "Closures capturing the same variable share it", "statement": "Two closures that capture the same variable observe each other's writes, before and after the declaring function returns.", "quantifier": "all orders of capture, all sets of captured variables", "why_tests_cant": "Depends on capture order.", "anchors": ["interpreter/VM.c:add_upvalue", "interpreter/VM.c:vm_close_all_helper", "interpreter/upvalue.c:upval_close"]}
{"id": "C36", "title": "List indexing", "statement": "ls[i] for -n <= i < n returns element i mod n and ls[i]=v changes exactly that element; any other index raises ValueError and changes nothing.", "quantifier": "all lists, all 64-bit indices", "why_tests_cant": "All lengths and indices.", "anchors": ["interpreter/list_methods.c:list___get_helper", "interpreter/list_methods.c:list___set"]}
{"id": "C37", "title": "List push, pop, insert, clear", "statement": "push appends, pop removes and returns the last, insert at i shifts the tail, all for any capacity; out-of-range insert and pop of empty raise ValueError and change nothing; no operation reads or writes outside the allocation.", "quantifier": "all operation sequences", "why_tests_cant": "All growth points.", "anchors": ["data-structures/YASL_List.c:YASL_List_append", "data-structures/YASL_List.c:YASL_List_insert", "interpreter/list_methods.c:list_pop", "interpreter/list_methods.c:list_insert", "interpreter/list_methods.c:list_clear"]}
{"id": "C38", "title": "List reverse, copy and concatenation", "statement": "reverse reverses in place (twice is identity); copy gives an equal, independent list; a + b has the elements of a then b and leaves both unchanged.", "quantifier": "all lists", "why_tests_cant": "All lengths.", "anchors": ["data-structures/YASL_List.c:YASL_reverse", "interpreter/list_methods.c:list_copy", "interpreter/list_methods.c:list_concat"]}
{"id": "C39", "title": "List slices", "statement": "ls[a:b] never fails or reads out of bounds for any ints a,b and returns the elements with index in [max(0,a'),min(n,b')) where negatives count from the end.", "quantifier": "all lists, all 64-bit bounds", "why_tests_cant": "All bounds.", "anchors": ["interpreter/VM.c:vm_SLICE_list"]}
{"id": "C40", "title": "list.sort sorts", "statement": "When sort returns, the list is a permutation of the original in nondecreasing order, whatever pivots rand() chooses; lists of mixed or other types raise ValueError unchanged.", "quantifier": "all lists of numbers or strings, all rand() outcomes", "why_tests_cant": "n! permutations times all pivot choices.", "anchors": ["interpreter/list_methods.c:sort", "interpreter/list_methods.c:list_sort", "interpreter/YASL_Object.c:yasl_object_cmp"]}
{"id": "C41", "title": "list.sort terminates", "statement": "sort terminates for every list and every sequence of rand() values.", "quantifier": "all lists, all rand() outcomes", "why_tests_cant": "Adversarial pivots are never drawn in tests.", "anchors": ["interpreter/list_methods.c:sort"]}
{"id": "C42", "title": "list.search and list.count", "statement": "search returns the index of an equal element or undef when none; count returns the number of equal elements.", "quantifier": "all lists and needles", "why_tests_cant": "All lists.", "anchors": ["interpreter/list_methods.c:list_search", "interpreter/list_methods.c:list_count"]}
{"id": "C43", "title": "list.join", "statement": "join concatenates the string forms of the elements with the separator between them, for any sizes.", "quantifier": "all lists and separators", "why_tests_cant": "All buffer growth points.", "anchors": ["interpreter/list_methods.c:list_join"]}
{"id": "C44", "title": "String slices and indexing", "statement": "s[a:b] returns the bytes with index in [a',b') for all int bounds (empty if none) without memory errors; s[i] the byte at i mod n or ValueError.", "quantifier": "all strings (heap or literal, any offset), all 64-bit bounds", "why_tests_cant": "All bounds and representations.", "anchors": ["interpreter/VM.c:vm_SLICE_str", "interpreter/str_methods.c:str___get", "data-structures/YASL_String.c:YASL_String_new_substring"]}
{"id": "C45", "title": "String search finds the first occurrence", "statement": "s.search(t) is the least i with s[i:i+len t]==t, or undef when there is none.", "quantifier": "all strings", "why_tests_cant": "All strings.", "anchors": ["data-structures/YASL_String.c:str_find_index", "interpreter/str_methods.c:str_search"]}
{"id": "C46", "title": "String replace", "statement": "s.replace(a,b) replaces exactly the leftmost non-overlapping occurrences of a; with a limit, exactly the first `limit` of them.", "quantifier": "all strings, all limits", "why_tests_cant": "All occurrence patterns.", "anchors": ["data-structures/YASL_String.c:YASL_String_replace_fast_default", "data-structures/YASL_String.c:YASL_String_replace_fast"]}
{"id": "C47", "title": "String count", "statement": "s.count(t) is the number of leftmost non-overlapping occurrences and terminates.", "quantifier": "all strings", "why_tests_cant": "All occurrence patterns.", "anchors": ["data-structures/YASL_String.c:YASL_String_count"]}
{"id": "C48", "title": "split is undone by join", "statement": "For nonempty sep, joining s.split(sep) with sep gives s and no piece contains sep; s.split() gives the maximal whitespace-free runs in order.", "quantifier": "all strings and separators", "why_tests_cant": "All occurrence patterns.", "anchors": ["data-structures/YASL_String.c:YASL_String_split_fast", "data-structures/YASL_String.c:YASL_String_split_default"]}
{"id": "C49", "title": "trim, ltrim, rtrim", "statement": "ltrim/rtrim/trim (default) return the string without its leading/trailing whitespace, and with an argument without leading/trailing repetitions of it; always terminates without memory errors.", "quantifier": "all strings and needles", "why_tests_cant": "All whitespace/needle layouts.", "anchors": ["data-structures/YASL_String.c:YASL_String_trim_default", "data-structures/YASL_String.c:YASL_String_trim", "data-structures/YASL_String.c:YASL_String_ltrim", "data-structures/YASL_String.c:YASL_String_rtrim"]}
{"id": "C50", "title": "startswith, endswith, rep, toupper, tolower", "statement": "startswith/endswith decide prefix/suffix; rep(n) is n-fold concatenation; toupper/tolower change exactly ASCII letters and are idempotent, length preserving.", "quantifier": "all strings", "why_tests_cant": "All strings.", "anchors": ["data-structures/YASL_String.c:YASL_String_startswith", "data-structures/YASL_String.c:YASL_String_endswith", "data-structures/YASL_String.c:YASL_String_rep_fast", "data-structures/YASL_String.c:DEFINE_STR_TO_X"]}
{"id": "C51", "title": "Strings do not depend on their storage", "statement": "Every string method gives the same result for a literal-backed view and for a heap copy with the same bytes.", "quantifier": "all strings, all offsets", "why_tests_cant": "All offsets.", "anchors": ["data-structures/YASL_String.c:YASL_String_new_substring", "data-structures/YASL_String.c:YASL_String_chars"]}
{"id": "C52", "title": "Integers survive tostr/toint", "statement": "i.tostr().toint() == i for every int.", "quantifier": "all 64-bit ints", "why_tests_cant": "2^64 values.", "anchors": ["interpreter/int_methods.c:int_tostr", "data-structures/YASL_String.c:YASL_String_toint", "data-structures/YASL_String.c:parseint64"]}
{"id": "C53", "title": "Skipping a pattern consumes exactly that pattern", "statement": "Whether a compiled pattern matches or not, and whether it is matched or skipped, exactly its bytes are consumed, so an alternative p|q tries q from its own start.", "quantifier": "all patterns, all values, all surrounding code", "why_tests_cant": "All pattern trees.", "anchors": ["interpreter/VM.c:vm_ff_subpattern", "interpreter/VM.c:vm_MATCH_subpattern", "interpreter/VM.c:vm_MATCH_table_elements", "interpreter/VM.c:MATCH_list"]}
{"id": "C54", "title": "match selects according to the pattern", "statement": "A compiled pattern matches a value iff the value has the described shape (types, literals, list/table structure, rest patterns, alternatives).", "quantifier": "all patterns and values", "why_tests_cant": "All pattern trees and values.", "anchors": ["interpreter/VM.c:vm_MATCH_subpattern", "compiler/compiler.c:visit_CollectionPattern", "compiler/compiler.c:visit_AltPattern"]}
{"id": "C55", "title": "The value stack is a bounded LIFO", "statement": "Pushing n values and popping n returns them in reverse order and leaves the rest unchanged; a push on a full stack raises StackOverflow instead of writing outside the stack.", "quantifier": "all push/pop sequences", "why_tests_cant": "All depths.", "anchors": ["interpreter/VM.c:vm_push", "interpreter/VM.c:vm_pop", "yasl.c:YASL_pushint", "yasl.c:YASL_pop"]}
{"id": "C56", "title": "Typed pops always pop", "statement": "YASL_popint/popbool/popfloat remove the top of the stack and return its value if of that type and the zero value otherwise.", "quantifier": "all stacks", "why_tests_cant": "All value types.", "anchors": ["yasl.c:YASL_popint", "yasl.c:YASL_popbool", "yasl.c:YASL_popfloat", "yasl.h:YASL_popint"]}
{"id": "C57", "title": "Calls pass and return the right number of values", "statement": "A call with too few arguments is padded with undef and with too many truncated; a call expecting r results leaves exactly r values (padded/truncated) in place of function and arguments; everything below is unchanged.", "quantifier": "all argument/return counts, all stacks", "why_tests_cant": "All counts.", "anchors": ["interpreter/VM.c:vm_fill_args", "interpreter/VM.c:vm_exitframe_multi", "interpreter/VM.c:vm_rm_range", "interpreter/VM.c:vm_INIT_CALL_offset"]}
{"id": "C58", "title": "YASL_functioncall reports the number of results", "statement": "YASL_functioncall(S,n) returns r, the number of return values of the called function.", "quantifier": "all n, all functions", "why_tests_cant": "All counts.", "anchors": ["yasl.c:YASL_functioncall", "yasl.h:YASL_functioncall"]}
{"id": "C59", "title": "Globals set from C are the globals read back", "statement": "After YASL_declglobal(n); YASL_setglobal(n) with v on top, YASL_loadglobal(n) pushes v until the next set of n; setting an undeclared or const global is refused and changes nothing.", "quantifier": "all histories of global operations", "why_tests_cant": "All histories.", "anchors": ["yasl.c:YASL_setglobal", "yasl.c:YASL_loadglobal", "yasl.c:YASL_declglobal"]}
{"id": "C60", "title": "Reference counting never frees a reachable object and frees unreachable acyclic ones", "statement": "In any history of stores to stack, list and table slots the count of each object equals the number of references to it, it is freed exactly when that reaches zero, never twice.", "quantifier": "all histories of reference operations", "why_tests_cant": "All aliasing patterns.", "anchors": ["interpreter/refcount.c:inc_ref", "interpreter/refcount.c:dec_ref", "interpreter/refcount.c:dec_strong_ref", "interpreter/VM.c:vm_push"]}
{"id": "C61", "title": "list.pop does not leak", "statement": "After pop, the count of the popped object equals the number of references to it.", "quantifier": "all lists", "why_tests_cant": "Leaks are unobservable in functional tests.", "anchors": ["interpreter/list_methods.c:list_pop"]}
{"id": "C62", "title": "Printing cyclic lists and tables terminates", "statement": "tostr terminates on every finite graph of lists and tables, printing [...] / {...} at back references.", "quantifier": "all finite heap graphs", "why_tests_cant": "All graphs.", "anchors": ["interpreter/list_methods.c:list_tostr_helper", "interpreter/table_methods.c:table_tostr_helper", "interpreter/table_methods.c:rec_call", "interpreter/table_methods.c:buffer_contains"]}
{"id": "C63", "title": "math.gcd and math.lcm", "statement": "For positive a,b gcd is the greatest common divisor and lcm the least common multiple whenever it fits in 64 bits; otherwise undef for non-positive arguments.", "quantifier": "all pairs of ints", "why_tests_cant": "2^128 inputs.", "anchors": ["std/yasl-std-math.c:gcd_helper", "std/yasl-std-math.c:YASL_math_lcm"]}
{"id": "C64", "title": "math.max and math.min", "statement": "max returns an argument that is >= every argument; min one that is <= every argument.", "quantifier": "all argument lists", "why_tests_cant": "Fails only beyond 2^53.", "anchors": ["std/yasl-std-math.c:YASL_math_max", "std/yasl-std-math.c:YASL_math_min"]}
{"id": "C65", "title": "echo prints the string without NUL bytes and captured output accumulates", "statement": "echo s outputs the bytes of s other than NUL followed by a newline for any length; output captured to a string is the concatenation of everything printed.", "quantifier": "all strings, all print histories", "why_tests_cant": "All lengths around the scratch size.", "anchors": ["interpreter/VM.c:vm_ECHO", "util/IO.c:io_str_strip_char", "util/IO.c:io_print_string"]}
{"id": "C66", "title": "for-loops visit each element once in order", "statement": "for x <- list visits the elements in index order; for over a string its bytes; for over a table each key once.", "quantifier": "all collections", "why_tests_cant": "All sizes.", "anchors": ["interpreter/VM.c:vm_ITER_1", "interpreter/VM.c:O_INITFOR"]}
{"id": "C67", "title": "Loop nesting never corrupts memory", "statement": "Entering a for-loop never writes outside the loop-frame array, at any nesting or recursion depth.", "quantifier": "all nesting depths", "why_tests_cant": "Needs 17 active loops.", "anchors": ["interpreter/VM.c:O_INITFOR", "interpreter/VM.h:loopframes"]}
{"id": "C68", "title": "A table returns its own entries", "statement": "After t[k]=v, t[k] (the index expression) evaluates to v, for every key k.", "quantifier": "all tables and keys", "why_tests_cant": "Only fails for keys that name builtin methods.", "anchors": ["interpreter/VM.c:vm_GET_helper2", "interpreter/VM.c:lookup2", "interpreter/table_methods.c:table___get"]}
{"id": "C69", "title": "set.clear() empties the set", "statement": "After s.clear() on a collections.set no value is a member and len is 0.", "quantifier": "all sets", "why_tests_cant": "Only fails for sets that have grown (24 or more elements).", "anchors": ["std/yasl-std-collections.c:YASL_collections_set_clear", "data-structures/YASL_Set.c:YASL_Set_rm"]}
{"id": "C70", "title": "isal, isnum, isalnum, isspace classify strings", "statement": "s.isal() (isnum, isalnum, isspace) is true iff every byte of s is a letter (digit, letter or digit, whitespace), without undefined behaviour.", "quantifier": "all byte strings", "why_tests_cant": "All byte values, including those from 0x80 on.", "anchors": ["data-structures/YASL_String.c:YASL_String_isal", "data-structures/YASL_String.c:YASL_String_isspace"]}
{"id": "C72", "title": "math.isprime decides primality", "statement": "math.isprime(n) is true iff n is a prime number, for every int n.", "quantifier": "all 64-bit ints", "why_tests_cant": "All ints; only some negative ones fail.", "anchors": ["std/yasl-std-math.c:YASL_math_isprime", "util/prime.c:is_prime"]}
{"id": "C73", "title": "math.abs and conversions between int and float", "statement": "math.abs(x) is the absolute value; f.toint() truncates towards zero when the result is an int; i.tofloat().toint() == i for |i| <= 2^53.  Where the C code has undefined behaviour (abs of the smallest int, toint out of range) it is identified exactly.", "quantifier": "all ints and floats", "why_tests_cant": "All 2^64 bit patterns.", "anchors": ["std/yasl-std-math.c:YASL_math_abs", "interpreter/float_methods.c:float_toint", "interpreter/int_methods.c:int_tofloat"]}
{"id": "C71", "title": "str.toint reads numerals", "statement": "A string of decimal digits with optional sign, or 0x followed by hexadecimal digits, or 0b followed by binary digits, with underscores among the digits, converts to the number it denotes, clamped to the range of ints.", "quantifier": "all such strings", "why_tests_cant": "All digit strings of all lengths.", "anchors": ["data-structures/YASL_String.c:YASL_String_toint", "data-structures/YASL_String.c:parseint64"]}
{"id": "C74", "title": "Floats survive tostr/tofloat", "statement": "x.tostr().tofloat() == x for every finite float with at most six decimals.", "quantifier": "all floats", "why_tests_cant": "All 2^64 bit patterns.", "anchors": ["util/yasl_float.c:float64_to_str", "data-structures/YASL_String.c:YASL_String_tofloat"]}
{"id": "C75", "title": "float.tostr prints the value to six decimals", "statement": "The text of a finite float is an optional sign, digits, a dot and one to six digits without superfluous zeros, and denotes a decimal within half of 10^-6 of the float; infinities and NaN print as inf, -inf, nan.", "quantifier": "all floats", "why_tests_cant": "All 2^64 bit patterns.", "anchors": ["util/yasl_float.c:float64_to_str"]}
{"id": "C76", "title": "Parameters are bound to arguments in order", "statement": "In a function the k-th parameter name denotes the k-th argument of the call.", "quantifier": "all parameter lists accepted by the compiler, wherever the function is declared", "why_tests_cant": "All programs.", "anchors": ["compiler/compiler.c:visit_FnDecl", "compiler/env.c:scope_decl_var"]}
{"id": "C77", "title": "match runs the first clause that fits", "statement": "A match statement runs exactly the first clause whose pattern matches and whose guard is true, with the variables of the pattern bound; if there is none it runs nothing.  Afterwards the variables around it are as before.", "quantifier": "all lists of clauses, guards and values", "why_tests_cant": "All combinations of patterns, guards and bindings, and what follows the statement.", "anchors": ["compiler/compiler.c:visit_Match_helper", "compiler/compiler.c:visit_Match", "interpreter/VM.c:vm_MATCH_IF"]}
{"id": "C78", "title": "Reading a source text ends", "statement": "Every call of the lexer takes at least one byte from the text or reports its end; so for every text the end is reached after at most one token per byte, also after errors.", "quantifier": "all source texts, all states of the lexer", "why_tests_cant": "All byte sequences, well-formed or not.", "anchors": ["compiler/lexer.c:gettok", "compiler/lexer.c:lex_eatcommentsandwhitespace", "compiler/lexer.c:lex_error"]}
{"id": "C79", "title": "String literals denote their bytes", "statement": "A literal between single quotes denotes the bytes it spells: escapes stand for their byte, \\xhh for the byte with that hexadecimal value, all other bytes for themselves; every string can be written; between backquotes every byte stands for itself; between double quotes likewise up to the quote or an interpolation; unclosed literals and other escapes are errors.", "quantifier": "all literals", "why_tests_cant": "All texts of all lengths with every mixture of escapes.", "anchors": ["compiler/lexer.c:lex_eatstring", "compiler/lexer.c:handle_escapes", "compiler/lexer.c:lex_eatrawstring", "compiler/lexer.c:lex_eatinterpstringbody"]}
{"id": "C80", "title": "Number literals denote their value", "statement": "A decimal, hexadecimal or binary numeral, with underscores, is the int it denotes, or is refused if it is too large; a float literal is the number it spells, and the text after a literal is read as if it stood alone.", "quantifier": "all numerals and all texts following them", "why_tests_cant": "All digit sequences of all lengths.", "anchors": ["compiler/lexer.c:lex_eatnumber", "compiler/lexer.c:lex_eatint", "compiler/lexer.c:lex_eatfloat", "compiler/lexer.c:lex_eatnumber_fill", "compiler/parser.c:get_int"]}
{"id": "C81", "title": "Operators are read by longest match", "statement": "At an operator the longest operator of the language that the text begins with is read, and the rest of the text is left; a byte that begins nothing is reported and skipped.", "quantifier": "all operators and all texts following them", "why_tests_cant": "All continuations of the text.", "anchors": ["compiler/lexer.c:lex_eatop", "compiler/lexer.c:YASLToken_ThreeChars", "compiler/lexer.c:YASLToken_TwoChars", "compiler/lexer.c:YASLToken_OneChar"]}
{"id": "C82", "title": "Layout only separates", "statement": "Spaces, tabs, line ends and comments have no effect other than on line numbers, except that a line end, in or outside a comment, after a token that can end a statement is a semicolon.", "quantifier": "all sequences of blanks and comments between all pairs of tokens", "why_tests_cant": "All nestings and lengths of layout.", "anchors": ["compiler/lexer.c:lex_eatcommentsandwhitespace", "compiler/lexer.c:lex_eatwhitespace", "compiler/lexer.c:lex_eatinlinecomments", "compiler/lexer.h:ispotentialend"]}
{"id": "C83", "title": "Words are names, keywords or reserved", "statement": "A word is read as long as possible; it is a keyword exactly if it is one of the seventeen keywords, a literal if it is true or false, refused if it is reserved, and a name otherwise; after . and -> it is always a name.", "quantifier": "all words and all texts following them", "why_tests_cant": "All words of all lengths.", "anchors": ["compiler/lexer.c:lex_eatid", "compiler/lexer.c:YASLKeywords"]}
{"id": "C84", "title": "Line numbers count line ends", "statement": "The line number of every token is one more than the number of line ends in the text up to the end of the token.", "quantifier": "all source texts, all tokens", "why_tests_cant": "All texts; line ends inside comments, strings and literals.", "anchors": ["compiler/lexer.c:gettok", "compiler/lexer.c:lex_eatwhitespace", "compiler/lexer.c:lex_eatrawstring", "compiler/parser.c:ismultiassign"]}
{"id": "C85", "title": "Reading a program ends", "statement": "For every text the compiler comes to an end: it accepts the text, or rejects it with a message.", "quantifier": "all source texts", "why_tests_cant": "All byte sequences, well-formed or not; a loop that never ends shows in no test that passes.", "anchors": ["compiler/parser.c:parse_program", "compiler/parser.c:parse_primitivepattern", "compiler/parser.c:eattok", "compiler/compiler.c:compile"]}
{"id": "C86", "title": "The language is the grammar", "statement": "A text is accepted if and only if its tokens can be derived from the grammar of the language, and the program it is compiled as is the tree that derivation stands for.", "quantifier": "all source texts and all trees", "why_tests_cant": "All programs, nested without bound, and all texts that are not programs.", "anchors": ["compiler/parser.c:parse_program", "compiler/parser.c:parse_expr", "compiler/parser.c:parse_call", "compiler/parser.c:parse_constant", "compiler/parser.c:parse_match"]}
{"id": "C87", "title": "No text has two meanings", "statement": "However the items of a text are derived from the grammar, the program is the same.", "quantifier": "all source texts and all pairs of derivations", "why_tests_cant": "All programs and all derivations.", "anchors": ["compiler/parser.c:parse_program"]}
{"id": "C88", "title": "Operators group by precedence", "statement": "In A o1 B o2 C the operators group as the table of precedence and associativity says; ** binds tighter than a unary operator on its left and groups to the right; ?: is looser than all binary operators and groups to the right.", "quantifier": "all pairs of operators and all operands", "why_tests_cant": "All operands, themselves of any size.", "anchors": ["compiler/parser.c:parse_undef_or", "compiler/parser.c:BINOP_R", "compiler/parser.c:BINOP_L", "compiler/parser.c:parse_unary", "compiler/parser.c:parse_power", "compiler/parser.c:parse_ternary"]}
{"id": "C89", "title": "x op= e is x = x op (e)", "statement": "An augmented assignment and the assignment with the operator and the right side in parentheses are the same program, for variables and for elements.", "quantifier": "all augmented assignments, all left and right sides", "why_tests_cant": "All expressions on both sides.", "anchors": ["compiler/parser.c:parse_assign", "compiler/parser.c:tok_isaugmented", "compiler/tokentype.x"]}
{"id": "C90", "title": "As many values as places", "statement": "An assignment or declaration with several places evaluates as many values as it has places: what is missing is undef, or comes from a call in the last place; an expression too many is refused.", "quantifier": "all lists of places and expressions", "why_tests_cant": "All numbers of places and expressions.", "anchors": ["compiler/parser.c:parse_decl_helper", "compiler/parser.c:parse_var_pack", "compiler/parser.c:parse_assign_or_exprstmt"]}
{"id": "C91", "title": "A string with embedded expressions is their concatenation", "statement": "A literal between double quotes with #{...} in it is the concatenation of its pieces and the embedded expressions, in order, nested without bound; other text between the braces is refused.", "quantifier": "all such literals", "why_tests_cant": "All numbers of pieces and all expressions, strings with embedded expressions included.", "anchors": ["compiler/parser.c:parse_string", "compiler/lexer.c:lex_eatinterpstringbody"]}
{"id": "C92", "title": "Reading a program is defined", "statement": "Whatever the text, the compiler's reading of it accesses no element outside of an array.", "quantifier": "all source texts", "why_tests_cant": "All byte sequences.", "anchors": ["compiler/parser.c:parse_call"]}
{"id": "C93", "title": "A program runs as it is written", "statement": "Running a source text does what its meaning says: the text is taken apart by the grammar, and the resulting statements are carried out in order; output, globals and errors are those of the statements as written, with the text as the only input.  If the compiler reports an error, nothing is run.", "quantifier": "all source texts of programs without functions, all values of the globals, all outcomes of operations on containers, all lengths of runs", "why_tests_cant": "The claim is about all texts, through the lexer, parser, constant folding, code generation and the virtual machine together.", "anchors": ["yasl.c:YASL_execute", "compiler/compiler.c:compile", "compiler/parser.c:parse", "compiler/middleend.c:fold", "interpreter/VM.c:vm_run"]}
{"id": "C94", "title": "A host program sees every entry of a table once", "statement": "A host program that goes through a table with YASL_tablenext, from undef on, sees each entry once with its value and is left with the table on top of the stack.", "quantifier": "all tables a history of assignments and removals gives, all stacks with room", "why_tests_cant": "All histories, all sizes and collisions; the order follows from hashes.", "anchors": ["yasl.c:YASL_tablenext", "data-structures/YASL_Table.c:YASL_Table_getindex"]}
{"id": "C95", "title": "Containers through the API", "statement": "Whatever calls a host program makes to build and read tables and lists (push, duplicate, pop, new table, new list, set, append, get), the stack, the returned codes and the errors raised are those of maps and sequences, with objects shared between places.", "quantifier": "all sequences of calls", "why_tests_cant": "All sequences of calls, in any order, with any sharing and any sizes.", "anchors": ["yasl.c:YASL_tableset", "yasl.c:YASL_listpush", "yasl.c:YASL_listget", "yasl.c:YASL_pushtable", "yasl.c:YASL_pushlist", "yasl.c:YASL_duptop"]}
{"id": "C96", "title": "Programs with functions run as written", "statement": "A program with functions which the compiler accepts does what it says: arguments are evaluated left to right, missing ones are undef and those too many are dropped; a call has its own local variables; functions read and write the variables of the file and the globals, recursion included; return ends the function from inside of loops and blocks, with its value; output, globals, errors and what is left on the stack are those of the program as written, unless the stack, the frames or the nested loops run out.", "quantifier": "all programs whose functions use their own variables, those of the file and globals, within the limits of the implementation; all values of the globals, all outcomes of operations on containers, all C functions, all lengths of runs", "why_tests_cant": "Programs of any size, any depth of calls and length of runs; functions call each other in all ways.", "anchors": ["compiler/compiler.c:visit_FnDecl", "compiler/compiler.c:visit_Call", "compiler/compiler.c:visit_Return", "compiler/env.c:env_resolve_upval_index", "interpreter/VM.c:vm_INIT_CALL", "interpreter/VM.c:vm_CALL", "interpreter/VM.c:vm_exitframe_multi", "interpreter/VM.c:vm_CCONST"]}
{"id": "C97", "title": "Where require looks", "statement": "require(name) tries /usr/local/lib/yasl/NAME.yasl, ./NAME.yasl and NAME, in this order and only until one can be opened, and __require_c__ the four entries of its path and then the name; building the file names never writes outside of the buffer, whatever the length of the name.", "quantifier": "all names, all file systems; for the search itself, all paths", "why_tests_cant": "All strings and all sets of existing files; out-of-bounds writes need not show in a test.", "anchors": ["std/yasl-std-require.c:open_on_path", "std/yasl-std-require.c:search_on_path", "std/yasl-std-require.c:YASL_require", "std/yasl-std-require.c:YASL_require_c", "yasl_conf.h:YASL_DEFAULT_PATH"]}
{"id": "C98", "title": "Requiring modules keeps the literals of loaded code", "statement": "After a program has required any modules, which may require others, the literals in the code of the program and of every loaded module still mean what was written.", "quantifier": "all programs and trees of modules, all literals", "why_tests_cant": "All numbers, orders and nestings of modules and all sets of literals, with all collisions in the shared table of literals.", "anchors": ["std/yasl-std-require.c:YASL_require", "compiler/compiler.c:compiler_intern_string", "interpreter/VM.c:vm_setupconstants"]}
{"id": "C99", "title": "Reading a file line by line", "statement": "read() on a file gives the text up to the next line feed, for lines of any length and with any bytes; n calls from the beginning give the first n lines of the text and then empty strings.  (The end of the file cannot be told from empty lines.)", "quantifier": "all contents, all positions, all numbers of calls", "why_tests_cant": "All lengths of lines, at and around each size of the growing buffer.", "anchors": ["std/yasl-std-io.c:YASL_io_read"]}
{"id": "C100", "title": "What is written to a file is what is read back", "statement": "write(s) puts the bytes of s at the position (at the end in append mode) and returns their number; read('a') gives all bytes of the file wherever the position is; seek moves from the beginning, the position or the end and answers whether it could; strings written one after the other are read back as they are.", "quantifier": "all strings, contents, positions, offsets and sequences of writes", "why_tests_cant": "All contents and sequences of calls.", "anchors": ["std/yasl-std-io.c:YASL_io_write", "std/yasl-std-io.c:YASL_io_read", "std/yasl-std-io.c:YASL_io_seek"]}
{"id": "C101", "title": "Opening and closing files", "statement": "io.open accepts the modes r, w, a, r+, w+, a+ and no mode, and no others; a file is closed once, by close or when it is no longer used.", "quantifier": "all values for the mode, all sequences of method calls", "why_tests_cant": "All strings; the release happens after all sequences of calls.", "anchors": ["std/yasl-std-io.c:YASL_io_open", "std/yasl-std-io.c:YASL_io_close", "std/yasl-std-io.c:close_file", "interpreter/userdata.c:ud_del_data"]}
{"id": "C102", "title": "Sets, lists and tables from arguments", "statement": "collections.set(...) holds the values given (or the elements of the one list given), each once; collections.list(...) the arguments in order; s.tolist() the elements of the set, each once; collections.table(k1, v1, ...) maps each key to its value.", "quantifier": "all arguments, all histories of the set", "why_tests_cant": "All numbers and values of arguments with all collisions.", "anchors": ["std/yasl-std-collections.c:YASL_collections_set_new", "std/yasl-std-collections.c:YASL_collections_list_new", "std/yasl-std-collections.c:YASL_collections_table_new", "std/yasl-std-collections.c:YASL_collections_set_tolist"]}
{"id": "C103", "title": "The text of a set", "statement": "tostr of a set is set(, the texts of its elements with a comma and a space between them, and ), for elements of any length; no byte is written outside of the buffer.", "quantifier": "all histories of the set, all texts of the elements", "why_tests_cant": "All sizes, at and around each size of the growing buffer.", "anchors": ["std/yasl-std-collections.c:YASL_collections_set_tostr"]}
{"id": "C104", "title": "mt.get and mt.set", "statement": "mt.get(x) gives the metatable of x, which for a list, table or userdata is the one set last with mt.set (or the one it had); mt.set(x, t) changes the metatable of x only, and is a type error if t is not a table or x is another type of value.", "quantifier": "all values, all sequences of mt.set, all states of the stack", "why_tests_cant": "All sequences of calls with any sharing of objects.", "anchors": ["std/yasl-std-mt.c:YASL_mt_getmt", "std/yasl-std-mt.c:YASL_mt_setmt", "interpreter/VM.c:obj_get_metatable", "interpreter/VM.c:vm_get_metatable", "yasl.c:YASL_setmt", "interpreter/userdata.c:ud_setmt"]}
{"id": "C105", "title": "Operators call the methods of the left operand", "statement": "An operator on values it is not built in for calls the method of this name in the metatable of its left operand with both operands (a unary operator with the one operand, a[k] = v the method __set with all three), as any call, and the values below are kept; without such a method it is a type error.", "quantifier": "all values, metatables, methods and states of the stack", "why_tests_cant": "All methods, built in, in C or in YASL, in all states of the stack.", "anchors": ["interpreter/VM.c:vm_lookup_method_throwing", "interpreter/VM.c:vm_num_binop", "interpreter/VM.c:vm_EQ", "interpreter/VM.c:vm_SET", "interpreter/VM.c:vm_call_now_2", "interpreter/VM.c:vm_shifttopdown"]}
{"id": "C106", "title": "A program with functions runs as it is written", "statement": "YASL_execute on a text with functions, recursion, calls of C functions and methods does what the text says: the same output, globals and effects, the same error if it ends in one, and no end if it has none; if an error is reported by the compiler nothing is run.", "quantifier": "all texts of the fragment, all C functions, containers and float operations, all global variables, all numbers of steps", "why_tests_cant": "All texts, with all nestings of functions, calls, blocks and loops, and all lengths of execution.", "anchors": ["yasl.c:YASL_execute", "compiler/compiler.c:compile", "compiler/parser.c:parse_program", "compiler/middleend.c:fold", "interpreter/VM.c:vm_run"]}
{"id": "C107", "title": "Programs with lists, tables and methods run as with sequences and maps", "statement": "YASL_execute on a text with lists, tables, strings and the built-in methods does what the text says when lists are sequences and tables are finite maps: the same output, the same error if it ends in one, and no end if it has none; hashing, growing, copying and sharing of memory cannot be seen.", "quantifier": "all texts of the fragment, all float operations, all numbers of steps", "why_tests_cant": "All texts, with all histories of all lists and tables they make and all sharing between them.", "anchors": ["yasl.c:YASL_execute", "interpreter/VM.c:vm_run", "interpreter/builtins.c:list_builtins", "interpreter/list_methods.c:list_push", "interpreter/table_methods.c:table___set", "interpreter/str_methods.c:str___get", "data-structures/YASL_Table.c:YASL_Table_insert"]}
{"id": "C108", "title": "The host and C functions read what is on the stack", "statement": "A C function (or the host) sees its arguments as a stack: YASL_push\u2026 puts a value on top, YASL_is\u2026, YASL_isn\u2026, YASL_peek\u2026 and YASL_peekn\u2026 tell the type and value of the top or of the n-th argument and change nothing, YASL_pop\u2026 also remove the top (whatever its type), YASLX_checkn\u2026 accept a value of the right type and otherwise report the position and both types; what was pushed is what is read back, C strings included.", "quantifier": "all sequences of calls, all values and numbers of arguments", "why_tests_cant": "All sequences of calls on all stacks; a value left on the stack shows only later.", "anchors": ["yasl.c:YASL_pushint", "yasl.c:YASL_popint", "yasl.c:YASL_peeknint", "yasl.c:YASL_isnint", "yasl.c:YASL_peekcstr", "yasl.c:YASL_peeknuserdata", "yasl_aux.c:YASLX_checknint", "yasl.c:YASL_peekntypename"]}
{"id": "C109", "title": "Several texts, one after the other", "statement": "A state that is given one text after the other (YASL_resetstate_bb, then YASL_execute, or YASL_execute_REPL at the prompt) runs each as written: global variables keep their values from one text to the next, variables declared outside of blocks at the prompt are global, the value of a last expression is printed, a text that is refused or fails has no effect on the meaning of later ones, and each text's local variables are its own.", "quantifier": "all sequences of texts, all programs, all states of the world, any number of steps", "why_tests_cant": "All sequences of texts; what is left on the stack or in the compiler by one text shows only in a later one.", "anchors": ["yasl.c:YASL_resetstate_bb", "yasl.c:YASL_execute", "yasl.c:YASL_execute_REPL", "compiler/compiler.c:compile", "compiler/compiler.c:compile_REPL", "compiler/compiler.c:visit_Decl", "main.c:main_REPL"]}
{"id": "C110", "title": "A text means the same in a file and in memory", "statement": "The tokens of a text (kinds, texts, lines, messages) are the same whether it is read from a file or from memory, at any byte the text may contain or end with, including the bytes 0 and 255 and an end in the middle of a token, and whatever looks ahead the parser takes; every request for a token returns, and nothing of the text is lost or read twice.", "quantifier": "all texts, all sequences of requests of the parser, files and memory", "why_tests_cant": "All texts and all sequences of tokens, looks ahead and string parts; the end of the text may come at each of the places where a character is read.", "anchors": ["compiler/lexinput.c:lexinput_bb_seek", "compiler/lexinput.c:lexinput_bb_getc", "compiler/lexinput.c:lexinput_file_getc", "compiler/lexer.c:gettok", "compiler/lexer.c:lex_eatop", "compiler/lexer.c:lex_eatnumber_fill", "compiler/parser.c:isfndecl", "compiler/parser.c:parse_string"]}
{"id": "C111", "title": "A comprehension has the values for the elements of the collection", "statement": "[e for x <- coll if cond] is the list of the values of e for the elements of coll for which cond holds, in order, and {k: v for x <- coll if cond} the table of these pairs, wherever the comprehension stands in an expression and however many elements there are; x is visible inside only, and no other variable or value is changed.", "quantifier": "all collections, conditions and elements, all expressions around and all programs before", "why_tests_cant": "All nestings and all numbers of elements: the place of the variable on the stack depends on what else is there.", "anchors": ["compiler/compiler.c:visit_Comp", "compiler/compiler.c:visit_Comp_cond", "compiler/compiler.c:visit_ListComp", "compiler/compiler.c:visit_TableComp", "interpreter/VM.c:vm_executenext"]}
{"id": "C112", "title": "The compiler refuses a program exactly when it breaks a rule of the language", "statement": "Before anything of a program is run, it is refused exactly when a name that is used is not visible there (not declared before in a block around, in a function around, or given by the host), a name is declared twice in a block or twice among the parameters of a function, a constant is assigned to, a function or the file has more than 255 variables at a time, break or continue stand outside of a loop, or return outside of a function - in code that is never run as well.", "quantifier": "all programs, all nestings of blocks, loops and functions, all sets of host variables", "why_tests_cant": "Programs are unbounded trees; refusal is about all places of the program at once, and acceptance about the absence of any error.", "anchors": ["compiler/compiler.c:visit_Decl", "compiler/compiler.c:visit_Assign", "compiler/compiler.c:visit_Var", "compiler/compiler.c:visit_FnDecl", "compiler/compiler.c:visit_Break", "compiler/compiler.c:visit_Return", "compiler/env.c:scope_decl_var", "compiler/env.c:scope_contains"]}
{"id": "C113", "title": "The command yasl does what its usage says", "statement": "yasl -C finds a file wrong exactly when running the file would report an error before anything is run; yasl alone executes the lines of its input one after the other and ends when one of them calls quit or the input ends; every other use than the listed options is a file to be run, and its name and the words after it are the elements of args.", "quantifier": "all files, all command lines, all inputs", "why_tests_cant": "All programs and all inputs: the check and the run differ in what is declared, and the end of the input comes after any number of bytes.", "anchors": ["main.c:main", "main.c:main_compile", "main.c:main_file", "main.c:main_REPL"]}
{"id": "C114", "title": "Declaring the standard libraries gives exactly the documented names", "statement": "After YASLX_decllibs the globals collections, io, math and mt are new tables with exactly the documented entries (each C function with its number of arguments, pi, inf and nan, the three standard streams with the methods of files), require and __require_c__ are functions, the metatables of sets and of files are registered with exactly their methods; these names can be assigned by the program; the stack, every other global, every other declared name, every other metatable and every existing object are as before. A second declaration, as made by require on the shared globals, binds the names to other new tables, so that entries added by the program are no longer found under them.", "quantifier": "all states of the interpreter before the declaration, with any globals, metatables, objects and values on the stack", "why_tests_cant": "All states before: hash tables grow and collide depending on what is in them, and a wrong stack depth in one of about 180 calls shifts all later ones.", "anchors": ["yasl_aux.c:YASLX_decllibs", "std/yasl-std-collections.c:YASL_decllib_collections", "std/yasl-std-io.c:YASL_decllib_io", "std/yasl-std-math.c:YASL_decllib_math", "std/yasl-std-require.c:YASL_decllib_require", "std/yasl-std-mt.c:YASL_decllib_mt"]}
{"id": "C115", "title": "The memory of a text that was read is freed once", "statement": "Whatever is read, and however often realloc moves a block: no node of the syntax tree is used after it was freed, all children of nodes are valid while the tree is compiled, and deleting the state frees every node and every name in it exactly once. The recursion that frees them is as deep as the number of nodes of all texts read by the state.", "quantifier": "all sequences of the parser's and folder's operations on nodes (constructors, body_append, changes of type, replacement of children), for all choices of realloc", "why_tests_cant": "The list of nodes is changed in its middle while it is built, in an order that depends on the text; every moved block must be reached by exactly one pointer.", "anchors": ["compiler/ast.c:new_Node", "compiler/ast.c:body_append", "compiler/ast.c:node_del", "compiler/parser.c:parser_register_node", "compiler/parser.c:parser_unregister_node", "compiler/parser.c:parser_cleanup"]}
{"id": "C116", "title": "The report of a runtime error names the calls that led to it", "statement": "When a runtime error is reported, the report gives the line of the error, then the lines of the calls in progress, innermost first; if a C function is running the error is reported where it was called. Calls that have not been made are not reported. Reporting touches nothing outside of the stack, ends, and leaves no function running.", "quantifier": "all histories of calls that are begun, made and ended, with any values, loops and places of the code in between", "why_tests_cant": "The histories are unbounded; tests of the trace look at one or two nested calls.", "anchors": ["interpreter/VM.c:printline", "interpreter/VM.c:vm_exitframe", "interpreter/VM.c:vm_enterframe_offset"]}
{"id": "C117", "title": "The memory of closures and of captured variables", "statement": "A variable captured by a closure stays usable as long as the program can get at it, directly or through any closure that captured it, also after the function that declared it has returned; closures, captured variables and their values are freed when nothing can get at them any more, and at the end of the program; no freed memory is used, whatever closures are made, shared, called, assigned through, dropped or left over by an error.", "quantifier": "all histories of pushes, pops, stores, lists, closures over local variables and over variables of the enclosing closure, reads and assignments of captured variables, and ends of calls", "why_tests_cant": "Whether memory is used after it was freed depends on which references happen to be left in dead stack slots, hence on the whole history; a test only fails if the allocator reuses the memory.", "anchors": ["/repo/interpreter/closure.c: closure_del_data", "/repo/interpreter/upvalue.c", "/repo/interpreter/refcount.c: inc_ref, dec_ref", "/repo/interpreter/VM.c: add_upvalue, vm_CCONST, vm_close_all, vm_cleanup, O_ULOAD, O_USTORE"]}
{"id": "C118", "title": "The memory of a state", "statement": "A host that makes a state, gives it any number of texts, runs or compiles them, calls the functions they made, captures their output and deletes the state never uses memory that was freed and frees nothing twice, and afterwards nothing of the state is left in memory.", "quantifier": "all histories of YASL_resetstate, YASL_resetstate_bb, YASL_execute, YASL_execute_REPL, YASL_compile, YASL_functioncall, YASL_setprintout_tostr and YASL_setprinterr_tostr between YASL_newstate and YASL_delstate, whatever the texts are: accepted or not, requiring modules, calling functions of earlier texts", "why_tests_cant": "What is freed depends on the order of all calls before; tests make a state, run one text and delete the state.", "anchors": ["/repo/yasl.c: YASL_newstate, YASL_resetstate, YASL_resetstate_bb, YASL_execute, YASL_compile, YASL_delstate", "/repo/compiler/compiler.c: compile, compiler_cleanup", "/repo/compiler/env.c: scope_del", "/repo/interpreter/VM.c: vm_init, vm_cleanup, vm_setupconstants", "/repo/std/yasl-std-require.c: YASL_require"]}
{"id": "C119", "title": "Captured output is what was printed", "statement": "After YASL_setprintout_tostr, YASL_loadprintout pushes everything the texts wrote since, in order; after YASL_setprinterr_tostr, YASL_loadprinterr pushes the reports of errors since: those of the compiler if it refused the present text, else those of the runs.", "quantifier": "all histories of texts, changes of the source and captures", "why_tests_cant": "Tests capture the output of one text in a fresh state.", "anchors": ["/repo/yasl.c: YASL_setprintout_tostr, YASL_setprinterr_tostr, YASL_loadprintout, YASL_loadprinterr, YASL_resetstate", "/repo/util/IO.c: io_print_string", "/repo/compiler/lexer.h: NEW_LEXER"]}
{"id": "C120", "title": "Userdata, metatables and destructors", "statement": "The destructor of a userdata is called exactly once, when the program and the host can get at the userdata no more, at the latest by YASL_delstate, and never before; a metatable stays as long as an object has it or the program can get at it otherwise; setting a metatable, on an object that has one or none, and reading it use no freed memory.", "quantifier": "all histories of pushes, pops, stores, YASL_pushuserdata, YASL_setmt, mt.set, mt.get, entries of tables made and removed, globals and registered metatables set, replaced and read", "why_tests_cant": "When an object dies depends on all references left in the stack, in tables, globals and metatables, hence on the whole history.", "anchors": ["/repo/interpreter/userdata.c: ud_new, ud_del_data, ud_setmt", "/repo/interpreter/refcount.c: dec_ref", "/repo/yasl.c: YASL_pushuserdata, YASL_setmt, YASL_registermt, YASL_loadmt, YASL_setglobal", "/repo/std/yasl-std-mt.c", "/repo/interpreter/VM.c: vm_get_metatable, vm_cleanup"]}
{"id": "C121", "title": "An expression used as a statement leaves nothing behind", "statement": "A statement that is an expression is evaluated for its effects, and has no influence on the variables declared after it.", "quantifier": "all texts, whatever the expressions and wherever they stand among the statements of the file", "why_tests_cant": "The tests use calls by name as statements; which texts are such statements is decided by the parser for infinitely many expressions, and a value left behind only shows in variables declared later.", "anchors": ["/repo/compiler/parser.c: parse_program, isfndecl, parse_assign_or_exprstmt", "/repo/compiler/compiler.c: visit_ExprStmt, visit_Call, compile"]}
{"id": "C122", "title": "Lists and tables have the methods of their type", "statement": "Every list and every table a program or a host gets answers to len, echo, indexing, assignment, operators and the methods of its type, wherever it was made: by a literal, a slice, an operator, a method, a library function or the API.", "quantifier": "all histories of making lists and tables, changes of tables, and mt.set; all names of methods", "why_tests_cant": "A test of a function that makes a container looks at its contents, not at what can be done with it later; the test of table.copy reads only keys that are there.", "anchors": ["/repo/interpreter/table_methods.c: table_copy, table_keys, table_values, table___bor", "/repo/interpreter/list_methods.c: list_copy, list_concat", "/repo/interpreter/str_methods.c: str_split", "/repo/interpreter/VM.c: O_NEWTABLE, O_NEWLIST, vm_SLICE_list, vm_lookup_method_throwing", "/repo/yasl.c: YASL_pushtable, YASL_pushlist", "/repo/std/yasl-std-collections.c", "/repo/data-structures/YASL_Table.c: rcht_new_sized"]}
{"id": "C123", "title": "math.rand uses all 64 bits", "statement": "math.rand returns an int, every int is possible, and no call is undefined.", "quantifier": "all results of the C function rand(), all RAND_MAX that C allows", "why_tests_cant": "A test sees a few of 2^64 values, made with the RAND_MAX of one C library; a bit that is never set does not show.", "anchors": ["/repo/std/yasl-std-math.c: YASL_math_rand"]}
{"id": "C124", "title": "A call that is an operand or an argument gives one value", "statement": "A call gives one value wherever one value is needed; only the call that is the last right side of a declaration of several places, the last argument of a call, or the value of return gives as many as are taken.", "quantifier": "all declarations of several places and all expressions on their right side", "why_tests_cant": "The number of values a call leaves is a field of the compiler's state that is in force while everything inside of the call is compiled; the tests use plain calls with plain arguments.", "anchors": ["/repo/compiler/compiler.c: visit_VariadicContext, visit_Call, visit_MethodCall, visit_Decl", "/repo/compiler/parser.c: parse_var_pack, will_var_expand", "/repo/interpreter/VM.c: O_INIT_CALL, O_RET"]}
{"id": "C125", "title": "export and return where they belong", "statement": "`export` is accepted at the top level of a text and nowhere else, `return` in functions and nowhere else, also in code that is never run.", "quantifier": "all programs, all nestings of functions, blocks, loops, comprehensions and clauses of match, whatever else is refused", "why_tests_cant": "All depths and kinds of nesting, and code the compiler leaves out (the branches of constant conditions).", "anchors": ["/repo/compiler/compiler.c: visit_Export, visit_Return, visit_MultiReturn, enter_scope, validate, compile, compile_REPL"]}
{"id": "C126", "title": "A file exports the value of its expression", "statement": "A file that reaches `export e` ends there, and its value is what e means after the statements before it; nothing that follows is executed; an error before that is the error of the file, and nothing is exported; a file without an export exports nothing.", "quantifier": "all files with an export, with functions, loops and calls, whatever comes before and after; all globals, all C functions", "why_tests_cant": "The modules of the tests export a few fixed values; that the value on the top of the stack is the right one depends on all the code before it.", "anchors": ["/repo/compiler/compiler.c: visit_Export, compile, return_bytes", "/repo/interpreter/VM.c: O_EXPORT, vm_executenext", "/repo/std/yasl-std-require.c: YASL_require"]}
