#!/usr/bin/env python3
"""Writes properties.jsonl (one object per property).  Edit the table below, then run."""
import json, os
P = []
def p(id, title, statement, quantifier, why, anchors):
    P.append(dict(id=id, title=title, statement=statement, quantifier=quantifier, why_tests_cant=why, anchors=anchors))
T="data-structures/YASL_Table.c"; S="data-structures/YASL_Set.c"; ST="data-structures/YASL_String.c"
L="data-structures/YASL_List.c"; LM="interpreter/list_methods.c"; TM="interpreter/table_methods.c"; SM="interpreter/str_methods.c"
VM="interpreter/VM.c"; CO="compiler/compiler.c"
p("C01","Tables behave as maps under any history of assignments",
  "After any finite sequence of assignments t[k]=v (k hashable, not undef; v not undef), every assignment terminates, and t[k] reads the most recently assigned value for k, and reports absence for a key never assigned, however many times the table was resized in between.",
  "all finite sequences of assignments, all hashable keys and values, all lookup keys",
  "Depends on every collision pattern of the double hash and on every resize point; tests sample a few keys.",
  [T+":YASL_Table_insert", T+":YASL_Table_insert_fast", T+":YASL_Table_search", T+":YASL_Table_getindex", T+":table_resize_up"])
p("C02","Tables behave as maps under any history of assignments and removals that completes",
  "For any interleaving of assignments and removals which completes, every lookup that completes returns the value of the last assignment to that key not followed by a removal, or absence.",
  "all finite sequences of assignments/removals, all lookup keys",
  "Tombstones, resizes down and up interleave arbitrarily.",
  [T+":YASL_Table_insert", T+":YASL_Table_rm", T+":YASL_Table_search", T+":table_resize_down"])
p("C03","No sequence of table operations hangs",
  "Every insertion, removal and lookup on a table terminates, whatever operations preceded it.",
  "all finite operation histories", "Non-termination after a particular history is invisible to tests that do not contain that history.",
  [T+":YASL_Table_getindex", T+":YASL_Table_search", T+":YASL_Table_rm"])
p("C04","len of a table is its number of keys",
  "After any history, len t equals the number of distinct keys currently present in t.",
  "all finite operation histories", "The counter is maintained incrementally along every path.",
  [T+":YASL_Table_length", T+":YASL_Table_insert_fast", T+":YASL_Table_rm", TM+":table___len", TM+":table_remove"])
p("C05","Iterating, keys() and values() enumerate every entry exactly once",
  "The list of keys returned by keys() (and visited by for-iteration) contains each present key exactly once and nothing else, and values() gives the value of each in the same order.",
  "all table histories", "Depends on all slot layouts.",
  [TM+":table_keys", TM+":table_values", VM+":vm_ITER_1", "data-structures/YASL_Table.h:FOR_TABLE"])
p("C06","Probing reaches every slot",
  "For every hashable key and every prime table size, the first `size` probes visit each slot of the table exactly once and every probe is in bounds.",
  "all keys, all prime sizes", "Infinitely many keys and sizes.", ["util/hash_function.c:get_hash", "util/hash_function.c:hash_function"])
p("C07","Growing or shrinking a table never changes its contents",
  "The automatic resize triggered by insertion or removal preserves exactly the set of key/value pairs.",
  "all reachable tables", "Every resize point of every history.", [T+":table_resize", T+":table_resize_up", T+":table_resize_down"])
p("C08","Unhashable keys are rejected without side effects",
  "Assigning or removing with a list, table, function or userdata key leaves the table unchanged; assignment reports a type error; lookup reports absence.",
  "all tables and all unhashable keys","All table states.", [T+":YASL_Table_insert", T+":YASL_Table_search", T+":YASL_Table_rm", "interpreter/YASL_Object.c:ishashable"])
p("C09","undef as a key",
  "undef is accepted as a key; storing under undef and reading undef back returns the stored value and other keys are unaffected.",
  "all tables","A corrupted probe chain shows only for particular collisions.", [T+":YASL_Table_insert_fast", T+":YASL_Table_search", T+":YASL_Table_getindex"])
p("C10","clear empties a table and leaves it fully usable",
  "After t.clear() every lookup reports absence, len is 0 and any subsequent history behaves as on a fresh table.",
  "all tables, all later histories","The failure needs a particular key set after clear.", [TM+":table_clear"])
p("C11","Table union and copy",
  "(a | b)[k] is b[k] if present in b, else a[k]; a.copy() has exactly the entries of a; both leave the operands unchanged.",
  "all pairs of reachable tables, all keys","All layouts.", [TM+":table___bor", TM+":table_copy"])
p("C12","Table equality is extensional",
  "a == b on tables with primitive values is true exactly when both have the same keys and pairwise equal values, independent of insertion order.",
  "all pairs of reachable tables","Order independence quantifies over permutations.", [TM+":table___eq"])
p("C13","Sets behave as mathematical sets under add and remove",
  "After any completed history of add/remove on a collections.set, membership of x is true iff the last operation on x was add; len counts distinct members.",
  "all histories, all elements of one type","As C01/C02.", [S+":YASL_Set_insert", S+":YASL_Set_search", S+":YASL_Set_rm"])
p("C14","Set algebra",
  "x in (a|b), (a&b), (a^b), (a&^b) iff the corresponding boolean combination of x in a and x in b; operands unchanged.",
  "all pairs of reachable sets, all elements","All layouts.", [S+":YASL_Set_union", S+":YASL_Set_intersection", S+":YASL_Set_symmetric_difference", S+":YASL_Set_difference"])
p("C15","Set comparison operators are subset relations",
  "a == b, a <= b, a < b, a >= b, a > b decide set equality / inclusion / strict inclusion.",
  "all pairs of reachable sets","All layouts.", ["std/yasl-std-collections.c:YASL_collections_set___eq","std/yasl-std-collections.c:YASL_collections_set___le"])
p("C16","Equal values are the same set element / table key regardless of type",
  "For a set, adding x and then y with x == y leaves one element (e.g. 1 and 1.0).",
  "all values","Depends on hash of both representations.", [S+":YASL_Set_insert", "interpreter/YASL_Object.c:isequal", "util/hash_function.c:hash_function"])
p("C17","math.isprime decides primality; table sizes are prime",
  "is_prime(x) is true iff x is prime; next_prime(x) is the least prime >= x.",
  "all x in the 64-bit range (given the C library sqrt bound)","2^64 inputs.", ["util/prime.c:is_prime","util/prime.c:next_prime","std/yasl-std-math.c:YASL_math_isprime"])
p("C18","Variable-width integers round-trip",
  "Decoding the encoding of any size_t returns it, for any bytes that follow; skipping advances past exactly the encoding; the encoding fits the 12-byte buffer.",
  "all 64-bit values, all suffixes","2^64 values.", ["util/varint.c:vint_encode","util/varint.c:vint_decode","util/varint.c:vint_next"])
p("C19","Byte buffers are append-only logs without overflow",
  "After any sequence of appends the buffer's bytes are the concatenation of what was appended and no write is out of bounds; back-patching changes exactly the eight bytes addressed.",
  "all sequences of buffer operations","All growth points.", ["data-structures/YASL_ByteBuffer.c:YASL_ByteBuffer_extend","data-structures/YASL_ByteBuffer.c:YASL_ByteBuffer_add_byte","data-structures/YASL_ByteBuffer.c:YASL_ByteBuffer_add_vint","data-structures/YASL_ByteBuffer.c:YASL_ByteBuffer_rewrite_int_fast"])
p("C20","Error line numbers",
  "For any line table written by the compiler (nondecreasing code offsets) the line reported for a code offset is the number of recorded line ends strictly before it.",
  "all line tables, all offsets","All programs.", [VM+":vm_getcurrline"])
p("C21","== is an equivalence on non-NaN values of one type; NaN equals nothing",
  "== is symmetric always, reflexive except on NaN, and transitive within ints, floats, strings, bools, undef, userptrs.",
  "all values","Infinite domain.", ["interpreter/YASL_Object.c:isequal"])
p("C22","Mixed int/float equality is transitive",
  "a == b and b == c imply a == c for all numbers.",
  "all numbers","Only fails beyond 2^53.", ["interpreter/YASL_Object.c:isequal"])
p("C23","String ordering is a total lexicographic byte order",
  "The comparison used by < <= > >= == and sort on strings is antisymmetric, transitive, total, equals byte-wise lexicographic order and is 0 exactly for equal contents, independent of how each string is stored.",
  "all pairs/triples of strings","Infinite domain.", [ST+":YASL_String_cmp"])
p("C24","Numeric comparison operators are coherent",
  "For ints exactly one of <, ==, > holds and they agree with mathematical order; a<=b iff a<b or a==b; for floats without NaN likewise; any comparison with NaN is false.",
  "all numbers","Infinite domain.", [VM+":DEFINE_COMP","interpreter/VM.h:COMP"])
p("C25","Falsiness",
  "Exactly undef, false, the empty string and NaN are falsey; ! returns the boolean of that; every int including 0 is truthy.",
  "all values","Infinite domain.", ["interpreter/YASL_Object.c:isfalsey",VM+":O_NOT"])
p("C26","Integer arithmetic",
  "+,-,* return the exact result whenever it fits in 64 bits; a//b and a%b satisfy a == (a//b)*b + a%b with |a%b| < |b|; // and % by zero raise DivisionByZero; &,|,^,&^,~ act bitwise; << and >> by 0..63.",
  "all pairs of ints","2^128 inputs.", [VM+":vm_int_binop",VM+":vm_num_binop",VM+":O_IDIV",VM+":O_MOD"])
p("C27","Constant folding preserves meaning",
  "Evaluating an expression after compile-time constant folding gives the same value or the same error as evaluating it without folding.",
  "all expressions, all environments","All expression trees.", ["compiler/middleend.c:fold_BinOp","compiler/middleend.c:fold_UnOp","compiler/middleend.c:fold"])
p("C28","Compiled expressions compute the value of the source expression",
  "Running the bytecode generated for an expression pushes exactly the value given by the language's evaluation rules (including short-circuit of && || ?? and ?:) on top of an otherwise unchanged stack, and continues right after the generated code; errors raised are the same.",
  "all expressions over literals, locals, globals, operators; all stacks; any code before and after","All program trees.", [CO+":visit_BinOp",CO+":visit_TriOp",CO+":visit_UnOp",VM+":vm_executenext"])
p("C29","Compiled statements execute as written",
  "Running the bytecode of if/else, while loops, blocks, let/assignment and echo has the effect of the source-level semantics on variables and output and leaves the stack as it was apart from declared locals.",
  "all programs of the modelled statements that stay within the machine's limits: at most 128 locals at a time (C32 is about more), a stack need of at most 1024, and break/continue only where no variable declared since the start of the loop body is visible (C30 is about the others)","All program trees and loop counts.", [CO+":visit_If",CO+":visit_While",CO+":visit_Block",CO+":visit_Assign"])
p("C30","break and continue leave variables intact",
  "Leaving or continuing a loop from inside a block restores the stack to its height at loop entry so later variables keep their values.",
  "all loop bodies","Depends on locals declared before the break.", [CO+":visit_Break",CO+":visit_Continue",CO+":exit_scope"])
p("C31","Literals survive compilation",
  "The value loaded at run time for a literal is the literal: interning any sequence of strings, ints and floats gives indices whose decoded constants equal what was interned, and equal literals share an index.",
  "all sequences of literals","All pools, all sizes, all byte values.", [CO+":compiler_intern_int",CO+":compiler_intern_string",CO+":compiler_intern_float",VM+":vm_setupconstants",CO+":compiler_add_literal"])
p("C32","Every local variable has its own slot",
  "With any number of locals the compiler accepts in one function, reading a variable returns the last value stored in that variable, and storing affects no other variable.",
  "all numbers of locals, all variables","Only fails with many locals.", [CO+":decl_var",CO+":load_var_local",CO+":store_var_cur_scope",VM+":O_LLOAD",VM+":O_LSTORE"])
p("C33","Names resolve to the innermost enclosing declaration",
  "A name refers to the most recent declaration in the innermost enclosing scope; leaving a scope restores the previous meaning; distinct visible locals have distinct indices.",
  "all nesting structures and declaration sequences","All programs.", ["compiler/env.c:scope_get","compiler/env.c:scope_decl_var","compiler/env.c:scope_len","compiler/env.c:scope_contains",CO+":exit_scope"])
p("C34","Constants cannot be reassigned",
  "An assignment to a variable declared const is rejected at compile time wherever it is written, and one to a let variable is not rejected for that reason.",
  "all scopes and nestings","All programs.", ["compiler/env.c:scope_make_const",CO+":store_var",CO+":store_var_cur_scope"])
p("C35","Closures capturing the same variable share it",
  "Two closures that capture the same variable observe each other's writes, before and after the declaring function returns.",
  "all orders of capture, all sets of captured variables","Depends on capture order.", [VM+":add_upvalue",VM+":vm_close_all_helper","interpreter/upvalue.c:upval_close"])
p("C36","List indexing",
  "ls[i] for -n <= i < n returns element i mod n and ls[i]=v changes exactly that element; any other index raises ValueError and changes nothing.",
  "all lists, all 64-bit indices","All lengths and indices.", [LM+":list___get_helper",LM+":list___set"])
p("C37","List push, pop, insert, clear",
  "push appends, pop removes and returns the last, insert at i shifts the tail, all for any capacity; out-of-range insert and pop of empty raise ValueError and change nothing; no operation reads or writes outside the allocation.",
  "all operation sequences","All growth points.", [L+":YASL_List_append",L+":YASL_List_insert",LM+":list_pop",LM+":list_insert",LM+":list_clear"])
p("C38","List reverse, copy and concatenation",
  "reverse reverses in place (twice is identity); copy gives an equal, independent list; a + b has the elements of a then b and leaves both unchanged.",
  "all lists","All lengths.", [L+":YASL_reverse",LM+":list_copy",LM+":list_concat"])
p("C39","List slices",
  "ls[a:b] never fails or reads out of bounds for any ints a,b and returns the elements with index in [max(0,a'),min(n,b')) where negatives count from the end.",
  "all lists, all 64-bit bounds","All bounds.", [VM+":vm_SLICE_list"])
p("C40","list.sort sorts",
  "When sort returns, the list is a permutation of the original in nondecreasing order, whatever pivots rand() chooses; lists of mixed or other types raise ValueError unchanged.",
  "all lists of numbers or strings, all rand() outcomes","n! permutations times all pivot choices.", [LM+":sort",LM+":list_sort","interpreter/YASL_Object.c:yasl_object_cmp"])
p("C41","list.sort terminates",
  "sort terminates for every list and every sequence of rand() values.",
  "all lists, all rand() outcomes","Adversarial pivots are never drawn in tests.", [LM+":sort"])
p("C42","list.search and list.count",
  "search returns the index of an equal element or undef when none; count returns the number of equal elements.",
  "all lists and needles","All lists.", [LM+":list_search",LM+":list_count"])
p("C43","list.join",
  "join concatenates the string forms of the elements with the separator between them, for any sizes.",
  "all lists and separators","All buffer growth points.", [LM+":list_join"])
p("C44","String slices and indexing",
  "s[a:b] returns the bytes with index in [a',b') for all int bounds (empty if none) without memory errors; s[i] the byte at i mod n or ValueError.",
  "all strings (heap or literal, any offset), all 64-bit bounds","All bounds and representations.", [VM+":vm_SLICE_str",SM+":str___get",ST+":YASL_String_new_substring"])
p("C45","String search finds the first occurrence",
  "s.search(t) is the least i with s[i:i+len t]==t, or undef when there is none.",
  "all strings","All strings.", [ST+":str_find_index",SM+":str_search"])
p("C46","String replace",
  "s.replace(a,b) replaces exactly the leftmost non-overlapping occurrences of a; with a limit, exactly the first `limit` of them.",
  "all strings, all limits","All occurrence patterns.", [ST+":YASL_String_replace_fast_default",ST+":YASL_String_replace_fast"])
p("C47","String count",
  "s.count(t) is the number of leftmost non-overlapping occurrences and terminates.",
  "all strings","All occurrence patterns.", [ST+":YASL_String_count"])
p("C48","split is undone by join",
  "For nonempty sep, joining s.split(sep) with sep gives s and no piece contains sep; s.split() gives the maximal whitespace-free runs in order.",
  "all strings and separators","All occurrence patterns.", [ST+":YASL_String_split_fast",ST+":YASL_String_split_default"])
p("C49","trim, ltrim, rtrim",
  "ltrim/rtrim/trim (default) return the string without its leading/trailing whitespace, and with an argument without leading/trailing repetitions of it; always terminates without memory errors.",
  "all strings and needles","All whitespace/needle layouts.", [ST+":YASL_String_trim_default",ST+":YASL_String_trim",ST+":YASL_String_ltrim",ST+":YASL_String_rtrim"])
p("C50","startswith, endswith, rep, toupper, tolower",
  "startswith/endswith decide prefix/suffix; rep(n) is n-fold concatenation; toupper/tolower change exactly ASCII letters and are idempotent, length preserving.",
  "all strings","All strings.", [ST+":YASL_String_startswith",ST+":YASL_String_endswith",ST+":YASL_String_rep_fast",ST+":DEFINE_STR_TO_X"])
p("C51","Strings do not depend on their storage",
  "Every string method gives the same result for a literal-backed view and for a heap copy with the same bytes.",
  "all strings, all offsets","All offsets.", [ST+":YASL_String_new_substring",ST+":YASL_String_chars"])
p("C52","Integers survive tostr/toint",
  "i.tostr().toint() == i for every int.",
  "all 64-bit ints","2^64 values.", ["interpreter/int_methods.c:int_tostr",ST+":YASL_String_toint",ST+":parseint64"])
p("C53","Skipping a pattern consumes exactly that pattern",
  "Whether a compiled pattern matches or not, and whether it is matched or skipped, exactly its bytes are consumed, so an alternative p|q tries q from its own start.",
  "all patterns, all values, all surrounding code","All pattern trees.", [VM+":vm_ff_subpattern",VM+":vm_MATCH_subpattern",VM+":vm_MATCH_table_elements",VM+":MATCH_list"])
p("C54","match selects according to the pattern",
  "A compiled pattern matches a value iff the value has the described shape (types, literals, list/table structure, rest patterns, alternatives).",
  "all patterns and values","All pattern trees and values.", [VM+":vm_MATCH_subpattern",CO+":visit_CollectionPattern",CO+":visit_AltPattern"])
p("C55","The value stack is a bounded LIFO",
  "Pushing n values and popping n returns them in reverse order and leaves the rest unchanged; a push on a full stack raises StackOverflow instead of writing outside the stack.",
  "all push/pop sequences","All depths.", [VM+":vm_push",VM+":vm_pop","yasl.c:YASL_pushint","yasl.c:YASL_pop"])
p("C56","Typed pops always pop",
  "YASL_popint/popbool/popfloat remove the top of the stack and return its value if of that type and the zero value otherwise.",
  "all stacks","All value types.", ["yasl.c:YASL_popint","yasl.c:YASL_popbool","yasl.c:YASL_popfloat","yasl.h:YASL_popint"])
p("C57","Calls pass and return the right number of values",
  "A call with too few arguments is padded with undef and with too many truncated; a call expecting r results leaves exactly r values (padded/truncated) in place of function and arguments; everything below is unchanged.",
  "all argument/return counts, all stacks","All counts.", [VM+":vm_fill_args",VM+":vm_exitframe_multi",VM+":vm_rm_range",VM+":vm_INIT_CALL_offset"])
p("C58","YASL_functioncall reports the number of results",
  "YASL_functioncall(S,n) returns r, the number of return values of the called function.",
  "all n, all functions","All counts.", ["yasl.c:YASL_functioncall","yasl.h:YASL_functioncall"])
p("C59","Globals set from C are the globals read back",
  "After YASL_declglobal(n); YASL_setglobal(n) with v on top, YASL_loadglobal(n) pushes v until the next set of n; setting an undeclared or const global is refused and changes nothing.",
  "all histories of global operations","All histories.", ["yasl.c:YASL_setglobal","yasl.c:YASL_loadglobal","yasl.c:YASL_declglobal"])
p("C60","Reference counting never frees a reachable object and frees unreachable acyclic ones",
  "In any history of stores to stack, list and table slots the count of each object equals the number of references to it, it is freed exactly when that reaches zero, never twice.",
  "all histories of reference operations","All aliasing patterns.", ["interpreter/refcount.c:inc_ref","interpreter/refcount.c:dec_ref","interpreter/refcount.c:dec_strong_ref",VM+":vm_push"])
p("C61","list.pop does not leak",
  "After pop, the count of the popped object equals the number of references to it.",
  "all lists","Leaks are unobservable in functional tests.", [LM+":list_pop"])
p("C62","Printing cyclic lists and tables terminates",
  "tostr terminates on every finite graph of lists and tables, printing [...] / {...} at back references.",
  "all finite heap graphs","All graphs.", [LM+":list_tostr_helper",TM+":table_tostr_helper",TM+":rec_call",TM+":buffer_contains"])
p("C63","math.gcd and math.lcm",
  "For positive a,b gcd is the greatest common divisor and lcm the least common multiple whenever it fits in 64 bits; otherwise undef for non-positive arguments.",
  "all pairs of ints","2^128 inputs.", ["std/yasl-std-math.c:gcd_helper","std/yasl-std-math.c:YASL_math_lcm"])
p("C64","math.max and math.min",
  "max returns an argument that is >= every argument; min one that is <= every argument.",
  "all argument lists","Fails only beyond 2^53.", ["std/yasl-std-math.c:YASL_math_max","std/yasl-std-math.c:YASL_math_min"])
p("C65","echo prints the string without NUL bytes and captured output accumulates",
  "echo s outputs the bytes of s other than NUL followed by a newline for any length; output captured to a string is the concatenation of everything printed.",
  "all strings, all print histories","All lengths around the scratch size.", [VM+":vm_ECHO","util/IO.c:io_str_strip_char","util/IO.c:io_print_string"])
p("C66","for-loops visit each element once in order",
  "for x <- list visits the elements in index order; for over a string its bytes; for over a table each key once.",
  "all collections","All sizes.", [VM+":vm_ITER_1",VM+":O_INITFOR"])
p("C67","Loop nesting never corrupts memory",
  "Entering a for-loop never writes outside the loop-frame array, at any nesting or recursion depth.",
  "all nesting depths","Needs 17 active loops.", [VM+":O_INITFOR","interpreter/VM.h:loopframes"])
p("C68","A table returns its own entries",
  "After t[k]=v, t[k] (the index expression) evaluates to v, for every key k.",
  "all tables and keys","Only fails for keys that name builtin methods.", [VM+":vm_GET_helper2",VM+":lookup2",TM+":table___get"])
p("C69","set.clear() empties the set",
  "After s.clear() on a collections.set no value is a member and len is 0.",
  "all sets","Only fails for sets that have grown (24 or more elements).", ["std/yasl-std-collections.c:YASL_collections_set_clear","data-structures/YASL_Set.c:YASL_Set_rm"])
p("C70","isal, isnum, isalnum, isspace classify strings",
  "s.isal() (isnum, isalnum, isspace) is true iff every byte of s is a letter (digit, letter or digit, whitespace), without undefined behaviour.",
  "all byte strings","All byte values, including those from 0x80 on.", ["data-structures/YASL_String.c:YASL_String_isal","data-structures/YASL_String.c:YASL_String_isspace"])
p("C72","math.isprime decides primality",
  "math.isprime(n) is true iff n is a prime number, for every int n.",
  "all 64-bit ints","All ints; only some negative ones fail.", ["std/yasl-std-math.c:YASL_math_isprime","util/prime.c:is_prime"])
p("C73","math.abs and conversions between int and float",
  "math.abs(x) is the absolute value; f.toint() truncates towards zero when the result is an int; i.tofloat().toint() == i for |i| <= 2^53.  Where the C code has undefined behaviour (abs of the smallest int, toint out of range) it is identified exactly.",
  "all ints and floats","All 2^64 bit patterns.", ["std/yasl-std-math.c:YASL_math_abs","interpreter/float_methods.c:float_toint","interpreter/int_methods.c:int_tofloat"])
p("C71","str.toint reads numerals",
  "A string of decimal digits with optional sign, or 0x followed by hexadecimal digits, or 0b followed by binary digits, with underscores among the digits, converts to the number it denotes, clamped to the range of ints.",
  "all such strings","All digit strings of all lengths.", ["data-structures/YASL_String.c:YASL_String_toint","data-structures/YASL_String.c:parseint64"])
p("C74","Floats survive tostr/tofloat",
  "x.tostr().tofloat() == x for every finite float with at most six decimals.",
  "all floats","All 2^64 bit patterns.", ["util/yasl_float.c:float64_to_str","data-structures/YASL_String.c:YASL_String_tofloat"])
p("C75","float.tostr prints the value to six decimals",
  "The text of a finite float is an optional sign, digits, a dot and one to six digits without superfluous zeros, and denotes a decimal within half of 10^-6 of the float; infinities and NaN print as inf, -inf, nan.",
  "all floats","All 2^64 bit patterns.", ["util/yasl_float.c:float64_to_str"])
p("C76","Parameters are bound to arguments in order",
  "In a function the k-th parameter name denotes the k-th argument of the call.",
  "all parameter lists accepted by the compiler, wherever the function is declared","All programs.", ["compiler/compiler.c:visit_FnDecl","compiler/env.c:scope_decl_var"])
p("C77","match runs the first clause that fits",
  "A match statement runs exactly the first clause whose pattern matches and whose guard is true, with the variables of the pattern bound; if there is none it runs nothing.  Afterwards the variables around it are as before.",
  "all lists of clauses, guards and values","All combinations of patterns, guards and bindings, and what follows the statement.", ["compiler/compiler.c:visit_Match_helper","compiler/compiler.c:visit_Match",VM+":vm_MATCH_IF"])
LX="compiler/lexer.c"
p("C78","Reading a source text ends",
  "Every call of the lexer takes at least one byte from the text or reports its end; so for every text the end is reached after at most one token per byte, also after errors.",
  "all source texts, all states of the lexer","All byte sequences, well-formed or not.", [LX+":gettok",LX+":lex_eatcommentsandwhitespace",LX+":lex_error"])
p("C79","String literals denote their bytes",
  "A literal between single quotes denotes the bytes it spells: escapes stand for their byte, \\xhh for the byte with that hexadecimal value, all other bytes for themselves; every string can be written; between backquotes every byte stands for itself; between double quotes likewise up to the quote or an interpolation; unclosed literals and other escapes are errors.",
  "all literals","All texts of all lengths with every mixture of escapes.", [LX+":lex_eatstring",LX+":handle_escapes",LX+":lex_eatrawstring",LX+":lex_eatinterpstringbody"])
p("C80","Number literals denote their value",
  "A decimal, hexadecimal or binary numeral, with underscores, is the int it denotes, or is refused if it is too large; a float literal is the number it spells, and the text after a literal is read as if it stood alone.",
  "all numerals and all texts following them","All digit sequences of all lengths.", [LX+":lex_eatnumber",LX+":lex_eatint",LX+":lex_eatfloat",LX+":lex_eatnumber_fill","compiler/parser.c:get_int"])
p("C81","Operators are read by longest match",
  "At an operator the longest operator of the language that the text begins with is read, and the rest of the text is left; a byte that begins nothing is reported and skipped.",
  "all operators and all texts following them","All continuations of the text.", [LX+":lex_eatop",LX+":YASLToken_ThreeChars",LX+":YASLToken_TwoChars",LX+":YASLToken_OneChar"])
p("C82","Layout only separates",
  "Spaces, tabs, line ends and comments have no effect other than on line numbers, except that a line end, in or outside a comment, after a token that can end a statement is a semicolon.",
  "all sequences of blanks and comments between all pairs of tokens","All nestings and lengths of layout.", [LX+":lex_eatcommentsandwhitespace",LX+":lex_eatwhitespace",LX+":lex_eatinlinecomments","compiler/lexer.h:ispotentialend"])
p("C83","Words are names, keywords or reserved",
  "A word is read as long as possible; it is a keyword exactly if it is one of the seventeen keywords, a literal if it is true or false, refused if it is reserved, and a name otherwise; after . and -> it is always a name.",
  "all words and all texts following them","All words of all lengths.", [LX+":lex_eatid",LX+":YASLKeywords"])
p("C84","Line numbers count line ends",
  "The line number of every token is one more than the number of line ends in the text up to the end of the token.",
  "all source texts, all tokens","All texts; line ends inside comments, strings and literals.", [LX+":gettok",LX+":lex_eatwhitespace",LX+":lex_eatrawstring","compiler/parser.c:ismultiassign"])
PA="compiler/parser.c"
p("C85","Reading a program ends",
  "For every text the compiler comes to an end: it accepts the text, or rejects it with a message.",
  "all source texts","All byte sequences, well-formed or not; a loop that never ends shows in no test that passes.", [PA+":parse_program",PA+":parse_primitivepattern",PA+":eattok","compiler/compiler.c:compile"])
p("C86","The language is the grammar",
  "A text is accepted if and only if its tokens can be derived from the grammar of the language, and the program it is compiled as is the tree that derivation stands for.",
  "all source texts and all trees","All programs, nested without bound, and all texts that are not programs.", [PA+":parse_program",PA+":parse_expr",PA+":parse_call",PA+":parse_constant",PA+":parse_match"])
p("C87","No text has two meanings",
  "However the items of a text are derived from the grammar, the program is the same.",
  "all source texts and all pairs of derivations","All programs and all derivations.", [PA+":parse_program"])
p("C88","Operators group by precedence",
  "In A o1 B o2 C the operators group as the table of precedence and associativity says; ** binds tighter than a unary operator on its left and groups to the right; ?: is looser than all binary operators and groups to the right.",
  "all pairs of operators and all operands","All operands, themselves of any size.", [PA+":parse_undef_or",PA+":BINOP_R",PA+":BINOP_L",PA+":parse_unary",PA+":parse_power",PA+":parse_ternary"])
p("C89","x op= e is x = x op (e)",
  "An augmented assignment and the assignment with the operator and the right side in parentheses are the same program, for variables and for elements.",
  "all augmented assignments, all left and right sides","All expressions on both sides.", [PA+":parse_assign",PA+":tok_isaugmented","compiler/tokentype.x"])
p("C90","As many values as places",
  "An assignment or declaration with several places evaluates as many values as it has places: what is missing is undef, or comes from a call in the last place; an expression too many is refused.",
  "all lists of places and expressions","All numbers of places and expressions.", [PA+":parse_decl_helper",PA+":parse_var_pack",PA+":parse_assign_or_exprstmt"])
p("C91","A string with embedded expressions is their concatenation",
  "A literal between double quotes with #{...} in it is the concatenation of its pieces and the embedded expressions, in order, nested without bound; other text between the braces is refused.",
  "all such literals","All numbers of pieces and all expressions, strings with embedded expressions included.", [PA+":parse_string",LX+":lex_eatinterpstringbody"])
p("C92","Reading a program is defined",
  "Whatever the text, the compiler's reading of it accesses no element outside of an array.",
  "all source texts","All byte sequences.", [PA+":parse_call"])
p("C93","A program runs as it is written",
  "Running a source text does what its meaning says: the text is taken apart by the grammar, and the resulting statements are carried out in order; output, globals and errors are those of the statements as written, with the text as the only input.  If the compiler reports an error, nothing is run.",
  "all source texts of programs without functions, all values of the globals, all outcomes of operations on containers, all lengths of runs","The claim is about all texts, through the lexer, parser, constant folding, code generation and the virtual machine together.", ["yasl.c:YASL_execute","compiler/compiler.c:compile",PA+":parse","compiler/middleend.c:fold",VM+":vm_run"])
p("C94","A host program sees every entry of a table once",
  "A host program that goes through a table with YASL_tablenext, from undef on, sees each entry once with its value and is left with the table on top of the stack.",
  "all tables a history of assignments and removals gives, all stacks with room","All histories, all sizes and collisions; the order follows from hashes.", ["yasl.c:YASL_tablenext","data-structures/YASL_Table.c:YASL_Table_getindex"])
p("C95","Containers through the API",
  "Whatever calls a host program makes to build and read tables and lists (push, duplicate, pop, new table, new list, set, append, get), the stack, the returned codes and the errors raised are those of maps and sequences, with objects shared between places.",
  "all sequences of calls","All sequences of calls, in any order, with any sharing and any sizes.", ["yasl.c:YASL_tableset","yasl.c:YASL_listpush","yasl.c:YASL_listget","yasl.c:YASL_pushtable","yasl.c:YASL_pushlist","yasl.c:YASL_duptop"])
p("C96","Programs with functions run as written",
  "A program with functions which the compiler accepts does what it says: arguments are evaluated left to right, missing ones are undef and those too many are dropped; a call has its own local variables; functions read and write the variables of the file and the globals, recursion included; return ends the function from inside of loops and blocks, with its value; output, globals, errors and what is left on the stack are those of the program as written, unless the stack, the frames or the nested loops run out.",
  "all programs whose functions use their own variables, those of the file and globals, within the limits of the implementation; all values of the globals, all outcomes of operations on containers, all C functions, all lengths of runs","Programs of any size, any depth of calls and length of runs; functions call each other in all ways.", ["compiler/compiler.c:visit_FnDecl","compiler/compiler.c:visit_Call","compiler/compiler.c:visit_Return","compiler/env.c:env_resolve_upval_index",VM+":vm_INIT_CALL",VM+":vm_CALL",VM+":vm_exitframe_multi",VM+":vm_CCONST"])
p("C97","Where require looks",
  "require(name) tries /usr/local/lib/yasl/NAME.yasl, ./NAME.yasl and NAME, in this order and only until one can be opened, and __require_c__ the four entries of its path and then the name; building the file names never writes outside of the buffer, whatever the length of the name.",
  "all names, all file systems; for the search itself, all paths","All strings and all sets of existing files; out-of-bounds writes need not show in a test.", ["std/yasl-std-require.c:open_on_path","std/yasl-std-require.c:search_on_path","std/yasl-std-require.c:YASL_require","std/yasl-std-require.c:YASL_require_c","yasl_conf.h:YASL_DEFAULT_PATH"])
p("C98","Requiring modules keeps the literals of loaded code",
  "After a program has required any modules, which may require others, the literals in the code of the program and of every loaded module still mean what was written.",
  "all programs and trees of modules, all literals","All numbers, orders and nestings of modules and all sets of literals, with all collisions in the shared table of literals.", ["std/yasl-std-require.c:YASL_require","compiler/compiler.c:compiler_intern_string",VM+":vm_setupconstants"])
p("C99","Reading a file line by line",
  "read() on a file gives the text up to the next line feed, for lines of any length and with any bytes; n calls from the beginning give the first n lines of the text and then empty strings.  (The end of the file cannot be told from empty lines.)",
  "all contents, all positions, all numbers of calls","All lengths of lines, at and around each size of the growing buffer.", ["std/yasl-std-io.c:YASL_io_read"])
p("C100","What is written to a file is what is read back",
  "write(s) puts the bytes of s at the position (at the end in append mode) and returns their number; read('a') gives all bytes of the file wherever the position is; seek moves from the beginning, the position or the end and answers whether it could; strings written one after the other are read back as they are.",
  "all strings, contents, positions, offsets and sequences of writes","All contents and sequences of calls.", ["std/yasl-std-io.c:YASL_io_write","std/yasl-std-io.c:YASL_io_read","std/yasl-std-io.c:YASL_io_seek"])
p("C101","Opening and closing files",
  "io.open accepts the modes r, w, a, r+, w+, a+ and no mode, and no others; a file is closed once, by close or when it is no longer used.",
  "all values for the mode, all sequences of method calls","All strings; the release happens after all sequences of calls.", ["std/yasl-std-io.c:YASL_io_open","std/yasl-std-io.c:YASL_io_close","std/yasl-std-io.c:close_file","interpreter/userdata.c:ud_del_data"])
p("C102","Sets, lists and tables from arguments",
  "collections.set(...) holds the values given (or the elements of the one list given), each once; collections.list(...) the arguments in order; s.tolist() the elements of the set, each once; collections.table(k1, v1, ...) maps each key to its value.",
  "all arguments, all histories of the set","All numbers and values of arguments with all collisions.", ["std/yasl-std-collections.c:YASL_collections_set_new","std/yasl-std-collections.c:YASL_collections_list_new","std/yasl-std-collections.c:YASL_collections_table_new","std/yasl-std-collections.c:YASL_collections_set_tolist"])
p("C103","The text of a set",
  "tostr of a set is set(, the texts of its elements with a comma and a space between them, and ), for elements of any length; no byte is written outside of the buffer.",
  "all histories of the set, all texts of the elements","All sizes, at and around each size of the growing buffer.", ["std/yasl-std-collections.c:YASL_collections_set_tostr"])
p("C104","mt.get and mt.set",
  "mt.get(x) gives the metatable of x, which for a list, table or userdata is the one set last with mt.set (or the one it had); mt.set(x, t) changes the metatable of x only, and is a type error if t is not a table or x is another type of value.",
  "all values, all sequences of mt.set, all states of the stack","All sequences of calls with any sharing of objects.", ["std/yasl-std-mt.c:YASL_mt_getmt","std/yasl-std-mt.c:YASL_mt_setmt",VM+":obj_get_metatable",VM+":vm_get_metatable","yasl.c:YASL_setmt","interpreter/userdata.c:ud_setmt"])
p("C105","Operators call the methods of the left operand",
  "An operator on values it is not built in for calls the method of this name in the metatable of its left operand with both operands (a unary operator with the one operand, a[k] = v the method __set with all three), as any call, and the values below are kept; without such a method it is a type error.",
  "all values, metatables, methods and states of the stack","All methods, built in, in C or in YASL, in all states of the stack.", [VM+":vm_lookup_method_throwing",VM+":vm_num_binop",VM+":vm_EQ",VM+":vm_SET",VM+":vm_call_now_2",VM+":vm_shifttopdown"])
p("C106","A program with functions runs as it is written",
  "YASL_execute on a text with functions, recursion, calls of C functions and methods does what the text says: the same output, globals and effects, the same error if it ends in one, and no end if it has none; if an error is reported by the compiler nothing is run.",
  "all texts of the fragment, all C functions, containers and float operations, all global variables, all numbers of steps","All texts, with all nestings of functions, calls, blocks and loops, and all lengths of execution.", ["yasl.c:YASL_execute","compiler/compiler.c:compile",PA+":parse_program","compiler/middleend.c:fold",VM+":vm_run"])
p("C107","Programs with lists, tables and methods run as with sequences and maps",
  "YASL_execute on a text with lists, tables, strings and the built-in methods does what the text says when lists are sequences and tables are finite maps: the same output, the same error if it ends in one, and no end if it has none; hashing, growing, copying and sharing of memory cannot be seen.",
  "all texts of the fragment, all float operations, all numbers of steps","All texts, with all histories of all lists and tables they make and all sharing between them.", ["yasl.c:YASL_execute",VM+":vm_run","interpreter/builtins.c:list_builtins","interpreter/list_methods.c:list_push","interpreter/table_methods.c:table___set","interpreter/str_methods.c:str___get","data-structures/YASL_Table.c:YASL_Table_insert"])
p("C108","The host and C functions read what is on the stack",
  "A C function (or the host) sees its arguments as a stack: YASL_push… puts a value on top, YASL_is…, YASL_isn…, YASL_peek… and YASL_peekn… tell the type and value of the top or of the n-th argument and change nothing, YASL_pop… also remove the top (whatever its type), YASLX_checkn… accept a value of the right type and otherwise report the position and both types; what was pushed is what is read back, C strings included.",
  "all sequences of calls, all values and numbers of arguments","All sequences of calls on all stacks; a value left on the stack shows only later.", ["yasl.c:YASL_pushint","yasl.c:YASL_popint","yasl.c:YASL_peeknint","yasl.c:YASL_isnint","yasl.c:YASL_peekcstr","yasl.c:YASL_peeknuserdata","yasl_aux.c:YASLX_checknint","yasl.c:YASL_peekntypename"])
p("C109","Several texts, one after the other",
  "A state that is given one text after the other (YASL_resetstate_bb, then YASL_execute, or YASL_execute_REPL at the prompt) runs each as written: global variables keep their values from one text to the next, variables declared outside of blocks at the prompt are global, the value of a last expression is printed, a text that is refused or fails has no effect on the meaning of later ones, and each text's local variables are its own.",
  "all sequences of texts, all programs, all states of the world, any number of steps","All sequences of texts; what is left on the stack or in the compiler by one text shows only in a later one.", ["yasl.c:YASL_resetstate_bb","yasl.c:YASL_execute","yasl.c:YASL_execute_REPL","compiler/compiler.c:compile","compiler/compiler.c:compile_REPL","compiler/compiler.c:visit_Decl","main.c:main_REPL"])
p("C110","A text means the same in a file and in memory",
  "The tokens of a text (kinds, texts, lines, messages) are the same whether it is read from a file or from memory, at any byte the text may contain or end with, including the bytes 0 and 255 and an end in the middle of a token, and whatever looks ahead the parser takes; every request for a token returns, and nothing of the text is lost or read twice.",
  "all texts, all sequences of requests of the parser, files and memory","All texts and all sequences of tokens, looks ahead and string parts; the end of the text may come at each of the places where a character is read.", ["compiler/lexinput.c:lexinput_bb_seek","compiler/lexinput.c:lexinput_bb_getc","compiler/lexinput.c:lexinput_file_getc","compiler/lexer.c:gettok","compiler/lexer.c:lex_eatop","compiler/lexer.c:lex_eatnumber_fill",PA+":isfndecl",PA+":parse_string"])
p("C111","A comprehension has the values for the elements of the collection",
  "[e for x <- coll if cond] is the list of the values of e for the elements of coll for which cond holds, in order, and {k: v for x <- coll if cond} the table of these pairs, wherever the comprehension stands in an expression and however many elements there are; x is visible inside only, and no other variable or value is changed.",
  "all collections, conditions and elements, all expressions around and all programs before","All nestings and all numbers of elements: the place of the variable on the stack depends on what else is there.", ["compiler/compiler.c:visit_Comp","compiler/compiler.c:visit_Comp_cond","compiler/compiler.c:visit_ListComp","compiler/compiler.c:visit_TableComp",VM+":vm_executenext"])
p("C112","The compiler refuses a program exactly when it breaks a rule of the language",
  "Before anything of a program is run, it is refused exactly when a name that is used is not visible there (not declared before in a block around, in a function around, or given by the host), a name is declared twice in a block or twice among the parameters of a function, a constant is assigned to, a function or the file has more than 255 variables at a time, break or continue stand outside of a loop, or return outside of a function - in code that is never run as well.",
  "all programs, all nestings of blocks, loops and functions, all sets of host variables","Programs are unbounded trees; refusal is about all places of the program at once, and acceptance about the absence of any error.", ["compiler/compiler.c:visit_Decl","compiler/compiler.c:visit_Assign","compiler/compiler.c:visit_Var","compiler/compiler.c:visit_FnDecl","compiler/compiler.c:visit_Break","compiler/compiler.c:visit_Return","compiler/env.c:scope_decl_var","compiler/env.c:scope_contains"])
p("C113","The command yasl does what its usage says",
  "yasl -C finds a file wrong exactly when running the file would report an error before anything is run; yasl alone executes the lines of its input one after the other and ends when one of them calls quit or the input ends; every other use than the listed options is a file to be run, and its name and the words after it are the elements of args.",
  "all files, all command lines, all inputs","All programs and all inputs: the check and the run differ in what is declared, and the end of the input comes after any number of bytes.", ["main.c:main","main.c:main_compile","main.c:main_file","main.c:main_REPL"])
p("C114","Declaring the standard libraries gives exactly the documented names",
  "After YASLX_decllibs the globals collections, io, math and mt are new tables with exactly the documented entries (each C function with its number of arguments, pi, inf and nan, the three standard streams with the methods of files), require and __require_c__ are functions, the metatables of sets and of files are registered with exactly their methods; these names can be assigned by the program; the stack, every other global, every other declared name, every other metatable and every existing object are as before. A second declaration, as made by require on the shared globals, binds the names to other new tables, so that entries added by the program are no longer found under them.",
  "all states of the interpreter before the declaration, with any globals, metatables, objects and values on the stack","All states before: hash tables grow and collide depending on what is in them, and a wrong stack depth in one of about 180 calls shifts all later ones.", ["yasl_aux.c:YASLX_decllibs","std/yasl-std-collections.c:YASL_decllib_collections","std/yasl-std-io.c:YASL_decllib_io","std/yasl-std-math.c:YASL_decllib_math","std/yasl-std-require.c:YASL_decllib_require","std/yasl-std-mt.c:YASL_decllib_mt"])
p("C115","The memory of a text that was read is freed once",
  "Whatever is read, and however often realloc moves a block: no node of the syntax tree is used after it was freed, all children of nodes are valid while the tree is compiled, and deleting the state frees every node and every name in it exactly once. The recursion that frees them is as deep as the number of nodes of all texts read by the state.",
  "all sequences of the parser's and folder's operations on nodes (constructors, body_append, changes of type, replacement of children), for all choices of realloc","The list of nodes is changed in its middle while it is built, in an order that depends on the text; every moved block must be reached by exactly one pointer.", ["compiler/ast.c:new_Node","compiler/ast.c:body_append","compiler/ast.c:node_del","compiler/parser.c:parser_register_node","compiler/parser.c:parser_unregister_node","compiler/parser.c:parser_cleanup"])
p("C116","The report of a runtime error names the calls that led to it",
  "When a runtime error is reported, the report gives the line of the error, then the lines of the calls in progress, innermost first; if a C function is running the error is reported where it was called. Calls that have not been made are not reported. Reporting touches nothing outside of the stack, ends, and leaves no function running.",
  "all histories of calls that are begun, made and ended, with any values, loops and places of the code in between",
  "The histories are unbounded; tests of the trace look at one or two nested calls.",
  [VM+":printline", VM+":vm_exitframe", VM+":vm_enterframe_offset"])
p("C117","The memory of closures and of captured variables",
  "A variable captured by a closure stays usable as long as the program can get at it, directly or through any closure that captured it, also after the function that declared it has returned; closures, captured variables and their values are freed when nothing can get at them any more, and at the end of the program; no freed memory is used, whatever closures are made, shared, called, assigned through, dropped or left over by an error.",
  "all histories of pushes, pops, stores, lists, closures over local variables and over variables of the enclosing closure, reads and assignments of captured variables, and ends of calls",
  "Whether memory is used after it was freed depends on which references happen to be left in dead stack slots, hence on the whole history; a test only fails if the allocator reuses the memory.",
  ["/repo/interpreter/closure.c: closure_del_data", "/repo/interpreter/upvalue.c", "/repo/interpreter/refcount.c: inc_ref, dec_ref", "/repo/interpreter/VM.c: add_upvalue, vm_CCONST, vm_close_all, vm_cleanup, O_ULOAD, O_USTORE"])
p("C118","The memory of a state",
  "A host that makes a state, gives it any number of texts, runs or compiles them, calls the functions they made, captures their output and deletes the state never uses memory that was freed and frees nothing twice, and afterwards nothing of the state is left in memory.",
  "all histories of YASL_resetstate, YASL_resetstate_bb, YASL_execute, YASL_execute_REPL, YASL_compile, YASL_functioncall, YASL_setprintout_tostr and YASL_setprinterr_tostr between YASL_newstate and YASL_delstate, whatever the texts are: accepted or not, requiring modules, calling functions of earlier texts",
  "What is freed depends on the order of all calls before; tests make a state, run one text and delete the state.",
  ["/repo/yasl.c: YASL_newstate, YASL_resetstate, YASL_resetstate_bb, YASL_execute, YASL_compile, YASL_delstate", "/repo/compiler/compiler.c: compile, compiler_cleanup", "/repo/compiler/env.c: scope_del", "/repo/interpreter/VM.c: vm_init, vm_cleanup, vm_setupconstants", "/repo/std/yasl-std-require.c: YASL_require"])
p("C119","Captured output is what was printed",
  "After YASL_setprintout_tostr, YASL_loadprintout pushes everything the texts wrote since, in order; after YASL_setprinterr_tostr, YASL_loadprinterr pushes the reports of errors since: those of the compiler if it refused the present text, else those of the runs.",
  "all histories of texts, changes of the source and captures",
  "Tests capture the output of one text in a fresh state.",
  ["/repo/yasl.c: YASL_setprintout_tostr, YASL_setprinterr_tostr, YASL_loadprintout, YASL_loadprinterr, YASL_resetstate", "/repo/util/IO.c: io_print_string", "/repo/compiler/lexer.h: NEW_LEXER"])

p("C120","Userdata, metatables and destructors",
  "The destructor of a userdata is called exactly once, when the program and the host can get at the userdata no more, at the latest by YASL_delstate, and never before; a metatable stays as long as an object has it or the program can get at it otherwise; setting a metatable, on an object that has one or none, and reading it use no freed memory.",
  "all histories of pushes, pops, stores, YASL_pushuserdata, YASL_setmt, mt.set, mt.get, entries of tables made and removed, globals and registered metatables set, replaced and read",
  "When an object dies depends on all references left in the stack, in tables, globals and metatables, hence on the whole history.",
  ["/repo/interpreter/userdata.c: ud_new, ud_del_data, ud_setmt", "/repo/interpreter/refcount.c: dec_ref", "/repo/yasl.c: YASL_pushuserdata, YASL_setmt, YASL_registermt, YASL_loadmt, YASL_setglobal", "/repo/std/yasl-std-mt.c", "/repo/interpreter/VM.c: vm_get_metatable, vm_cleanup"])
p("C121","An expression used as a statement leaves nothing behind",
  "A statement that is an expression is evaluated for its effects, and has no influence on the variables declared after it.",
  "all texts, whatever the expressions and wherever they stand among the statements of the file",
  "The tests use calls by name as statements; which texts are such statements is decided by the parser for infinitely many expressions, and a value left behind only shows in variables declared later.",
  ["/repo/compiler/parser.c: parse_program, isfndecl, parse_assign_or_exprstmt", "/repo/compiler/compiler.c: visit_ExprStmt, visit_Call, compile"])
p("C122","Lists and tables have the methods of their type",
  "Every list and every table a program or a host gets answers to len, echo, indexing, assignment, operators and the methods of its type, wherever it was made: by a literal, a slice, an operator, a method, a library function or the API.",
  "all histories of making lists and tables, changes of tables, and mt.set; all names of methods",
  "A test of a function that makes a container looks at its contents, not at what can be done with it later; the test of table.copy reads only keys that are there.",
  ["/repo/interpreter/table_methods.c: table_copy, table_keys, table_values, table___bor", "/repo/interpreter/list_methods.c: list_copy, list_concat", "/repo/interpreter/str_methods.c: str_split", "/repo/interpreter/VM.c: O_NEWTABLE, O_NEWLIST, vm_SLICE_list, vm_lookup_method_throwing", "/repo/yasl.c: YASL_pushtable, YASL_pushlist", "/repo/std/yasl-std-collections.c", "/repo/data-structures/YASL_Table.c: rcht_new_sized"])
p("C123","math.rand uses all 64 bits",
  "math.rand returns an int, every int is possible, and no call is undefined.",
  "all results of the C function rand(), all RAND_MAX that C allows",
  "A test sees a few of 2^64 values, made with the RAND_MAX of one C library; a bit that is never set does not show.",
  ["/repo/std/yasl-std-math.c: YASL_math_rand"])
p("C124","A call that is an operand or an argument gives one value",
  "A call gives one value wherever one value is needed; only the call that is the last right side of a declaration of several places, the last argument of a call, or the value of return gives as many as are taken.",
  "all declarations of several places and all expressions on their right side",
  "The number of values a call leaves is a field of the compiler's state that is in force while everything inside of the call is compiled; the tests use plain calls with plain arguments.",
  ["/repo/compiler/compiler.c: visit_VariadicContext, visit_Call, visit_MethodCall, visit_Decl", "/repo/compiler/parser.c: parse_var_pack, will_var_expand", "/repo/interpreter/VM.c: O_INIT_CALL, O_RET"])
p("C125","export and return where they belong",
  "`export` is accepted at the top level of a text and nowhere else, `return` in functions and nowhere else, also in code that is never run.",
  "all programs, all nestings of functions, blocks, loops, comprehensions and clauses of match, whatever else is refused",
  "All depths and kinds of nesting, and code the compiler leaves out (the branches of constant conditions).",
  ["/repo/compiler/compiler.c: visit_Export, visit_Return, visit_MultiReturn, enter_scope, validate, compile, compile_REPL"])
p("C126","A file exports the value of its expression",
  "A file that reaches `export e` ends there, and its value is what e means after the statements before it; nothing that follows is executed; an error before that is the error of the file, and nothing is exported; a file without an export exports nothing.",
  "all files with an export, with functions, loops and calls, whatever comes before and after; all globals, all C functions",
  "The modules of the tests export a few fixed values; that the value on the top of the stack is the right one depends on all the code before it.",
  ["/repo/compiler/compiler.c: visit_Export, compile, return_bytes", "/repo/interpreter/VM.c: O_EXPORT, vm_executenext", "/repo/std/yasl-std-require.c: YASL_require"])
if __name__ == "__main__":
    with open(os.path.join(os.path.dirname(__file__), "..", "properties.jsonl"), "w") as f:
        for q in P: f.write(json.dumps(q) + "\n")
    print(len(P))
