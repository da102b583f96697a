# Formal model of YASL in Lean 4 — design

Property list: `properties.jsonl`.  Status and theorem names: `MANIFEST.json`.
Model: `lean/Verif/Model/*.lean` (definitions, each citing file:lines of /repo), helper lemmas:
`lean/Verif/Proofs/*.lean`, property theorems with their non-vacuity examples: `lean/Verif/Props/*.lean`.

## 1. Conventions

* **Integers.** `yasl_int`/`size_t` are `BitVec 64` (or `Nat` with an explicit `% 2^64`) wherever wrap-around or
  overflow is part of the property.  Signed overflow, out-of-range shifts, `INT64_MIN / -1`, out-of-bounds
  reads/writes are an explicit outcome `ub`, never assumed away.
* **Floats** are their 64-bit IEEE-754 pattern.  A finite pattern denotes an integer multiple of 2^-1074, so
  comparisons are exact integer comparisons; int→double conversion is round-to-nearest-even to 53 bits.
  Float *arithmetic* (`+ - * / pow`, printf/strtod of floats) is an opaque parameter.
* **Strings** are byte lists; where storage matters (`start`,`end`,`on_heap`, shared buffer) they are a record with
  a backing array.
* **Loops that might not terminate** take fuel and return `Option`: partial correctness is `∀ fuel r, run fuel = some r → …`,
  termination `∃ fuel r, run fuel = some r`, divergence `∀ fuel, run fuel = none`.
* **rand()** is an arbitrary oracle stream; **malloc** never fails; **sqrt** in `is_prime` is a parameter `b` with
  `Nat.sqrt x ≤ b x`.
* When the code violates a property, the negation is proved on a concrete witness
  and the strongest restriction found true is proved as `…_partial`.

## 2. Plan per property

| id | model | method |
|----|-------|--------|
| C01 | Table (slot array, double hash, resize) | refinement to last-write map, induction on history; fuel measure for termination |
| C02 | Table | same refinement with removals, partial correctness |
| C03 | Table | false: witness history (31×insert/remove) diverges; partial: terminates iff an unused slot exists |
| C04 | Table | false (removing an absent key decrements); partial for histories removing present keys |
| C05 | Table | entries list is NoDup and equals the abstract map |
| C06 | Hash | coverage by modular arithmetic, n prime |
| C07 | Table | resize preserves abstract map |
| C08 | Table | case analysis, all tables |
| C09 | Table | false: witness; |
| C10 | Table methods | false: size 30 composite, witness; partial: cleared contents |
| C11 | Table methods | fold of inserts, uses C01 refinement |
| C12 | Table methods | loop invariant over entries |
| C13–C15 | Set | same slot-array theory instantiated with untyped equality |
| C16 | Set | false: witness 1 and 1.0 |
| C17 | Prime | trial division correctness, against Mathlib `Nat.Prime` |
| C18 | Varint | induction |
| C19 | ByteBuffer | refinement to byte list with allocation bound; false for size 0 start |
| C20 | VM line table | induction over encoded table |
| C21–C22, C24–C25 | Value | case analysis on integer semantics of bit patterns; C22 negation at 2^53 |
| C23 | Str cmp | induction, lexicographic order |
| C26 | Int ops | BitVec arithmetic with `ub` outcome |
| C27 | Fold | structural induction on expression trees; false for `1.0 === 1`; partial otherwise |
| C28, C29 | Compiler + VM | compiler correctness by structural induction / fuel induction, code embedded at any offset |
| C30 | Compiler + VM | false: witness program; partial for bodies without locals |
| C31 | ConstPool | encode/decode round trip by induction |
| C32 | Locals | false at slot ≥128; partial below |
| C33, C34 | Env | induction over scopes |
| C35 | Upvalue | false: witness capture order; partial for ordered captures |
| C36–C39 | List | refinement to `List` |
| C40, C41 | Sort | induction with oracle; C41 false |
| C42, C43 | List | induction |
| C44–C51 | Str | refinement to byte lists, explicit `ub` |
| C52 | Num | decimal round trip |
| C53, C54 | Match | structural induction on pattern trees / encoded bytes |
| C55–C57 | Stack/Calls | refinement to `List` |
| C58, C56 | API | false: witness; partial |
| C59 | Globals | map refinement |
| C60, C61 | Refcount | heap-graph invariant over histories |
| C62 | Tostr | well-founded on unvisited nodes |
| C63, C64 | Math | Nat.gcd; C64 false beyond 2^53 |
| C65 | IO | induction over chunks |
| C66, C67 | Iteration | induction; C67 false at depth 17 |
| C68 | GET | false for method names; partial otherwise |
| C69 | Set | false for grown sets (witness); partial by case analysis on the base size |
| C70 | Str | induction over the bytes; `ub` for bytes ≥ 128 passed to `isalpha` etc. |
| C71 | Num | grammar of numerals, induction over digits |
| C72 | Prime, Math | C17 plus the cast of a negative int |
| C73 | Math, Value | BitVec/Int arithmetic, exact float values |
| C74, C75 | Num | exact decimal expansion of a double, rounding half to even |
| C76 | Env, Compile | induction over the parameter list |
| C77 | Match | induction over the clauses; code of `visit_Match` executed on the machine model |
| C78–C84 | Lexer | list lexer with fuel; measure = unread bytes; specification = tables of spellings and an inductive grammar of layout and literals (Spec/Lexer) |
| C85, C92 | Parser | `partial_fixpoint` parser (`none` = never returns); fixpoint induction for divergence, measure for termination |
| C86–C91 | Parser, Grammar | an inductive grammar written without the parser (Spec/Grammar); soundness and completeness by induction on derivations; unambiguity by determinism of the parser |
| C93 | Parser + Fold + Compile + VM | composition of C86, C87, C27, C29 in both directions; Spec/Tree says which tree of the parser a program is |
| C94, C95 | Host, Table, List | refinement of sequences of API calls to maps and sequences; counterexamples by running the model (`undef` set by the host) |
| C96 | FCompile + FVM | compiler correctness with functions: simulation by induction on the fuel of the meaning, code embedded at any offset, and the converse by determinism |
| C97 | Require | memory blocks with bounds; loop invariants over the search path |
| C98 | Modules, Consts | induction over the tree of modules |
| C99–C101 | File | C library streams as state machines; loop invariants |
| C102, C103 | Collections, Set | folds; buffer with explicit capacity |
| C104, C105 | Metatable | induction over histories; the instructions on the machine with frames |
| C106 | Parser + FCompile + FVM | composition of C86, C87, C27 (for functions) and C96; declarations and assignments of several names (`a, b = b, a`) included; Spec/Tree says which tree of the parser a program is |
| C107 | World | simulation between the machine's heap of slot arrays and buffers and a world of sequences, maps and byte strings |
| C108 | Api, Calls | induction over sequences of calls against a stack of values |
| C109 | Session | induction over the texts; kept state = globals, constants, literals; constants: induction over everything that may be given, accepted or not |
| C110 | LexInput, Lexer | refinement: the lexer with a position and a mark simulates the list lexer |
| C111 | Comp, Compile, VM | simulation in continuation-passing style on top of C29's, induction on the elements; counterexamples by evaluation in the kernel; the overflow by induction on the elements pushed |
| C112 | FCompile, FAst | exact correspondence between the compiler state and a small structural specification (Spec/Static), by induction on the tree; counterexamples by evaluation of the specification |
| C113 | Main, FExecute | monotonicity and independence of the rules of C112 in the set of host variables, by induction on the tree; the prompt by induction on the input |
| C114 | Libs | one lemma for the calls of an entry, induction on the entries of a table, one lemma for each kind of declaration; the hash tables are maps by C07 |
| C115 | Nodes | linked list with pointers as list segments; invariant on children and names by induction on the operations; induction on the list for the recursion that frees it |
| C116 | Trace, Calls | the relation between the machine and the regions of C57, induction on the calls in progress |
| C117 | Closures, RefCount | the counts with closures and upvalues are those of C60 as long as nothing is lost (simulation); balance of the counts for the new operations; counterexamples by evaluation |
| C118 | Life | invariant: the blocks in memory are those the state points at, the code of texts that was not freed, and the lost ones; induction on the history |
| C119 | Life, IO | the strings as functions of the history, by induction |
| C120 | Userdata, RefCount | the counts and their invariant are those of C60; the destructors called are the objects that are gone (induction on the nesting of releases); rings of objects keep each other |
| C121 | BareExpr, FExecute | which statements of the grammar give a bare expression (cases on the derivation); without any, the machine is that of C106; a text that prints 7 instead of 2, run through parser, compiler and machine |
| C122 | Makers, Metatable, World | histories of the places where lists and tables are made; the metatable is that of the place (induction), its entries are those of C107; without a metatable every operation of C105 is a type error |
| C123 | Rand | the results of `rand()` are parameters; the four parts of 16 bits give every int (bit by bit); the sign bit of a defined result is 0 |
| C124 | Fill, FCompile, FVM | `visit_VariadicContext` with any number; expressions without calls but in last arguments are compiled the same whatever the number (induction on the expression); two programs run through parser, compiler and machine |
| C125 | Export | induction over the way down to an `export` (Spec/Export) and over the size of the tree; names are an oracle |
| C126 | ExportRun | as C96: the three parts of the file are placed one after the other in the image (`compileFAll_rel`, `compileFAll_below`), then the simulation of C96 up to the `export`; converse from determinism |

(C71 to C126 were added while the model grew.)  No property is declared inexpressible.

## 3. Trusted base

* **Lean 4.33.0's kernel**, and Mathlib (number theory, orders and lists only: all of it checked by the same kernel).
* **Axioms**: `propext`, `Classical.choice`, `Quot.sound` at most.  No other axiom is declared or used, no proof is left
  open, and nothing rests on compiled code (`decide +kernel` is used for demonstrations and for finite tables; it is evaluated
  by the kernel).  `AXIOMS.md` lists the axioms of every theorem of the manifest; it is made by `tools/gen_axioms.py`, which asks Lean.
* **The specifications** in `lean/Verif/Spec/*.lean` (4 000 lines): what the English words of a property mean.  They use the
  basic types (`Val`, `Name`, `Byte`, the trees) but not the functions of the model.
* **The model** in `lean/Verif/Model/*.lean` (9 000 lines), that is, my reading of the C code.  Every definition cites the
  lines it models and says what it simplifies.  The sources could not be compiled or run here, so the reading is not
  tested against the binary.

### Assumptions about the machine and the C library

* `char` is signed where the code compares with `(char) -1`, `int` is 32 bits, `size_t` and `yasl_int` 64 bits, two's complement.
* `malloc` and `realloc` never fail.  Contents of fresh memory are unknown (`none` in a block).
* The C stack is unbounded: recursion in the parser, the compiler and the printing of nested data does not overflow it.
* `strtod`, `pow` and float arithmetic are parameters (`FloatOps`, `ParseCfg`); comparisons, conversions and `printf("%f")` are exact.
* `rand` is an arbitrary stream; `sqrt` in `is_prime` is any upper bound of the integer square root.
* Files (C99–C101, C110) are regular, can be sought in, and do not fail; the streams follow the C standard, including the
  undefined cases (reading after writing without a positioning).
* Positions in texts and the number of literals are unbounded in the models of the lexer and the parser (C: `int`, `size_t`).

### What is modelled

| file of /repo | modelled in | what |
|---|---|---|
| util/prime.c, hash_function.c, varint.c | Prime, Hash, Varint | all |
| util/IO.c | IO | `io_print_*`; the C streams below are not |
| util/yasl_float.c, yasl_int | Num | conversion of texts and numbers |
| data-structures/YASL_ByteBuffer.c, YASL_List.c, YASL_Table.c, YASL_Set.c | ByteBuffer, List, Table, Set | all operations |
| data-structures/YASL_String.c | Str | all operations except reference counts |
| interpreter/YASL_Object.c/.h | Value, Num, Api | equality, comparison, truth, type names, text of values |
| interpreter/*_methods.c, builtins.c | List, Sort, Str, Table, Print, Num, Math, World | all methods; the stack discipline of methods in World and Host |
| interpreter/userdata.c, std/yasl-std-mt.c | Userdata (memory), Metatable (meaning) | all but `ud_del`, which is not used |
| interpreter/refcount.c | RefCount, Userdata | strong counts, over stack, lists and tables; weak counts not |
| interpreter/upvalue.c, closure.c | Upvalue, Env, Closures | capture and closing; the counts in Closures |
| interpreter/VM.c | Ops, VM, FVM, Calls, Iter, Index, Match, Pattern, Metatable, Globals, Lines, IO, Consts, Trace | all instructions, each in at least one of these machines (VM: statements; FVM: functions; Calls: array stack with bounds and frames; Match: patterns; Upvalue: closures; RefCount: counts) |
| compiler/lexer.c, lexinput.c | Lexer, LexInput | all |
| compiler/parser.c | Parser, Node | all; messages not |
| compiler/middleend.c | Fold, NodeFold | all |
| compiler/compiler.c, env.c | Compile (statements and expressions), FCompile (with functions and calls), Env (names in nested functions), Match, Pattern, Consts, Lines | Comp (comprehensions) and all other visitors (`export` only as to where it is accepted, in Export; code for several results of `return` not); comprehensions and `match` are outside the end-to-end theorems from texts |
| yasl.c, yasl_aux.c | Api, Host, Globals, Session, Execute, FExecute, Life | the API on the stack, containers, globals, `YASL_execute`, `YASL_execute_REPL`, `YASL_resetstate_bb`; their memory, `YASL_newstate`, `YASL_delstate` and captured output in Life |
| std/yasl-std-math.c, -collections.c, -io.c, -mt.c, -require.c | Math, Set, Collections, File, Metatable, Require, Modules | all functions except trigonometry and logarithms (`rand` in Rand) |

### What is not modelled

main.c apart from what C113 says (printing of the help text, the logo; `srand`); the texts of tokens as blocks of memory (those of nodes: C115); freeing of memory other
than by reference counts and by the functions for states (C118); weak counts; error messages and their output (the kinds of errors and line numbers are
modelled); loading of shared libraries by `require_c` (only the search, C97); comprehensions other than at the top level (C111);
how `export` runs (C98 takes modules as given); the command line.

## 4. Where the code does not do what a user expects

For each property with status `partial` in `MANIFEST.json` because it is *false*, a theorem proves the counterexample
(`…_counterexample`, or a name that says what happens) and `…_partial` theorems prove what does hold.  The list, from the notes of
`MANIFEST.json`, is the by-product of this work most useful to the maintainers: hanging tables (C03, C10), `len` after removing
an absent key (C04, C13), comparisons of big numbers (C22, C40, C64), folding of `===` and `!` on floats (C27), `break` over
variables (C30), -0.0 in the literals (C31), more than 128 locals (C32), captured variables (C35), `replace` with a limit,
`split`, `trim` (C46–C49), table patterns (C53, C54, C77), typed pops (C56, C108), `YASL_functioncall` (C58), loops nested 17 deep
(C67), method names as keys (C68), `list.pop` (C61), numerals beyond 2^63 (C80), endless reading of some `match` texts (C85),
`x.(f(a))` (C92), closures dropped while their variables are in scope (C117), code and scopes freed twice by `YASL_delstate` (C118), reports not captured after `YASL_resetstate` (C119), `mt.get` of a temporary object (C120), functions called where they are written (C121), copies of tables (C122), values too many in a declaration and expressions as third part of `for` (C93), files closed twice (C101), metatables of functions (C104), state left by errors at the prompt (C109), `export` in a block at the prompt (C125).

## 5. How the theorems were tested

`seeded/LOG.jsonl`: each line is one edit of a definition of the model, in a scratch copy, of the kind a bug would make, with the
theorems that failed (`tools/mutate.py` rebuilds and finds, over all claims, those whose proofs break).  Where a theorem still
proved although its claim had become false, it was tightened and the line says so.
