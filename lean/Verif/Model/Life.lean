/-! # A state from `YASL_newstate` to `YASL_delstate`: the blocks of memory that the functions for states, texts and captured output allocate and free

Compiled code, the constants of a run, the source that is read, the scopes of the compiler and the captured output belong to a state as a whole: they are allocated
and freed with `malloc` and `free`, without counts of references.  What texts do is a parameter here (`LifeText`): whether the compiler accepts a text, which functions
of earlier texts it calls when it runs, how many modules it requires, and what it writes. -/
set_option autoImplicit false
namespace Yasl

/-- The memory of the C library: the blocks that are allocated, by their addresses.  Addresses are not used twice here (a simplification: a block that was freed is
then told apart from all later ones). -/
structure LifeMem where
  next : Nat
  live : List Nat
deriving DecidableEq, Repr

/-- `malloc`. -/
def LifeMem.alloc (m : LifeMem) : Nat × LifeMem := (m.next, ⟨m.next + 1, m.next :: m.live⟩)

/-- `free` of a block; `none` if it is not allocated (freed before): that is undefined in C. -/
def LifeMem.free (m : LifeMem) (a : Nat) : Option LifeMem := if a ∈ m.live then some { m with live := m.live.erase a } else none

/-- `free` of a pointer that may be `NULL`. -/
def LifeMem.freeOpt (m : LifeMem) : Option Nat → Option LifeMem
  | none => some m
  | some a => m.free a

/-- `free` of several blocks in order. -/
def LifeMem.freeAll (m : LifeMem) : List Nat → Option LifeMem
  | [] => some m
  | a :: as => (m.free a).bind (·.freeAll as)

/-- `struct IO`, util/IO.h:14-19: where output goes (`captured` if `print` is `io_print_string`, else the file), the string, and what is in it. -/
structure LifeIO where
  captured : Bool
  string : Option Nat
  text : List Nat
deriving DecidableEq, Repr

/-- `NEW_IO`, util/IO.h:7-12. -/
def LifeIO.new : LifeIO := ⟨false, none, []⟩

/-- `io_print_file` and `io_print_string`, util/IO.c:14-27: the third part is what is written to the file.  `realloc` frees the old block and allocates one (if
it extends the block in place the effect is the same with another name for it).  Nothing is done for an empty text (a simplification: no message is empty). -/
def LifeIO.print (io : LifeIO) (m : LifeMem) (s : List Nat) : Option (LifeIO × LifeMem × List Nat) :=
  if s = [] then some (io, m, [])
  else if io.captured then
    (m.freeOpt io.string).bind fun m => some (⟨true, some m.alloc.1, io.text ++ s⟩, m.alloc.2, [])
  else some (io, m, s)

/-- What the compiler makes of a text: accepts it; refuses it with an error that the parser reports (it stops there); or refuses it for a rule (it reads on). -/
inductive LifeRes where
  | accepted | syntaxError | ruleError
deriving DecidableEq, Repr

/-- What a text does as far as memory and output are concerned: the compiler's verdict and its report; and, if it is accepted, the earlier texts (by number, the
first accepted one is 0) whose functions it calls, how many modules it requires, its output, and the reports of errors during the run. -/
structure LifeText where
  res : LifeRes
  report : List Nat
  calls : List Nat
  requires : Nat
  out : List Nat
  err : List Nat
deriving DecidableEq, Repr

/-- A state (`struct YASL_State`, yasl_state.h:8-11), the parts that concern memory: `own` are the blocks allocated once in `YASL_newstate` and freed in
`YASL_delstate` (the state itself, the compiler's tables and buffers, the stack, the tables of globals and methods: a simplification, the order in which they are
freed is not modelled), `input` the source (`struct LEXINPUT`), `scopes` the chain `compiler->stack`, innermost first, `refused` whether `compiler->status` is an
error; `code` is `vm.code`, `header` is `vm.headers[num]`, `modules` the other `vm.headers`, `consts` is `vm.constants`.  `texts` is not in the code: the blocks of
the texts accepted so far, in order, which the function values they made point into (`O_FCONST`, VM.c).  `terminal` is what was written to the files. -/
structure Life where
  mem : LifeMem
  own : List Nat
  input : Nat
  lexErr : LifeIO
  out : LifeIO
  err : LifeIO
  scopes : List Nat
  refused : Bool
  code : Option Nat
  header : Option Nat
  modules : List Nat
  consts : Option Nat
  texts : List Nat
  terminal : List Nat
deriving DecidableEq, Repr

/-- `YASL_newstate` and `YASL_newstate_bb`, yasl.c:32-55, 98-110; `NEW_COMPILER`, compiler.h:18-36; `vm_init`, VM.c:44-73: three blocks stand for those the state
owns. -/
def Life.new : Life :=
  { mem := ⟨4, [3, 2, 1, 0]⟩, own := [0, 1, 2], input := 3, lexErr := .new, out := .new, err := .new, scopes := [], refused := false,
    code := none, header := none, modules := [], consts := none, texts := [], terminal := [] }

/-- `lex_cleanup`, lexer.c:770-773 (`lexinput_bb_close`, lexinput.c:102-107; `io_cleanup`, IO.c:60-64) and the new lexer of `YASL_resetstate`, yasl.c:87-91: its
output for errors is the file again. -/
def Life.newLexer (s : Life) : Option Life :=
  (s.mem.free s.input).bind fun m => (m.freeOpt s.lexErr.string).bind fun m =>
    some { s with mem := m.alloc.2, input := m.alloc.1, lexErr := .new, refused := false }

/-- `YASL_resetstate_bb`, yasl.c:112-124: the code of the last text is freed; `vm.headers` still points at it. -/
def Life.resetBB (s : Life) : Option Life :=
  s.newLexer.bind fun s => (s.mem.freeOpt s.code).bind fun m => some { s with mem := m, code := none }

/-- `YASL_resetstate`, yasl.c:79-96: nothing is done if the file cannot be opened; `vm.code` stays. -/
def Life.resetFile (s : Life) (found : Bool) : Option Life :=
  if found then s.newLexer else some s

/-- `enter_scope`, compiler.c:74-77. -/
def Life.enterScope (s : Life) : Life := { s with mem := s.mem.alloc.2, scopes := s.mem.alloc.1 :: s.scopes }

/-- `exit_scope`, compiler.c:79-88, with `scope_del_current_only`, env.c:57-66. -/
def Life.exitScope (s : Life) : Option Life :=
  match s.scopes with
  | [] => none
  | a :: as => (s.mem.free a).bind fun m => some { s with mem := m, scopes := as }

/-- The report of the compiler (`compiler_print_err`, compiler.c:18-23; parser and lexer use the same `lex.err`). -/
def Life.report (s : Life) (r : List Nat) : Option Life :=
  (s.lexErr.print s.mem r).bind fun p => some { s with lexErr := p.1, mem := p.2.1, terminal := s.terminal ++ p.2.2, refused := true }

/-- `compile`, compiler.c:312-335 (`repl` false) and `compile_REPL`, compiler.c:337-358 (`repl` true), with `return_bytes`, compiler.c:270-310: after an error of
the parser `compile` returns without `exit_scope`; the second part is the block of the code, if there is one.  An error stays with the compiler until the state is
reset. -/
def Life.compile (s : Life) (repl : Bool) (t : LifeText) : Option (Life × Option Nat) :=
  let s := if repl then s else s.enterScope
  (if t.res = .accepted then some s else s.report t.report).bind fun s =>
    (if repl || t.res = .syntaxError then some s else s.exitScope).bind fun s =>
      if s.refused then some (s, none) else some ({ s with mem := s.mem.alloc.2 }, some s.mem.alloc.1)

/-- A call of a function that the text with number `i` made: its code is read (`vm_CALL_now`, VM.c:1278-1285, sets `pc` to the place in it). -/
def Life.call (s : Life) (i : Nat) : Option Life :=
  match s.texts[i]? with
  | some a => if a ∈ s.mem.live then some s else none
  | none => none

/-- `YASL_require`, std/yasl-std-require.c:63-104, for a module that is found and valid: its code becomes one of `vm.headers`, its constants replace those of the
state.  The state made for the module is deleted there (not modelled: its blocks are those of a state that ran one text; invalid modules, for which that state is
never deleted, are not modelled either). -/
def Life.require (s : Life) : Option Life :=
  let s := { s with mem := s.mem.alloc.2, modules := s.modules ++ [s.mem.alloc.1] }
  (s.mem.freeOpt s.consts).bind fun m => some { s with mem := m.alloc.2, consts := some m.alloc.1 }

/-- Several of the above, one after the other. -/
def Life.iter {α : Type} (f : Life → α → Option Life) : Life → List α → Option Life
  | s, [] => some s
  | s, a :: as => (f s a).bind fun s => s.iter f as

/-- `vm_run`, VM.c:1657-1667, with `vm_setupconstants`, VM.c:1325-1362: a new block for the constants (the constants in it are not modelled here); the old pointer is
overwritten.  Output by `vm_print_out`, VM.c:176-181, and reports by `vm_print_err_wrapper`, VM.c:123-128; both may come at any time during the run, which cannot be
told from the outside. -/
def Life.run (s : Life) (t : LifeText) : Option Life :=
  let s := { s with mem := s.mem.alloc.2, consts := some s.mem.alloc.1 }
  (s.iter Life.call t.calls).bind fun s => (s.iter (fun s (_ : Nat) => s.require) (List.range t.requires)).bind fun s =>
    (s.out.print s.mem t.out).bind fun p => (p.1, { s with out := p.1, mem := p.2.1, terminal := s.terminal ++ p.2.2 }).2 |> fun s =>
      (s.err.print s.mem t.err).bind fun p => some { s with err := p.1, mem := p.2.1, terminal := s.terminal ++ p.2.2 }

/-- `YASL_execute` and `YASL_execute_REPL`, yasl.c:132-146, 153-166. -/
def Life.execute (s : Life) (repl : Bool) (t : LifeText) : Option Life :=
  (s.compile repl t).bind fun p =>
    match p.2 with
    | none => some p.1
    | some a => { p.1 with code := some a, header := some a, texts := p.1.texts ++ [a] }.run t

/-- `YASL_compile`, yasl.c:148-151: the code is not kept. -/
def Life.compileOnly (s : Life) (t : LifeText) : Option Life := (s.compile false t).map (·.1)

/-- `scope_del`, env.c:50-55: the parent is deleted, and its block freed once more (`free(scope->parent)`), and then the scope itself. -/
def LifeMem.scopeDel (m : LifeMem) : List Nat → Option LifeMem
  | [] => some m
  | a :: as => (m.scopeDel as).bind fun m => (m.freeOpt as.head?).bind fun m => m.free a

/-- `YASL_delstate`, yasl.c:126-134; `compiler_cleanup`, compiler.c:45-53; `vm_cleanup`, VM.c:78-121 (without the values on the stack, see C60 and C117).  The memory
afterwards. -/
def Life.delete (s : Life) : Option LifeMem :=
  (s.mem.scopeDel s.scopes).bind fun m => (m.free s.input).bind fun m => (m.freeOpt s.lexErr.string).bind fun m =>
    (m.freeOpt s.consts).bind fun m => (m.freeOpt s.header).bind fun m => (m.freeAll s.modules).bind fun m =>
      (m.freeOpt s.out.string).bind fun m => (m.freeOpt s.err.string).bind fun m => m.freeAll s.own

/-- What a host program does with a state between making and deleting it. -/
inductive LifeOp where
  /-- `YASL_resetstate_bb` -/
  | resetBB
  /-- `YASL_resetstate`, for a file that is there or not -/
  | resetFile (found : Bool)
  /-- `YASL_execute`, or `YASL_execute_REPL` -/
  | execute (repl : Bool) (t : LifeText)
  /-- `YASL_compile` -/
  | compile (t : LifeText)
  /-- `YASL_functioncall` of a function made by the text with this number -/
  | call (i : Nat)
  /-- `YASL_setprintout_tostr` -/
  | captureOut
  /-- `YASL_setprinterr_tostr` -/
  | captureErr
deriving DecidableEq, Repr

/-- One step; `YASL_setprintout_tostr` and `YASL_setprinterr_tostr` are yasl.c:58-65. -/
def Life.step (s : Life) : LifeOp → Option Life
  | .resetBB => s.resetBB
  | .resetFile found => s.resetFile found
  | .execute repl t => s.execute repl t
  | .compile t => s.compileOnly t
  | .call i => s.call i
  | .captureOut => some { s with out := { s.out with captured := true } }
  | .captureErr => some { s with err := { s.err with captured := true }, lexErr := { s.lexErr with captured := true } }

/-- A history; `none` if a block is freed twice or used after it was freed. -/
def Life.runs (s : Life) (ops : List LifeOp) : Option Life := s.iter Life.step ops

/-- `YASL_loadprintout`, yasl.c:67-69: the string that is pushed. -/
def Life.loadOut (s : Life) : List Nat := s.out.text

/-- `YASL_loadprinterr`, yasl.c:71-77. -/
def Life.loadErr (s : Life) : List Nat := if s.refused then s.lexErr.text else s.err.text

end Yasl
