import Verif.Model.Table
import Verif.Model.Compile
import Verif.Spec.Globals
set_option autoImplicit false
/-!
# Globals: yasl.c:168-202, `vm_GSTORE_8`, `vm_GLOAD_8`

Here the scope of the globals is the hash table it is in the code (in `Verif.Model.Compile` it is an association list).  Names are the bytes
before the NUL.  `none` is a loop that needs more than the given fuel.
-/
namespace Yasl

/-- `S->compiler.globals`, `S->vm.globals`, the stack (top first), and the values returned so far, newest first (`YASL_SUCCESS` is `true`). -/
structure GState where
  scope : Table
  globals : Table
  stack : List Val
  log : List Bool
deriving DecidableEq

/-- `NEW_COMPILER` (`scope_new(NULL)`), compiler/compiler.h:21, compiler/env.c:43-48; `vm_init`, interpreter/VM.c:60; without `__VERSION__`. -/
def GState.init : GState := ⟨Table.new, Table.new, [], []⟩

/-- `YASL_declglobal` with `scope_decl_var`, yasl.c:168-172, compiler/env.c:206-213: the value is `scope_len`, the number of names there.
(`compiler_intern_string` is `Verif.Model.Consts`.) -/
def GState.declGlobal (f : Nat) (g : GState) (n : List Byte) : Option GState :=
  (g.scope.insert f (.str n) (.int (BitVec.ofNat 64 g.scope.count))).map fun r => { g with scope := r.1, log := true :: g.log }

/-- `scope_make_const`, compiler/env.c:215-224 for a declared name; otherwise `scope->parent`, which is `NULL`, is dereferenced (here: no
effect). -/
def GState.makeConst (f : Nat) (g : GState) (n : List Byte) : Option GState :=
  (g.scope.search f (.str n)).bind fun v => match v with
    | .int i => (g.scope.insert f (.str n) (.int (~~~i))).map fun r => { g with scope := r.1 }
    | _ => some g

/-- `vm_peek` and `YASL_pop`: the top value and the stack below.  An empty stack gives `undef` (in the code: the memory before the stack). -/
def popTop (s : List Val) : Val × List Val := (s.headD .undef, s.tail)

/-- `YASL_setglobal`, yasl.c:179-191 (`is_const` yasl.c:174-177). -/
def GState.setGlobal (f : Nat) (g : GState) (n : List Byte) : Option GState :=
  (g.scope.search f (.str n)).bind fun v =>
    if v.tag = .end_ then some { g with log := false :: g.log }
    else match v with
      | .int i =>
        if isConst i then some { g with log := false :: g.log }
        else (g.globals.insertFast f (.str n) (popTop g.stack).1).map fun t =>
          { g with globals := t, stack := (popTop g.stack).2, log := true :: g.log }
      | _ => none

/-- `YASL_loadglobal`, yasl.c:193-202. -/
def GState.loadGlobal (f : Nat) (g : GState) (n : List Byte) : Option GState :=
  (g.globals.search f (.str n)).map fun v =>
    if v.tag = .end_ then { g with log := false :: g.log } else { g with stack := v :: g.stack, log := true :: g.log }

/-- `vm_GSTORE_8`, interpreter/VM.c:1120-1124; the constant is the name. -/
def GState.gstore (f : Nat) (g : GState) (n : List Byte) : Option GState :=
  (g.globals.insertFast f (.str n) (popTop g.stack).1).map fun t => { g with globals := t, stack := (popTop g.stack).2 }

/-- `vm_GLOAD_8`, interpreter/VM.c:1126-1132; the assertion is only in debug builds. -/
def GState.gload (f : Nat) (g : GState) (n : List Byte) : Option GState :=
  (g.globals.search f (.str n)).map fun v => { g with stack := v :: g.stack }

/-- One operation (model glue). -/
def GState.step (f : Nat) (g : GState) : GOp → Option GState
  | .push v => some { g with stack := v :: g.stack }
  | .decl n => g.declGlobal f n
  | .makeConst n => g.makeConst f n
  | .set n => g.setGlobal f n
  | .load n => g.loadGlobal f n
  | .gstore n => g.gstore f n
  | .gload n => g.gload f n

/-- A history (model glue). -/
def GState.run (f : Nat) : GState → List GOp → Option GState
  | g, [] => some g
  | g, op :: ops => (g.step f op).bind fun g' => g'.run f ops

end Yasl
