import Verif.Model.Compile
import Verif.Model.VM
import Verif.Spec.Session
set_option autoImplicit false
/-!
# A state that is used for several texts: yasl.c, compiler/compiler.c, main.c

The texts are given as the statements the parser makes of them (C86).
-/
namespace Yasl

/-- `compile_REPL` makes the last statement, if it is an expression, an `echo`: compiler/compiler.c:346-348. -/
def Stmts.echoLast : Stmts → Stmts
  | .nil => .nil
  | .cons (.expr e) .nil => .cons (.echo e) .nil
  | .cons st ss => .cons st ss.echoLast

/-- A text: the statements up to its end, or (`bad`) up to the first one with a syntax error, and what `compiler->lines` contains at the end. -/
structure Given where
  how : Entry
  stmts : Stmts
  bad : Bool
  lines : List Byte

/-- `YASL_resetstate_bb`, yasl.c:106-117, as far as it concerns the compiler (`compiler->code` is an argument of `compileAll`).  The literals, the globals and the
scopes stay. -/
def CState.reset (s : CState) : CState := { s with buffer := [], ok := true }

/-- `compile`, compiler/compiler.c:308-335, and `compile_REPL`, compiler.c:337-356.  A syntax error makes `compile` return at once, without `exit_scope`; `compile_REPL`
reads on, but does not visit any other statement. -/
def Given.build (g : Given) (s : CState) : CState × Option (List Byte) :=
  match g.how with
  | .file =>
    let r := compileAll g.stmts s.reset.enterScope []
    if g.bad then (r.1.error, none)
    else (r.1.exitScope, if r.1.ok then some (returnBytes r.1.header r.2 g.lines r.1.pool.length) else none)
  | .prompt =>
    let r := compileAll (if g.bad then g.stmts else g.stmts.echoLast) s.reset []
    if g.bad then (r.1.error, none)
    else (r.1, if r.1.ok then some (returnBytes r.1.header r.2 g.lines r.1.pool.length) else none)

/-- `struct YASL_State`: the compiler and the virtual machine. yasl_state.h -/
structure Session (W : Type) where
  comp : CState
  vm : VM W

/-- `YASL_execute`, yasl.c:153-166, `YASL_execute_REPL`, yasl.c:129-142, and `vm_setupconstants`: the machine with new code; the stack, the loops and the frame pointer
stay. -/
def VM.reload {W : Type} (image : List Byte) (m : VM W) : Option (VM W × List Val) :=
  match readInt8 image, readInt8 (image.drop 16) with
  | some entry, some n => (readConstants n.toNat (image.drop 24)).map fun K => ({ m with pc := entry.toNat }, K)
  | _, _ => none

/-- What became of a text. -/
inductive Answer where
  /-- errors were reported and nothing was run -/
  | refused
  /-- the machine stopped -/
  | stopped (e : RtErr)
  /-- the machine is still running -/
  | running
  /-- the code could not be loaded -/
  | ub
deriving DecidableEq

/-- `YASL_resetstate_bb` and `YASL_execute` or `YASL_execute_REPL`, for a number of steps of the machine: yasl.c:106-117, 129-166; main.c:138-150. -/
def Session.give {W : Type} (F : FloatOps) (P : Prims W) (g : Given) (steps : Nat) (s : Session W) : Session W × Answer :=
  match g.build s.comp with
  | (c, none) => (⟨c, s.vm⟩, .refused)
  | (c, some image) => match s.vm.reload image with
    | none => (⟨c, s.vm⟩, .ub)
    | some (m, K) => match VM.run F P image K steps m with
      | .stop m e => (⟨c, m⟩, .stopped e)
      | .next m => (⟨c, m⟩, .running)

/-- Texts one after the other, with the steps each runs for. -/
def Session.gives {W : Type} (F : FloatOps) (P : Prims W) : List (Given × Nat) → Session W → Session W × List Answer
  | [], s => (s, [])
  | (g, k) :: r, s =>
    let a := s.give F P g k
    let b := Session.gives F P r a.1
    (b.1, a.2 :: b.2)

/-- `YASL_newstate_bb`, yasl.c:93-104, after `YASL_declglobal` and `YASL_setglobal` of some names: yasl.c:168-193. -/
def Session.start {W : Type} (globals : List Name) (G : Name → Option Val) (w : W) : Session W :=
  ⟨CState.initial.declGlobals globals, { pc := 0, stack := [], fp := -1, loops := [], globals := G, world := w, out := [] }⟩

end Yasl
