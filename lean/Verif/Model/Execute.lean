import Verif.Model.Parser
import Verif.Model.NodeFold
import Verif.Model.Compile
import Verif.Model.VM
set_option autoImplicit false
/-!
# `YASL_execute`

The parser, constant folding, the code generator and the virtual machine put together.
-/
namespace Yasl

/-- What `compile` makes of a text. -/
inductive Built where
  /-- the bytecode -/
  | image (b : List Byte)
  /-- an error was reported: `compile` returns `NULL`, and the status is not `YASL_SUCCESS` -/
  | refused
  /-- the text was read, and has a construct that the model of the code generator does not have (functions, calls, comprehensions, `match`, `export`, `return`) -/
  | other
  /-- undefined behaviour of the parser -/
  | ub
  /-- the parser reads on for ever -/
  | hang
  deriving DecidableEq

/-- `compile`, compiler/compiler.c:308-336: `none` if it does not return.  In the code a statement is visited right after it was parsed; here all are parsed, then
all are visited.  That makes no difference for the bytecode, as neither step looks at what the other writes, and bytecode is only returned if neither reported an
error.  (An error in visiting one statement hides what happens in parsing a later one: then the code refuses the text, where this function may give `ub` or `hang`.) -/
def build (cfg : ParseCfg) (globals : List Name) (lines : List Byte) (src : List Byte) : Option Built :=
  match parseSource cfg src with
  | none => none
  | some (.accepted ss) => match stmtsOf ss with
    | some prog => match compile globals prog lines with
      | some b => some (.image b)
      | none => some .refused
    | none => some .other
  | some .rejected => some .refused
  | some .ub => some .ub
  | some .hang => some .hang

/-- What `YASL_execute` has done so far. -/
inductive Executed (W : Type) where
  /-- an error was reported by the compiler and nothing is run -/
  | refused
  /-- the virtual machine stopped -/
  | stopped (m : VM W) (e : RtErr)
  /-- the virtual machine is still running -/
  | running (m : VM W)
  /-- the constructs outside the model, and undefined behaviour before the first instruction -/
  | unknown

/-- `YASL_execute`, yasl.c:153-166, and `vm_run`, VM.c:1657-1662: after `steps` instructions of the virtual machine; `none` if `compile` does not return. -/
def execute {W : Type} (cfg : ParseCfg) (F : FloatOps) (P : Prims W) (globals : List Name) (lines src : List Byte) (G : Name → Option Val) (w : W) (steps : Nat) :
    Option (Executed W) :=
  match build cfg globals lines src with
  | none => none
  | some (.image b) => match VM.load b G w with
    | some (m, K) => match VM.run F P b K steps m with
      | .stop m e => some (.stopped m e)
      | .next m => some (.running m)
    | none => some .unknown
  | some .refused => some .refused
  | some _ => some .unknown

end Yasl
