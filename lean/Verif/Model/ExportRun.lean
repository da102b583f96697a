import Verif.Model.FCompile
import Verif.Model.FVM
set_option autoImplicit false
/-!
# Files with an `export`

`Verif.Model.FAst` has no `export`; here is a file with one on its top level: `prog`, then `export e`, then `rest`.
-/
namespace Yasl

/-- `O_EXPORT`, opcode.h:49. -/
def opEXPORT : Byte := 0x90

/-- `visit_Export`, compiler/compiler.c:486-494, at the top level of the file (`Verif.Model.Export` says where it is refused). -/
def visitExport (e : FExpr) (s : FState) : FState := (visitFE e s).emit opEXPORT

/-- `compile`, compiler/compiler.c:308-336, as `compileF`, of the statements `prog`, then `export e`, then the statements `rest`. -/
def compileExport (globals : List Name) (prog : FStmts) (e : FExpr) (rest : FStmts) (lines : List Byte) : Option (List Byte) :=
  let r := compileFAll prog (FState.initial globals) []
  let s := visitExport e r.1
  let t := compileFAll rest { s with c := { s.c with buffer := [] }, origin := s.origin + s.len } (r.2 ++ s.c.buffer)
  if t.1.c.ok then some (returnBytes t.1.c.header t.2 lines t.1.c.pool.length) else none

/-- `case O_EXPORT`, interpreter/VM.c:1373-1375, and std/yasl-std-require.c:66-75: the machine is about to execute `O_EXPORT`; the run ends with
`YASL_MODULE_SUCCESS`, and the value of the module is popped from its stack.  (`FVM.step` has no such opcode; the closing of captured variables,
`vm_close_all`, changes no value that is seen here: `FVM` gives no access to the variables of the file after the run.) -/
def FVM.exports {W : Type} (code : List Byte) (m : FVM W) : Option Val :=
  match code[m.vm.pc]? with
  | some b => if b = opEXPORT then m.vm.stack.head? else none
  | none => none

end Yasl
