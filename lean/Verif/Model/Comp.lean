import Verif.Model.Compile
import Verif.Spec.Comp
set_option autoImplicit false
/-!
# Code for comprehensions: compiler/compiler.c:527-588

`visitComp` takes what `visit` does for the parts, so that comprehensions can be nested.
-/
namespace Yasl

/-- `visit_Comp_cond`, compiler/compiler.c:527-539. -/
def visitCompCond (cond : Option (CState → CState)) (out : CState → CState) (s : CState) : CState :=
  match cond with
  | some c =>
    let s1 := c s
    (out (s1.jump .BRF_8)).patch (s1.buffer.length + 1)
  | none => out s

/-- `visit_Comp`, compiler/compiler.c:541-580, with `visit_ListComp` and `visit_TableComp`, 582-588.  `exit_scope` emits `O_POP`s, which are taken back (577-579). -/
def visitComp (table : Bool) (x : Name) (coll : CState → CState) (cond : Option (CState → CState)) (out : CState → CState) (s : CState) : CState :=
  let s1 := ((((coll s.enterScope).op .INITFOR).op .END).declVar x).op .END
  let s2 := s1.op .ITER_1
  let s3 := (s2.jump .BRF_8).storeVar x
  let s4 := ((visitCompCond cond out s3).branchBack s1.buffer.length).patch (s2.buffer.length + 1)
  let s5 := (s4.op (if table then .NEWTABLE else .NEWLIST)).op .ENDCOMP
  { s5.exitScope with buffer := s5.buffer }

/-- `visit` of an expression with comprehensions: compiler/compiler.c:503-507, 541-588, 1187-1300. -/
def visitC : CExpr → CState → CState
  | .plain e, s => visitExpr e s
  | .comp table outs x coll cond, s => visitComp table x (visitC coll) (cond.map visitExpr) (visitExprs outs) s
  | .un o a, s => (visitC a s).op o.opc
  | .bin o a r, s => (visitExpr r (visitC a s)).op o.opc
  | .get a k, s => (visitExpr k (visitC a s)).op .GET

/-- `visit` of a statement: `visit_Decl`, compiler/compiler.c:1118-1150, `visit_Assign`, 1302-1311, `visit_Echo`, 1075-1080, `visit_ExprStmt`, 358-378. -/
def visitUse (u : CUse) (e : CExpr) (s : CState) : CState :=
  match u with
  | .let_ y => visitLVals [.let_ y] (visitC e s)
  | .const_ y => visitLVals [.const_ y] (visitC e s)
  | .assign y => if !s.contains y then s.error else (visitC e s).storeVar y
  | .echo => ((visitC e s).op .ECHO).emit (BitVec.ofNat 8 (scopeLen (visitC e s).scopes))
  | .drop => match e with
    | .plain e => visitStmt (.expr e) s
    | e => (visitC e s).op .POP

/-- A statement of the top level. -/
def visitX : XStmt → CState → CState
  | .plain st, s => visitStmt st s
  | .use u e, s => visitUse u e s

/-- The loop of `compile` over the statements of the file, compiler/compiler.c:312-331, as `compileAll`. -/
def compileXs : List XStmt → CState → List Byte → CState × List Byte
  | [], s, code => (s, code)
  | st :: ss, s, code => compileXs ss { visitX st s with buffer := [] } (code ++ (visitX st s).buffer)

/-- `compile`, compiler/compiler.c:308-336. -/
def compileX (globals : List Name) (prog : List XStmt) (lines : List Byte) : Option (List Byte) :=
  let r := compileXs prog (CState.initial.declGlobals globals).enterScope []
  if r.1.ok then some (returnBytes r.1.header r.2 lines r.1.pool.length) else none

end Yasl
