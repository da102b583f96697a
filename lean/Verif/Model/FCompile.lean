import Verif.Model.FAst
import Verif.Model.Compile
set_option autoImplicit false
/-!
# The compiler with functions: compiler/compiler.c, compiler/env.c

As `Verif.Model.Compile`, with `compiler->params`.  The state of `Verif.Model.Compile` is the field `c`; its `scopes` are the scopes in use
(`get_scope_in_use`, compiler/compiler.c:136-138).

Simplifications: those of `Verif.Model.Compile`; the tables `upval_indices` and `upval_values` are a list in the order of the indices.
-/
namespace Yasl

/-- `struct Compiler`, compiler/compiler.h:36-63, and `struct Env`, compiler/env.h:10-17.  `outer`: the scopes around the ones in use, those of the
enclosing functions, innermost first, and last `compiler->stack`; empty outside of functions.  `ups` and `used`: for the functions being compiled,
innermost first, the captured variables with their bytes (`upval_indices`, `upval_values`) and `usedinclosure`.  `expected`: `expected_returns`.
`log` and `origin` are not in the C code: `origin` is the position of the buffer in the code, `log` has for every function literal the position of its
code when it captures nothing. -/
structure FState where
  c : CState
  outer : List (List Scope)
  ups : List (List (Name × Byte))
  used : List Bool
  expected : Int
  log : List (Nat × Option Nat)
  origin : Nat

/-- An operation which concerns only the fields of `Verif.Model.Compile`. -/
def FState.on (s : FState) (f : CState → CState) : FState := { s with c := f s.c }

/-- `compiler_add_byte` of an opcode, compiler/compiler.c:65-67. -/
def FState.op (s : FState) (o : Opc) : FState := s.on fun c => c.op o

/-- `compiler_add_byte`, compiler/compiler.c:65-67. -/
def FState.emit (s : FState) (b : Byte) : FState := s.on fun c => c.emit b

/-- `handle_error`, compiler/compiler.c:57-59. -/
def FState.error (s : FState) : FState := s.on fun c => c.error

/-- `enter_conditional_false`, `enter_jump`, compiler/compiler.c:88-92, 612-616. -/
def FState.jump (s : FState) (o : Opc) : FState := s.on fun c => c.jump o

/-- `exit_conditional_false`, `exit_jump`, compiler/compiler.c:94-96, 618-620. -/
def FState.patch (s : FState) (i : Nat) : FState := s.on fun c => c.patch i

/-- `branch_back`, compiler/compiler.c:520-523. -/
def FState.branchBack (s : FState) (i : Nat) : FState := s.on fun c => c.branchBack i

/-- The number of bytes in the buffer. -/
def FState.len (s : FState) : Nat := s.c.buffer.length

/-- Opcodes which `Opc` does not have, opcode.h:8-9, 76-85: `O_FCONST`, `O_CCONST`, `O_INIT_MC`, `O_INIT_CALL`, `O_CALL`, `O_RET`, `O_CRET`, `O_USTORE`,
`O_ULOAD`. -/
def opFCONST : Byte := 0x0A
def opCCONST : Byte := 0x0B
def opINIT_MC : Byte := 0xE7
def opINIT_CALL : Byte := 0xE8
def opCALL : Byte := 0xE9
def opRET : Byte := 0xEC
def opCRET : Byte := 0xED
def opUSTORE : Byte := 0xF2
def opULOAD : Byte := 0xF3

/-- Is the name a variable of an enclosing function, or a file-level variable seen from a function?  compiler/compiler.c:164-168, 207-215 -/
def inOuter (outer : List (List Scope)) (x : Name) : Bool := outer.any fun scs => (scopeGet scs x).isSome

/-- The value of the name in the nearest enclosing scope: `get_nearest`, `scope_get`, compiler/compiler.c:140-145, 209, 214. -/
def outerGet : List (List Scope) → Name → Option (BitVec 64)
  | [], _ => none
  | scs :: outer, x => match scopeGet scs x with
    | some v => some v
    | none => outerGet outer x

/-- `env_resolve_upval_index` with `env_add_upval`, compiler/env.c:121-177: the index, and the captured variables of the functions.  The first argument
starts with the scopes of the parent of the innermost function. -/
def addUp : List (List Scope) → List (List (Name × Byte)) → Name → Nat × List (List (Name × Byte))
  | _, [], _ => (0, [])
  | outer, us :: rest, x => match (us.map Prod.fst).idxOf? x with
    | some i => (i, us :: rest)
    | none => match scopeGet (outer.headD []) x with
      | some v => (us.length, (us ++ [(x, (getIndex v).setWidth 8)]) :: rest)
      | none =>
        let r := addUp outer.tail rest x
        (us.length, (us ++ [(x, ~~~(BitVec.ofNat 8 r.1))]) :: r.2)

/-- `curr->usedinclosure = true` for the nearest enclosing function which has the name, compiler/compiler.c:165-166, 208-209 (and compiler/env.c:145, which
marks the same one). The second argument starts with the parent of the innermost function; the file is not a function. -/
def markUsed : List (List Scope) → List Bool → Name → List Bool
  | scs :: outer, u :: used, x => if (scopeGet scs x).isSome then true :: used else u :: markUsed outer used x
  | _, used, _ => used

/-- `load_var_from_upval`, `store_var_in_upval`, compiler/compiler.c:154-159, 196-201, with the mark of the caller. -/
def FState.upval (s : FState) (op : Byte) (x : Name) : FState :=
  let r := addUp s.outer s.ups x
  let s1 := { s with ups := r.2, used := match s.used with | u :: us => u :: markUsed s.outer us x | [] => [] }
  (s1.emit op).emit (BitVec.ofNat 8 r.1)

/-- `load_var`, compiler/compiler.c:161-182. -/
def FState.loadVar (s : FState) (x : Name) : FState :=
  if scopeGet s.c.scopes x = none ∧ inOuter s.outer x then s.upval opULOAD x
  else s.on fun c => c.loadVar x

/-- `store_var`, compiler/compiler.c:203-232. -/
def FState.storeVar (s : FState) (x : Name) : FState :=
  if scopeGet s.c.scopes x = none ∧ inOuter s.outer x then
    match outerGet s.outer x with
    | some v => if isConst v then s.error else s.upval opUSTORE x
    | none => s.error
  else s.on fun c => c.storeVar x

/-- `contains_var`, compiler/compiler.c:242-246. -/
def FState.contains (s : FState) (x : Name) : Bool := s.c.contains x || inOuter s.outer x

/-- `decl_var` of a name which is not in the current scope, compiler/compiler.c:1086-1090, 1126-1129. -/
def FState.declare (s : FState) (x : Name) : FState :=
  if s.c.containsCur x then s.error else s.on fun c => c.declVar x

/-- The loop of `visit_Decl` over the left-hand sides, compiler/compiler.c:1118-1150.  (`compiler->stack` is not null in a file.) -/
def visitTargets : List FTarget → FState → FState
  | [], s => s
  | .assign x :: ls, s =>
    if !s.contains x then s.error
    else visitTargets ls (((s.op .MOVEUP_FP).emit (BitVec.ofNat 8 (scopeLen s.c.scopes))).storeVar x)
  | .let_ x :: ls, s => if s.c.containsCur x then s.error else visitTargets ls (s.declare x)
  | .const_ x :: ls, s => if s.c.containsCur x then s.error else visitTargets ls ((s.declare x).on fun c => c.makeConst x)

/-- `validate`: what is left of a visit when the code is thrown away, compiler/compiler.c:1404-1414.  (The log, which is not in the C code, goes too.) -/
def FState.validated (s s' : FState) : FState := { s' with c := s.c.validated s'.c, log := s.log }

/-- `Node_istruthy`, compiler/compiler.c:622-631. -/
def FExpr.truthyNode : FExpr → Bool
  | .lit (.int _) => true
  | .lit (.bool b) => b
  | _ => false

/-- `Node_isfalsey`, compiler/compiler.c:633-642. -/
def FExpr.falseyNode : FExpr → Bool
  | .lit (.bool b) => !b
  | .lit .undef => true
  | _ => false

/-- The parameters: `decl_var` of each, compiler/compiler.c:385-390. -/
def declParams : List Name → CState → CState
  | [], c => c
  | x :: xs, c => declParams xs (c.declVar x)

/-- `env_new`, `enter_scope`, the parameters, and the opcode, compiler/compiler.c:381-397. -/
def FState.fnEnter (params : List Name) (s : FState) : FState :=
  let c1 := declParams params { s.c with scopes := [[]] }
  let s1 := { s with c := c1, outer := s.c.scopes :: s.outer, ups := [] :: s.ups, used := false :: s.used }
  ((s1.emit opFCONST).on fun c => c.int 0).emit (BitVec.ofNat 8 params.length)

/-- The end of `visit_FnDecl`, compiler/compiler.c:400-430: `s` is the state before the function, `s3` the one after the body. -/
def FState.fnLeave (id : Nat) (s s3 : FState) : FState :=
  let old := s.len + 9
  let s4 := ((s3.op .NCONST).emit (if s3.used.headD false then opCRET else opRET)).emit (BitVec.ofNat 8 (scopeLen s3.c.scopes))
  let s6 := (s4.on fun c => c.exitScope).patch (s.len + 1)
  let us := s6.ups.headD []
  let s7 := if us = [] then s6
    else s6.on fun c => { c with buffer := c.buffer.set s.len opCCONST ++ BitVec.ofNat 8 us.length :: us.map Prod.snd }
  { s7 with c := { s7.c with scopes := s.c.scopes }, outer := s.outer, ups := s7.ups.tail, used := s7.used.tail,
            log := s7.log ++ [(id, if us = [] then some (s.origin + old) else none)] }

/-- `O_INIT_CALL` with the number of results, compiler/compiler.c:442-443. -/
def FState.initCall (s : FState) : FState := (s.emit opINIT_CALL).emit (BitVec.ofInt 8 s.expected)

/-- `O_INIT_MC` with the number of results and the name, compiler/compiler.c:450-457. -/
def FState.initMc (s : FState) (name : Name) : FState :=
  let i := (s.c.intern (.str name)).1
  (((s.on fun c => (c.intern (.str name)).2).emit opINIT_MC).emit (BitVec.ofInt 8 s.expected)).on fun c => c.int (BitVec.ofNat 64 i)

mutual
/-- `visit` of an expression, compiler/compiler.c:381-460, 499-511, 1139-1399. -/
def visitFE : FExpr → FState → FState
  | .lit l, s => s.on fun c => visitExpr l.expr c
  | .var x, s => s.loadVar x
  | .un o e, s => (visitFE e s).op o.opc
  | .bin (.op o) l r, s => (visitFE r (visitFE l s)).op o.opc
  | .bin .ne l r, s => ((visitFE r (visitFE l s)).op .EQ).op .NOT
  | .bin .nid l r, s => ((visitFE r (visitFE l s)).op .ID).op .NOT
  | .bin .and l r, s =>
    let s1 := visitFE l s
    (visitFE r (s1.on fun c => c.shortcircuit .BRF_8)).patch (s1.len + 2)
  | .bin .or l r, s =>
    let s1 := visitFE l s
    (visitFE r (s1.on fun c => c.shortcircuit .BRT_8)).patch (s1.len + 2)
  | .bin .coalesce l r, s =>
    let s1 := visitFE l s
    (visitFE r (s1.on fun c => c.shortcircuit .BRN_8)).patch (s1.len + 2)
  | .tri c a b, s =>
    let s1 := visitFE c s
    let s2 := visitFE a (s1.jump .BRF_8)
    let s3 := (s2.jump .BR_8).patch (s1.len + 1)
    (visitFE b s3).patch (s2.len + 1)
  | .list es, s => (visitFEs es (s.op .END)).op .NEWLIST
  | .table es, s => (visitFEs es (s.op .END)).op .NEWTABLE
  | .get c k, s => (visitFE k (visitFE c s)).op .GET
  | .slice c a b, s => (visitFE b (visitFE a (visitFE c s))).op .SLICE
  | .fn id params body, s => s.fnLeave id (visitFSs body (s.fnEnter params))
  | .call f args, s => (visitFEs args (visitFE f s).initCall).emit opCALL
  | .mcall obj name args, s => (visitFEs args ((visitFE obj s).initMc name)).emit opCALL
  | .ctx all e, s => { visitFE e { s with expected := if all then -1 else 1 } with expected := s.expected }
/-- `visit_Body` of expressions, compiler/compiler.c:120-124. -/
def visitFEs : FExprs → FState → FState
  | .nil, s => s
  | .cons e es, s => visitFEs es (visitFE e s)
/-- `visit` of a statement, compiler/compiler.c:357-379, 462-471, 513-723, 1030-1150, 1302-1317, 1362-1365. -/
def visitFS : FStmt → FState → FState
  | .expr (.lit _), s => s
  | .expr (.var x), s => s.validated (s.loadVar x)
  | .expr e, s => (visitFE e s).op .POP
  | .let_ x e, s => (visitFE e s).declare x
  | .const_ x e, s => ((visitFE e s).declare x).on fun c => c.makeConst x
  | .multi ls es, s => visitTargets ls (visitFEs es s)
  | .assign x e, s => if !s.contains x then s.error else (visitFE e s).storeVar x
  | .set c k v, s => (visitFE v (visitFE k (visitFE c s))).op .SET
  | .echo e, s =>
    let s1 := visitFE e s
    (s1.op .ECHO).emit (BitVec.ofNat 8 (scopeLen s1.c.scopes))
  | .assert e, s => (visitFE e s).op .ASS
  | .block ss, s => (visitFSs ss (s.on fun c => c.enterScope)).on fun c => c.exitScope
  | .ifThen c t, s =>
    if c.truthyNode then visitFS t s
    else if c.falseyNode then s.validated (visitFS t s)
    else
      let s1 := visitFE c s
      (visitFS t (s1.jump .BRF_8)).patch (s1.len + 1)
  | .ifElse c t e, s =>
    if c.truthyNode then
      let s1 := visitFS t s
      s1.validated (visitFS e s1)
    else if c.falseyNode then visitFS e (s.validated (visitFS t s))
    else
      let s1 := visitFE c s
      let s2 := visitFS t (s1.jump .BRF_8)
      let s3 := (s2.jump .BR_8).patch (s1.len + 1)
      (visitFS e s3).patch (s2.len + 1)
  | .while_ c body, s =>
    if c.falseyNode then s.validated (visitFS body s)
    else
      let s2 := visitFE c (s.on fun c => c.addCheckpoint s.len)
      let s3 := (s2.on fun c => c.addCheckpoint s2.len).jump .BRF_8
      (((visitFS body s3).branchBack s.len).patch (s2.len + 1)).on fun c => c.rmCheckpoints
  | .loop c body post, s =>
    if c.falseyNode then
      let s1 := s.validated (visitFS body s)
      s1.validated (visitFS post s1)
    else
      let s1 := s.jump .BR_8
      let s2 := (visitFS post s1).patch (s.len + 1)
      let s3 := visitFE c (s2.on fun c => c.addCheckpoint s1.len)
      let s4 := (s3.on fun c => c.addCheckpoint s3.len).jump .BRF_8
      (((visitFS body s4).branchBack s1.len).patch (s3.len + 1)).on fun c => c.rmCheckpoints
  | .forIter x coll body, s =>
    let s1 := (((visitFE coll (s.on fun c => c.enterScope)).op .INITFOR).op .END).on fun c => c.declVar x
    let s2 := (s1.on fun c => c.addCheckpoint s1.len).op .ITER_1
    let s3 := ((s2.on fun c => c.addCheckpoint s2.len).jump .BRF_8).storeVar x
    let s4 := ((visitFS body s3).branchBack s1.len).patch (s2.len + 1)
    (s4.op .ENDFOR).on fun c => c.exitScope.rmCheckpoints
  | .brk, s => match s.c.checkpoints with
    | [] => s.error
    | cp :: _ => (s.op .BCONST_F).branchBack cp
  | .cont, s => match s.c.checkpoints with
    | [] => s.error
    | cps => s.branchBack (cps.getD 1 0)
  | .ret e, s =>
    if s.outer = [] then s.error
    else
      let s1 := visitFE e s
      (s1.emit (if s1.used.headD false then opCRET else opRET)).emit (BitVec.ofNat 8 (scopeLen s1.c.scopes))
  | .fnDecl x id params body, s =>
    if s.c.containsCur x then s.error
    else
      let s1 := s.on fun c => c.declVar x
      s1.fnLeave id (visitFSs body (s1.fnEnter params))
/-- `visit_Body` of statements, compiler/compiler.c:120-124. -/
def visitFSs : FStmts → FState → FState
  | .nil, s => s
  | .cons st ss, s => visitFSs ss (visitFS st s)
end

/-- The loop of `compile` over the statements of the file, compiler/compiler.c:312-331. -/
def compileFAll : FStmts → FState → List Byte → FState × List Byte
  | .nil, s, code => (s, code)
  | .cons st ss, s, code =>
    let s1 := visitFS st s
    compileFAll ss { s1 with c := { s1.c with buffer := [] }, origin := s1.origin + s1.len } (code ++ s1.c.buffer)

/-- The state in which the compilation of a file starts: `NEW_COMPILER`, compiler/compiler.h:17-34, after `YASL_declglobal` of some names and
`enter_scope`, compiler/compiler.c:309. -/
def FState.initial (globals : List Name) : FState :=
  { c := (CState.initial.declGlobals globals).enterScope, outer := [], ups := [], used := [], expected := 1, log := [], origin := 0 }

/-- `compile`, compiler/compiler.c:308-336.  `none` is a syntax error. -/
def compileF (globals : List Name) (prog : FStmts) (lines : List Byte) : Option (List Byte) :=
  let r := compileFAll prog (FState.initial globals) []
  if r.1.c.ok then some (returnBytes r.1.c.header r.2 lines r.1.c.pool.length) else none

end Yasl
