import Verif.Model.Ast
import Verif.Model.ByteBuffer
set_option autoImplicit false
/-!
# The compiler: compiler/compiler.c, compiler/env.c

The functions `visit_*` are state transformers which append to the code buffer and patch jump distances, as in C.  After an error the
C code records a status and goes on; so does the model.

Simplifications.  The hash tables `scope->vars` and `compiler->strings` are association lists (C02 relates hash tables to maps;
`Verif.Props.Consts` does it for literals).  The byte buffers are lists of bytes (C19).  Line numbers (`compiler->lines`) are modelled
in `Verif.Model.Lines`.  No functions: `compiler->params` is always `NULL`.
-/
namespace Yasl

/-- `enum Opcode`, opcode.h:4-83. -/
inductive Opc where
  | NCONST | BCONST_F | BCONST_T | HALT
  | BOR | BXOR | BAND | BANDNOT | BNOT | BSL | BSR | ASS
  | ADD | SUB | MUL | EXP | FDIV | IDIV | MOD | NEG | POS | NOT | LEN | CNCT
  | LT | LE | GT | GE | EQ | ID
  | SET | GET | SLICE | LIT | LIT8 | NEWTABLE | NEWLIST | MOVEUP_FP | END | DUP | POP
  | BR_8 | BRF_8 | BRT_8 | BRN_8 | INITFOR | ENDCOMP | ENDFOR | ITER_1
  | GSTORE_8 | GLOAD_8 | LSTORE | LLOAD | ECHO
deriving DecidableEq, Repr

/-- The numbers of the opcodes, opcode.h:5-82. -/
def Opc.byte : Opc → Byte
  | NCONST => 0x01 | BCONST_F => 0x08 | BCONST_T => 0x09 | HALT => 0x0F
  | BOR => 0x40 | BXOR => 0x41 | BAND => 0x42 | BANDNOT => 0x43 | BNOT => 0x44 | BSL => 0x45 | BSR => 0x46 | ASS => 0x50
  | ADD => 0x60 | SUB => 0x61 | MUL => 0x62 | EXP => 0x63 | FDIV => 0x64 | IDIV => 0x65 | MOD => 0x66 | NEG => 0x67 | POS => 0x68
  | NOT => 0x69 | LEN => 0x6A | CNCT => 0x6B
  | LT => 0x70 | LE => 0x71 | GT => 0x72 | GE => 0x73 | EQ => 0x74 | ID => 0x76
  | SET => 0x80 | GET => 0x88 | SLICE => 0x8A | LIT => 0x9A | LIT8 => 0x9B | NEWTABLE => 0x9C | NEWLIST => 0x9D
  | MOVEUP_FP => 0xA0 | END => 0xB0 | DUP => 0xB8 | POP => 0xBF
  | BR_8 => 0xC0 | BRF_8 => 0xC1 | BRT_8 => 0xC2 | BRN_8 => 0xC3 | INITFOR => 0xD0 | ENDCOMP => 0xD1 | ENDFOR => 0xD2 | ITER_1 => 0xD3
  | GSTORE_8 => 0xF0 | GLOAD_8 => 0xF1 | LSTORE => 0xF4 | LLOAD => 0xF5 | ECHO => 0xFF

/-- `struct Scope`'s `vars`: names with their values, the newest first. compiler/env.h -/
abbrev Scope := List (Name × BitVec 64)

/-- `YASL_Table_search` in `scope->vars` (`none` is `Y_END`), compiler/env.c:70-82, 190-203. -/
def Scope.get (sc : Scope) (x : Name) : Option (BitVec 64) := (List.find? (fun p => p.1 == x) sc).map Prod.snd

/-- `YASL_Table_insert` in `scope->vars`: replaces the value of a key that is already there, compiler/env.c:205-212. -/
def Scope.put : Scope → Name → BitVec 64 → Scope
  | sc, x, v => if sc.get x = none then (x, v) :: sc else sc.map fun p => if p.1 == x then (x, v) else p

/-- `scope_len`: `scope->vars.count` of the scope and its parents, compiler/env.c:65-68. -/
def scopeLen (scs : List Scope) : Nat := (scs.map List.length).sum

/-- `scope_contains` and `scope_get`: the value in the innermost scope which has the name, compiler/env.c:84-98, 190-203. -/
def scopeGet : List Scope → Name → Option (BitVec 64)
  | [], _ => none
  | sc :: scs, x => match sc.get x with
    | some v => some v
    | none => scopeGet scs x

/-- `is_const`, compiler/compiler.c:127-130. -/
def isConst (v : BitVec 64) : Bool := (0x8000000000000000#64 &&& v) != 0

/-- `get_index`, compiler/compiler.c:132-134. -/
def getIndex (v : BitVec 64) : BitVec 64 := if isConst v then ~~~v else v

/-- `get_closest_scope_with_var` and `scope_make_const`, compiler/env.c:214-223. -/
def scopeMakeConst : List Scope → Name → List Scope
  | [], _ => []
  | sc :: scs, x => match sc.get x with
    | some v => sc.put x (~~~v) :: scs
    | none => sc :: scopeMakeConst scs x

/-- `struct Compiler`, compiler/compiler.h:36-63 (the fields used by the fragment).  `scopes` is `compiler->stack` with its parents,
innermost first; empty is `NULL`.  `pool` are the keys of `compiler->strings` in the order of their values 0, 1, …; `checkpoints` has the
last pushed first. -/
structure CState where
  buffer : List Byte
  scopes : List Scope
  globals : Scope
  pool : List Val
  header : List Byte
  checkpoints : List Nat
  ok : Bool

/-- `handle_error`, compiler/compiler.c:57-59. -/
def CState.error (s : CState) : CState := { s with ok := false }

/-- `compiler_add_byte`, compiler/compiler.c:65-67. -/
def CState.emit (s : CState) (b : Byte) : CState := { s with buffer := s.buffer ++ [b] }

/-- `compiler_add_byte` of an opcode. -/
def CState.op (s : CState) (o : Opc) : CState := s.emit o.byte

/-- `compiler_add_int`, compiler/compiler.c:69-71. -/
def CState.int (s : CState) (v : BitVec 64) : CState := { s with buffer := s.buffer ++ bytes8 v }

/-- `buffer->count - index - 8` stored at `index`: `exit_conditional_false`, `exit_jump`, compiler/compiler.c:94-96, 618-620. -/
def CState.patch (s : CState) (index : Nat) : CState :=
  { s with buffer := s.buffer.take index ++ bytes8 (BitVec.ofInt 64 (s.buffer.length - index - 8)) ++ s.buffer.drop (index + 8) }

/-- A jump with a distance to be patched: `enter_conditional_false`, `enter_jump`, compiler/compiler.c:88-92, 612-616; the index is the
length of the buffer after the opcode. -/
def CState.jump (s : CState) (o : Opc) : CState := (s.op o).int 0

/-- `branch_back`, compiler/compiler.c:520-523. -/
def CState.branchBack (s : CState) (index : Nat) : CState :=
  (s.op .BR_8).int (BitVec.ofInt 64 (index - (s.op .BR_8).buffer.length - 8))

/-- `enter_scope`, compiler/compiler.c:73-76. -/
def CState.enterScope (s : CState) : CState := { s with scopes := [] :: s.scopes }

/-- `exit_scope`: a `O_POP` for each variable, compiler/compiler.c:78-87. -/
def CState.exitScope (s : CState) : CState :=
  match s.scopes with
  | sc :: scs => { s with scopes := scs, buffer := s.buffer ++ List.replicate sc.length Opc.POP.byte }
  | [] => s

/-- `add_checkpoint`, compiler/compiler.c:110-112. -/
def CState.addCheckpoint (s : CState) (cp : Nat) : CState := { s with checkpoints := cp :: s.checkpoints }

/-- `rm_checkpoint` twice, compiler/compiler.c:114-116, 607-608, 700-701. -/
def CState.rmCheckpoints (s : CState) : CState := { s with checkpoints := s.checkpoints.drop 2 }

/-- The entry of a literal in the header, compiler/compiler.c:731-733, 746-747, 761-768 (`C_FLOAT`, `C_INT_1`, `C_INT_8`, `C_STR` are
0, 1, 2, 3, opcode.h:93-98). -/
def headerEntry : Val → List Byte
  | .str s => 3 :: bytes8 (BitVec.ofNat 64 s.length) ++ s
  | .float f => 0 :: bytes8 f
  | .int i => if -128 < i.toInt ∧ i.toInt < 128 then [1, i.setWidth 8] else 2 :: bytes8 i
  | _ => []

/-- A literal that is equal to itself: a NaN is not, so that it is never found in the table. -/
def Val.selfEqual : Val → Bool
  | .float f => feq f f
  | _ => true

/-- `compiler_intern_string`, `compiler_intern_float`, `compiler_intern_int`, compiler/compiler.c:725-773.  The index of the literal, which
is added when it is not there yet.  (Simplified: literals are looked up by identity.) -/
def CState.intern (s : CState) (v : Val) : Nat × CState :=
  match if v.selfEqual then s.pool.idxOf? v else none with
  | some i => (i, s)
  | none => (s.pool.length, { s with pool := s.pool ++ [v], header := s.header ++ headerEntry v })

/-- `compiler_add_literal`, compiler/compiler.c:1327-1335. -/
def CState.literal (s : CState) (index : Nat) : CState :=
  if index < 128 then (s.op .LIT).emit (BitVec.ofNat 8 index) else (s.op .LIT8).int (BitVec.ofNat 64 index)

/-- `visit_Float`, `visit_Integer`, `visit_String`, compiler/compiler.c:1337-1360. -/
def CState.pushLiteral (s : CState) (v : Val) : CState := (s.intern v).2.literal (s.intern v).1

/-- `YASL_Table_search_string_int(compiler->strings, name).value.ival`; the value of `Y_END` (the name is not in the table) is 0.
compiler/compiler.c:175 -/
def CState.nameIndex (s : CState) (x : Name) : BitVec 64 := BitVec.ofNat 64 ((s.pool.idxOf? (.str x)).getD 0)

/-- `load_var`, compiler/compiler.c:161-182 (outside of functions). -/
def CState.loadVar (s : CState) (x : Name) : CState :=
  match scopeGet s.scopes x with
  | some v => (s.op .LLOAD).emit ((getIndex v).setWidth 8)
  | none =>
    if s.globals.get x ≠ none then (s.op .GLOAD_8).int (s.nameIndex x)
    else s.error

/-- `store_var`, compiler/compiler.c:184-194, 203-232 (outside of functions). -/
def CState.storeVar (s : CState) (x : Name) : CState :=
  match scopeGet s.scopes x with
  | some v => if isConst v then s.error else (s.op .LSTORE).emit (v.setWidth 8)
  | none => match s.globals.get x with
    | some v => if isConst v then s.error else (s.op .GSTORE_8).int (s.nameIndex x)
    | none => s.error

/-- `contains_var_in_current_scope`, compiler/compiler.c:234-240. -/
def CState.containsCur (s : CState) (x : Name) : Bool :=
  match s.scopes with
  | sc :: _ => (sc.get x).isSome
  | [] => (s.globals.get x).isSome

/-- `contains_var`, compiler/compiler.c:242-246. -/
def CState.contains (s : CState) (x : Name) : Bool := (scopeGet s.scopes x).isSome || (s.globals.get x).isSome

/-- `decl_var` with `scope_decl_var`, compiler/compiler.c:248-262, compiler/env.c:205-212: the value is `scope_len` before, and the number
compared with 255 is `scope_len` after the insertion. -/
def CState.declVar (s : CState) (x : Name) : CState :=
  match s.scopes with
  | sc :: scs =>
    let s' := { s with scopes := sc.put x (BitVec.ofNat 64 (scopeLen s.scopes)) :: scs }
    if scopeLen s'.scopes > 255 then s'.error else s'
  | [] =>
    let s' := (s.intern (.str x)).2
    { s' with globals := s'.globals.put x (BitVec.ofNat 64 s'.globals.length) }

/-- `make_const`, compiler/compiler.c:264-268. -/
def CState.makeConst (s : CState) (x : Name) : CState :=
  match s.scopes with
  | [] => match s.globals.get x with
    | some v => { s with globals := s.globals.put x (~~~v) }
    | none => s
  | scs => { s with scopes := scopeMakeConst scs x }

/-- The opcode of a binary operator, compiler/compiler.c:1190-1262. -/
def BinOp.opc : BinOp → Opc
  | .bor => .BOR | .bxor => .BXOR | .band => .BAND | .bandnot => .BANDNOT | .shl => .BSL | .shr => .BSR
  | .add => .ADD | .sub => .SUB | .mul => .MUL | .fdiv => .FDIV | .idiv => .IDIV | .mod => .MOD | .pow => .EXP
  | .lt => .LT | .le => .LE | .gt => .GT | .ge => .GE | .eq => .EQ | .id => .ID | .cnct => .CNCT

/-- The opcode of a unary operator, compiler/compiler.c:1285-1306. -/
def UnOp.opc : UnOp → Opc
  | .neg => .NEG | .pos => .POS | .bnot => .BNOT | .not => .NOT | .len => .LEN

/-- `visit_BinOp_shortcircuit` after the left operand and up to the right one, compiler/compiler.c:1162-1166. -/
def CState.shortcircuit (s : CState) (o : Opc) : CState := ((s.op .DUP).jump o).op .POP

mutual
/-- `visit` of an expression: `visit_Undef` … `visit_Slice`, compiler/compiler.c:499-511, 1139-1399. -/
def visitExpr : Expr → CState → CState
  | .undef, s => s.op .NCONST
  | .bool b, s => s.op (if b then .BCONST_T else .BCONST_F)
  | .int i, s => s.pushLiteral (.int i)
  | .float f, s => s.pushLiteral (.float f)
  | .str t, s => s.pushLiteral (.str t)
  | .var x, s => s.loadVar x
  | .un o e, s => (visitExpr e s).op o.opc
  | .bin (.op o) l r, s => (visitExpr r (visitExpr l s)).op o.opc
  | .bin .ne l r, s => ((visitExpr r (visitExpr l s)).op .EQ).op .NOT
  | .bin .nid l r, s => ((visitExpr r (visitExpr l s)).op .ID).op .NOT
  | .bin .and l r, s =>
    let s1 := visitExpr l s
    (visitExpr r (s1.shortcircuit .BRF_8)).patch (s1.buffer.length + 2)
  | .bin .or l r, s =>
    let s1 := visitExpr l s
    (visitExpr r (s1.shortcircuit .BRT_8)).patch (s1.buffer.length + 2)
  | .bin .coalesce l r, s =>
    let s1 := visitExpr l s
    (visitExpr r (s1.shortcircuit .BRN_8)).patch (s1.buffer.length + 2)
  | .tri c a b, s =>
    let s1 := visitExpr c s
    let s2 := visitExpr a (s1.jump .BRF_8)
    let s3 := (s2.jump .BR_8).patch (s1.buffer.length + 1)
    (visitExpr b s3).patch (s2.buffer.length + 1)
  | .list es, s => (visitExprs es (s.op .END)).op .NEWLIST
  | .table es, s => (visitExprs es (s.op .END)).op .NEWTABLE
  | .get c k, s => (visitExpr k (visitExpr c s)).op .GET
  | .slice c a b, s => (visitExpr b (visitExpr a (visitExpr c s))).op .SLICE
/-- `visit_Body` of expressions, compiler/compiler.c:120-124. -/
def visitExprs : Exprs → CState → CState
  | .nil, s => s
  | .cons e es, s => visitExprs es (visitExpr e s)
end

/-- `validate`: what is left of a visit when the code is thrown away, compiler/compiler.c:1404-1414. -/
def CState.validated (s s' : CState) : CState := { s' with buffer := s'.buffer.take s.buffer.length }

/-- The loop of `visit_Decl` over the left-hand sides, compiler/compiler.c:1116-1149. -/
def visitLVals : List LVal → CState → CState
  | [], s => s
  | .assign x :: ls, s =>
    if !s.contains x then s.error
    else visitLVals ls (((s.op .MOVEUP_FP).emit (BitVec.ofNat 8 (scopeLen s.scopes))).storeVar x)
  | .set c k :: ls, s =>
    let s1 := visitExpr k (visitExpr c s)
    visitLVals ls (((s1.op .MOVEUP_FP).emit (BitVec.ofNat 8 (scopeLen s1.scopes))).op .SET)
  | .let_ x :: ls, s =>
    if s.containsCur x then s.error
    else
      let s1 := s.declVar x
      visitLVals ls (if s1.scopes = [] then ((s1.op .MOVEUP_FP).emit 0).storeVar x else s1)
  | .const_ x :: ls, s =>
    if s.containsCur x then s.error
    else
      let s1 := s.declVar x
      visitLVals ls ((if s1.scopes = [] then ((s1.op .MOVEUP_FP).emit 0).storeVar x else s1).makeConst x)

/-- `Node_istruthy`, compiler/compiler.c:622-631. -/
def Expr.truthyNode : Expr → Bool
  | .int _ => true
  | .bool b => b
  | _ => false

/-- `Node_isfalsey`, compiler/compiler.c:633-642. -/
def Expr.falseyNode : Expr → Bool
  | .bool b => !b
  | .undef => true
  | _ => false

/-- A constant as an expression statement: nothing is emitted. compiler/compiler.c:361-366 -/
def Expr.isLiteral : Expr → Bool
  | .str _ | .int _ | .float _ | .bool _ | .undef => true
  | _ => false

/-- `N_VAR`. -/
def Expr.isVar : Expr → Bool
  | .var _ => true
  | _ => false

/-- `visit_While`, compiler/compiler.c:649-702, with the visits of its parts. -/
def visitWhile (c : Expr) (body post : CState → CState) (hasPost : Bool) (s : CState) : CState :=
  if c.falseyNode then
    let s1 := s.validated (body s)
    if hasPost then s1.validated (post s1) else s1
  else
    let s1 := if hasPost then (post (s.jump .BR_8)).patch (s.buffer.length + 1) else s
    let start := if hasPost then (s.jump .BR_8).buffer.length else s.buffer.length
    let s2 := visitExpr c (s1.addCheckpoint start)
    let s3 := (s2.addCheckpoint s2.buffer.length).jump .BRF_8
    (((body s3).branchBack start).patch (s2.buffer.length + 1)).rmCheckpoints

mutual
/-- `visit` of a statement, compiler/compiler.c:357-379, 491-497, 513-518, 570-723, 1030-1150, 1308-1317, 1362-1365. -/
def visitStmt : Stmt → CState → CState
  | .expr e, s =>
    if e.isLiteral then s
    else if e.isVar then s.validated (visitExpr e s)
    else (visitExpr e s).op .POP
  | .post (.assign x e), s => visitStmt (.assign x e) s
  | .post (.set c k v), s => visitStmt (.set c k v) s
  | .post st, s => (visitStmt st s).op .POP
  | .decl ls rs, s => visitLVals ls (visitExprs rs s)
  | .letOne x e, s =>
    if s.containsCur x then s.error
    else
      let s1 := (visitExpr e s).declVar x
      if (scopeGet s1.scopes x).isSome then s1 else s1.storeVar x
  | .assign x e, s => if !s.contains x then s.error else (visitExpr e s).storeVar x
  | .set c k v, s => (visitExpr v (visitExpr k (visitExpr c s))).op .SET
  | .echo e, s =>
    let s1 := visitExpr e s
    (s1.op .ECHO).emit (BitVec.ofNat 8 (scopeLen s1.scopes))
  | .assert e, s => (visitExpr e s).op .ASS
  | .block ss, s => (visitStmts ss s.enterScope).exitScope
  | .ifThen c t, s =>
    if c.truthyNode then visitStmt t s
    else if c.falseyNode then s.validated (visitStmt t s)
    else
      let s1 := visitExpr c s
      (visitStmt t (s1.jump .BRF_8)).patch (s1.buffer.length + 1)
  | .ifElse c t e, s =>
    if c.truthyNode then
      let s1 := visitStmt t s
      s1.validated (visitStmt e s1)
    else if c.falseyNode then visitStmt e (s.validated (visitStmt t s))
    else
      let s1 := visitExpr c s
      let s2 := visitStmt t (s1.jump .BRF_8)
      let s3 := (s2.jump .BR_8).patch (s1.buffer.length + 1)
      (visitStmt e s3).patch (s2.buffer.length + 1)
  | .while_ c body, s => visitWhile c (visitStmt body) id false s
  | .forLoop c body post, s => visitWhile c (visitStmt body) (visitStmt post) true s
  | .forIter x coll body, s =>
    let s1 := (((visitExpr coll s.enterScope).op .INITFOR).op .END).declVar x
    let s2 := (s1.addCheckpoint s1.buffer.length).op .ITER_1
    let s3 := ((s2.addCheckpoint s2.buffer.length).jump .BRF_8).storeVar x
    let s4 := ((visitStmt body s3).branchBack s1.buffer.length).patch (s2.buffer.length + 1)
    (s4.op .ENDFOR).exitScope.rmCheckpoints
  | .brk, s => match s.checkpoints with
    | [] => s.error
    | cp :: _ => (s.op .BCONST_F).branchBack cp
  | .cont, s => match s.checkpoints with
    | [] => s.error
    | cps => s.branchBack (cps.getD 1 0)
/-- `visit_Body` of statements, compiler/compiler.c:120-124. -/
def visitStmts : Stmts → CState → CState
  | .nil, s => s
  | .cons st ss, s => visitStmts ss (visitStmt st s)
end

/-- The loop of `compile` over the statements of the file, compiler/compiler.c:312-331: the code of each statement is moved to
`compiler->code`. -/
def compileAll : Stmts → CState → List Byte → CState × List Byte
  | .nil, s, code => (s, code)
  | .cons st ss, s, code =>
    let s1 := visitStmt st s
    compileAll ss { s1 with buffer := [] } (code ++ s1.buffer)

/-- `return_bytes`, compiler/compiler.c:270-306; `header` does not contain the first three numbers here. -/
def returnBytes (header code lines : List Byte) (constants : Nat) : List Byte :=
  bytes8 (BitVec.ofNat 64 (header.length + 24)) ++ bytes8 (BitVec.ofNat 64 (code.length + (header.length + 24) + 1)) ++
    bytes8 (BitVec.ofNat 64 constants) ++ header ++ code ++ [Opc.HALT.byte] ++ lines

/-- The compiler after `YASL_declglobal` of some names, yasl.c:168-172. -/
def CState.declGlobals : List Name → CState → CState
  | [], s => s
  | x :: xs, s =>
    let s1 := (s.intern (.str x)).2
    CState.declGlobals xs { s1 with globals := s1.globals.put x (BitVec.ofNat 64 s1.globals.length) }

/-- `NEW_COMPILER`, compiler/compiler.h:17-34. -/
def CState.initial : CState :=
  { buffer := [], scopes := [], globals := [], pool := [], header := [], checkpoints := [], ok := true }

/-- `compile` (with the statements that `parse` returns), compiler/compiler.c:308-336, for a program that may use the given globals.
`none` is a syntax error.  The `O_POP`s of the last `exit_scope` stay in the buffer. -/
def compile (globals : List Name) (prog : Stmts) (lines : List Byte) : Option (List Byte) :=
  let r := compileAll prog (CState.initial.declGlobals globals).enterScope []
  if r.1.ok then some (returnBytes r.1.header r.2 lines r.1.pool.length) else none

end Yasl
