import Verif.Model.FExecute
set_option autoImplicit false
/-!
# Statements that are a bare expression

`parse_program`, compiler/parser.c:253-255, hands out the tree of an expression, without `N_EXPRSTMT` around it, if the statement begins with `fn` and not with the name of
a function: `fn(x) { echo x; }(1)`.  `Verif.Model.FAst` has no such statements (`Node.fstmt` is undefined for them).  Here a program may have them on its top level.
-/
namespace Yasl

/-- A statement of the top level: one of `Verif.Model.FAst`, or a bare expression (compiler/parser.c:255). -/
inductive FItem where
  | stmt (s : FStmt)
  | bare (e : FExpr)

/-- The tree of a node that stands where a statement is expected. -/
def Node.item (n : Node) (k : Nat) : Option (FItem × Nat) :=
  match Node.fstmt n k with
  | some r => some (.stmt r.1, r.2)
  | none => (Node.fexpr n k).map fun r => (.bare r.1, r.2)

/-- The same for several statements. -/
def itemsOf : List Node → Nat → Option (List FItem)
  | [], _ => some []
  | n :: ns, k => (n.item k).bind fun r => (itemsOf ns r.2).map (r.1 :: ·)

/-- `visit` on a statement of the top level, compiler/compiler.c:326: it goes by the type of the node (compiler.c:1497-1499), and an expression is compiled as it is
anywhere else; nobody emits the `O_POP` of `visit_ExprStmt`, compiler.c:375-377. -/
def visitItem : FItem → FState → FState
  | .stmt s, st => visitFS s st
  | .bare e, st => visitFE e st

/-- The loop of `compile`, compiler/compiler.c:312-331, as `compileFAll`. -/
def compileItemsAll : List FItem → FState → List Byte → FState × List Byte
  | [], s, code => (s, code)
  | i :: is, s, code =>
    let s1 := visitItem i s
    compileItemsAll is { s1 with c := { s1.c with buffer := [] }, origin := s1.origin + s1.len } (code ++ s1.c.buffer)

/-- `compile`, compiler/compiler.c:308-336, as `compileF`. -/
def compileItems (globals : List Name) (is : List FItem) (lines : List Byte) : Option (List Byte) :=
  let r := compileItemsAll is (FState.initial globals) []
  if r.1.c.ok then some (returnBytes r.1.c.header r.2 lines r.1.c.pool.length) else none

/-- `compile`, compiler/compiler.c:308-336, on a text, as `buildF`. -/
def buildItems (cfg : ParseCfg) (globals : List Name) (lines : List Byte) (src : List Byte) : Option FBuilt :=
  match parseSource cfg src with
  | none => none
  | some (.accepted ss) => match itemsOf ss 0 with
    | some prog => match compileItems globals prog lines with
      | some b => some (.image b)
      | none => some .refused
    | none => some .other
  | some .rejected => some .refused
  | some .ub => some .ub
  | some .hang => some .hang

/-- `YASL_execute`, yasl.c:153-166, and `vm_run`, VM.c:1657-1662, as `executeF`. -/
def executeItems {W : Type} (cfg : ParseCfg) (F : FloatOps) (P : Prims W) (Q : W → Val → List Val → PRes W (List Val)) (globals : List Name) (lines src : List Byte)
    (G : Name → Option Val) (w : W) (nextFp : Int) (steps : Nat) : Option (FExecuted W) :=
  match buildItems cfg globals lines src with
  | none => none
  | some (.image b) => match FVM.load b G w nextFp with
    | some (m, K) => match FVM.run F P Q b K steps m with
      | .stop m e => some (.stopped m e)
      | .next m => some (.running m)
    | none => some .unknown
  | some .refused => some .refused
  | some _ => some .unknown

end Yasl
