import Verif.Model.FExecute
set_option autoImplicit false
/-!
# Declarations that a call fills

`let a, b = f(x)`: the last right side is a call that leaves as many values as are needed, `N_VARIADICCONTEXT` with a number of 2 and more (compiler/parser.c:441-445).
`Verif.Model.FAst` has no such declarations (`Node.fstmt` is undefined for them).  Here a program may have them on its top level.
-/
namespace Yasl

/-- A statement of the top level: one of `Verif.Model.FAst`, or a declaration of the places `ls`, whose last right side `e` leaves `n` values (compiler/parser.c:441-445). -/
inductive GItem where
  | stmt (s : FStmt)
  | fill (ls : List FTarget) (es : FExprs) (n : Int) (e : FExpr)

/-- The right sides before the last one, and the last one with its number, if it is one that fills several places. -/
def fillOf : List Node → Option (List Node × Int × Node)
  | [] => none
  | [.variadic e n] => some ([], n, e)
  | r :: rs => (fillOf rs).map fun p => (r :: p.1, p.2)

/-- The tree of a statement of the top level, with the function literals numbered from `k` on. -/
def Node.gitem (n : Node) (k : Nat) : Option (GItem × Nat) :=
  match Node.fstmt n k with
  | some r => some (.stmt r.1, r.2)
  | none => match n with
    | .decl ls rs => (fillOf rs).bind fun p => (targetsOf ls).bind fun ls => (fexprsOf p.1 k).bind fun es => (Node.fexpr p.2.2 es.2).bind fun e =>
      some (.fill ls es.1 p.2.1 e.1, e.2)
    | _ => none

/-- The same for several statements. -/
def gitemsOf : List Node → Nat → Option (List GItem)
  | [], _ => some []
  | n :: ns, k => (n.gitem k).bind fun r => (gitemsOf ns r.2).map (r.1 :: ·)

/-- `visit_VariadicContext`, compiler/compiler.c:433-438: `expected_returns` is the number while the expression is visited, with all that is in it. -/
def visitSpread (n : Int) (e : FExpr) (s : FState) : FState := { visitFE e { s with expected := n } with expected := s.expected }

/-- `visit` on a statement of the top level; a declaration as `FStmt.multi`, `visit_Decl`, compiler/compiler.c:1113-1146. -/
def visitGItem : GItem → FState → FState
  | .stmt s, st => visitFS s st
  | .fill ls es n e, st => visitTargets ls (visitSpread n e (visitFEs es st))

/-- The loop of `compile`, compiler/compiler.c:312-331, as `compileFAll`. -/
def compileGItemsAll : List GItem → FState → List Byte → FState × List Byte
  | [], s, code => (s, code)
  | i :: is, s, code =>
    let s1 := visitGItem i s
    compileGItemsAll is { s1 with c := { s1.c with buffer := [] }, origin := s1.origin + s1.len } (code ++ s1.c.buffer)

/-- `compile`, compiler/compiler.c:308-336, as `compileF`. -/
def compileGItems (globals : List Name) (is : List GItem) (lines : List Byte) : Option (List Byte) :=
  let r := compileGItemsAll is (FState.initial globals) []
  if r.1.c.ok then some (returnBytes r.1.c.header r.2 lines r.1.c.pool.length) else none

/-- `compile`, compiler/compiler.c:308-336, on a text, as `buildF`. -/
def buildGItems (cfg : ParseCfg) (globals : List Name) (lines : List Byte) (src : List Byte) : Option FBuilt :=
  match parseSource cfg src with
  | none => none
  | some (.accepted ss) => match gitemsOf ss 0 with
    | some is => match compileGItems globals is lines with
      | some b => some (.image b)
      | none => some .refused
    | none => some .other
  | some .rejected => some .refused
  | some .ub => some .ub
  | some .hang => some .hang

/-- `YASL_execute`, yasl.c:153-166, as `executeF`. -/
def executeGItems {W : Type} (cfg : ParseCfg) (F : FloatOps) (P : Prims W) (Q : W → Val → List Val → PRes W (List Val)) (globals : List Name) (lines src : List Byte)
    (G : Name → Option Val) (w : W) (nextFp : Int) (steps : Nat) : Option (FExecuted W) :=
  match buildGItems cfg globals lines src with
  | none => none
  | some (.image b) => match FVM.load b G w nextFp with
    | some (m, K) => match FVM.run F P Q b K steps m with
      | .stop m e => some (.stopped m e)
      | .next m => some (.running m)
    | none => some .unknown
  | some .refused => some .refused
  | some _ => some .unknown

end Yasl
