import Verif.Model.Parser
import Verif.Model.NodeFold
import Verif.Model.FCompile
import Verif.Model.FVM
set_option autoImplicit false
/-!
# `YASL_execute` on programs with functions

As `Verif.Model.Execute`, with the compiler and the virtual machine that have functions and calls.

`Node.fexpr`, `Node.fstmt` relate the two models of `struct Node`: the trees that the parser model builds, and those of `Verif.Model.FAst`.  They only rename, and
number the function literals in the order in which they are written; they are undefined for the constructs that `Verif.Model.FAst` does not have.
-/
namespace Yasl

/-- Parameters, none of them `const`. -/
def paramsOf : List Node → Option (List Name)
  | [] => some []
  | .let_ x none :: ps => (paramsOf ps).bind fun xs => some (x :: xs)
  | _ => none

/-- The left side of a declaration of one variable or constant (`true`). -/
def declTarget : List Node → Option (Bool × Name)
  | [.let_ x none] => some (false, x)
  | [.const_ x none] => some (true, x)
  | _ => none

/-- The left sides of a declaration of several variables. -/
def targetsOf : List Node → Option (List FTarget)
  | [] => some []
  | .let_ x none :: ls => (targetsOf ls).bind fun ts => some (.let_ x :: ts)
  | .const_ x none :: ls => (targetsOf ls).bind fun ts => some (.const_ x :: ts)
  | .assign x none :: ls => (targetsOf ls).bind fun ts => some (.assign x :: ts)
  | _ => none

/-- The only expression. -/
def FExprs.one : FExprs → Option FExpr
  | .cons e .nil => some e
  | _ => none

/-- The declaration of a named function. -/
def FExpr.named (x : Name) : FExpr → Option FStmt
  | .fn id ps body => some (.fnDecl x id ps body)
  | _ => none

/-- `N_VARIADIC_CONTEXT`: −1 stands for all results. -/
def ctxOf (n : Int) (e : FExpr) : Option FExpr := if n = -1 then some (.ctx true e) else if n = 1 then some (.ctx false e) else none

/-- The declaration of one name. -/
def declOf (t : Bool × Name) (e : FExpr) : FStmt := if t.1 then .const_ t.2 e else .let_ t.2 e

/-- A `N_DECL`: of one name, or with as many values as names. -/
def declsOf (ls : List Node) (es : FExprs) : Option FStmt :=
  match declTarget ls with
  | some t => (es.one).bind fun e => some (declOf t e)
  | none => (targetsOf ls).bind fun ts => if ts.length = es.length then some (.multi ts es) else none

/-- An assignment to a variable or an element: compiler/compiler.c:373. -/
def Node.isStore : Node → Bool
  | .assign _ _ | .set _ _ _ => true
  | _ => false

/-- A function literal with a name: compiler/compiler.c:1090-1092. -/
def Node.isNamed : Node → Bool
  | .fn _ _ x => x.isSome
  | _ => false

mutual
/-- The tree for an expression, with the function literals numbered from `k` on, and the next number. -/
def Node.fexpr : Node → Nat → Option (FExpr × Nat)
  | .undef, k => some (.lit .undef, k)
  | .bool b, k => some (.lit (.bool b), k)
  | .int i, k => some (.lit (.int i), k)
  | .float f, k => some (.lit (.float f), k)
  | .str s, k => some (.lit (.str s), k)
  | .var x, k => some (.var x, k)
  | .un t e, k => (t.unOp).bind fun o => (Node.fexpr e k).bind fun e => some (.un o e.1, e.2)
  | .bin t l r, k => (t.binTok).bind fun o => (Node.fexpr l k).bind fun l => (Node.fexpr r l.2).bind fun r => some (.bin o l.1 r.1, r.2)
  | .tri c a b, k => (Node.fexpr c k).bind fun c => (Node.fexpr a c.2).bind fun a => (Node.fexpr b a.2).bind fun b => some (.tri c.1 a.1 b.1, b.2)
  | .list es, k => (fexprsOf es k).bind fun es => some (.list es.1, es.2)
  | .table es, k => (fexprsOf es k).bind fun es => some (.table es.1, es.2)
  | .get c i, k => (Node.fexpr c k).bind fun c => (Node.fexpr i c.2).bind fun i => some (.get c.1 i.1, i.2)
  | .slice c a b, k => (Node.fexpr c k).bind fun c => (Node.fexpr a c.2).bind fun a => (Node.fexpr b a.2).bind fun b => some (.slice c.1 a.1 b.1, b.2)
  | .call f as, k => (Node.fexpr f k).bind fun f => (fexprsOf as f.2).bind fun as => some (.call f.1 as.1, as.2)
  | .mcall o m as, k => (Node.fexpr o k).bind fun o => (fexprsOf as o.2).bind fun as => some (.mcall o.1 m as.1, as.2)
  | .variadic e n, k => (Node.fexpr e k).bind fun e => (ctxOf n e.1).bind fun c => some (c, e.2)
  | .fn ps body _, k => (paramsOf ps).bind fun xs => (fstmtsOf body (k + 1)).bind fun b => some (.fn k xs b.1, b.2)
  | _, _ => none
/-- The same for several expressions. -/
def fexprsOf : List Node → Nat → Option (FExprs × Nat)
  | [], k => some (.nil, k)
  | e :: es, k => (Node.fexpr e k).bind fun e => (fexprsOf es e.2).bind fun es => some (.cons e.1 es.1, es.2)
/-- The tree for a statement.  (`N_EXPRSTMT` around an assignment is made for the last part of a `for`, compiler/parser.c:516-520, and does not pop anything,
compiler/compiler.c:371-375.  `N_LET` with a value that is not a named function is made for the first part of a `for`.) -/
def Node.fstmt : Node → Nat → Option (FStmt × Nat)
  | .exprStmt e, k => if e.isStore then Node.fstmt e k else (Node.fexpr e k).bind fun e => some (.expr e.1, e.2)
  | .decl ls rs, k => (fexprsOf rs k).bind fun r => (declsOf ls r.1).bind fun s => some (s, r.2)
  | .let_ x (some e), k => let nm := e.isNamed; (Node.fexpr e k).bind fun e => (if nm then e.1.named x else some (.let_ x e.1)).bind fun s => some (s, e.2)
  | .assign x (some e), k => (Node.fexpr e k).bind fun e => some (.assign x e.1, e.2)
  | .set c i (some v), k => (Node.fexpr c k).bind fun c => (Node.fexpr i c.2).bind fun i => (Node.fexpr v i.2).bind fun v => some (.set c.1 i.1 v.1, v.2)
  | .echo e, k => (Node.fexpr e k).bind fun e => some (.echo e.1, e.2)
  | .assert e, k => (Node.fexpr e k).bind fun e => some (.assert e.1, e.2)
  | .ret e, k => (Node.fexpr e k).bind fun e => some (.ret e.1, e.2)
  | .block ss, k => (fstmtsOf ss k).bind fun ss => some (.block ss.1, ss.2)
  | .if_ c t none, k => (Node.fexpr c k).bind fun c => (Node.fstmt t c.2).bind fun t => some (.ifThen c.1 t.1, t.2)
  | .if_ c t (some e), k => (Node.fexpr c k).bind fun c => (Node.fstmt t c.2).bind fun t => (Node.fstmt e t.2).bind fun e => some (.ifElse c.1 t.1 e.1, e.2)
  | .while_ c b none, k => (Node.fexpr c k).bind fun c => (Node.fstmt b c.2).bind fun b => some (.while_ c.1 b.1, b.2)
  | .while_ c b (some p), k => (Node.fstmt p k).bind fun p => (Node.fexpr c p.2).bind fun c => (Node.fstmt b c.2).bind fun b => some (.loop c.1 b.1 p.1, b.2)
  | .forIter (.letIter x coll) b, k => (Node.fexpr coll k).bind fun coll => (Node.fstmt b coll.2).bind fun b => some (.forIter x coll.1 b.1, b.2)
  | .brk, k => some (.brk, k)
  | .cont, k => some (.cont, k)
  | _, _ => none
/-- The same for several statements. -/
def fstmtsOf : List Node → Nat → Option (FStmts × Nat)
  | [], k => some (.nil, k)
  | s :: ss, k => (Node.fstmt s k).bind fun s => (fstmtsOf ss s.2).bind fun ss => some (.cons s.1 ss.1, ss.2)
end

/-- The program as a tree of `Verif.Model.FAst`. -/
def fprogOf (ss : List Node) : Option FStmts := (fstmtsOf ss 0).map Prod.fst

/-- What `compile` makes of a text. -/
inductive FBuilt where
  /-- the bytecode -/
  | image (b : List Byte)
  /-- an error was reported: `compile` returns `NULL`, and the status is not `YASL_SUCCESS` -/
  | refused
  /-- the text was read, and has a construct that `Verif.Model.FAst` does not have -/
  | other
  /-- undefined behaviour of the parser -/
  | ub
  /-- the parser reads on for ever -/
  | hang
  deriving DecidableEq

/-- `compile`, compiler/compiler.c:308-336: `none` if it does not return.  (All is parsed, then all is visited: see `build`.) -/
def buildF (cfg : ParseCfg) (globals : List Name) (lines : List Byte) (src : List Byte) : Option FBuilt :=
  match parseSource cfg src with
  | none => none
  | some (.accepted ss) => match fprogOf ss with
    | some prog => match compileF globals prog lines with
      | some b => some (.image b)
      | none => some .refused
    | none => some .other
  | some .rejected => some .refused
  | some .ub => some .ub
  | some .hang => some .hang

/-- What `YASL_execute` has done so far. -/
inductive FExecuted (W : Type) where
  /-- an error was reported by the compiler and nothing is run -/
  | refused
  /-- the virtual machine stopped -/
  | stopped (m : FVM W) (e : RtErr)
  /-- the virtual machine is still running -/
  | running (m : FVM W)
  /-- the constructs outside the model, and undefined behaviour before the first instruction -/
  | unknown

/-- `YASL_execute`, yasl.c:153-166, and `vm_run`, VM.c:1657-1662: after `steps` instructions of the virtual machine; `none` if `compile` does not return.
`Q`: the C functions; `nextFp`: what is in memory that `vm_init` does not set (VM.c:44-74). -/
def executeF {W : Type} (cfg : ParseCfg) (F : FloatOps) (P : Prims W) (Q : W → Val → List Val → PRes W (List Val)) (globals : List Name) (lines src : List Byte)
    (G : Name → Option Val) (w : W) (nextFp : Int) (steps : Nat) : Option (FExecuted W) :=
  match buildF cfg globals lines src with
  | none => none
  | some (.image b) => match FVM.load b G w nextFp with
    | some (m, K) => match FVM.run F P Q b K steps m with
      | .stop m e => some (.stopped m e)
      | .next m => some (.running m)
    | none => some .unknown
  | some .refused => some .refused
  | some _ => some .unknown

end Yasl
