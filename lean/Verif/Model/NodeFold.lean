import Verif.Model.Node
import Verif.Model.Fold
set_option autoImplicit false
/-!
# `compiler/middleend.c` on all nodes, and the trees of the compiler model

`fold` as a function on `Node`; the arithmetic is that of `Verif.Model.Fold`.  `Node.expr`, `Node.stmt` relate the two models of `struct Node`: the trees that the
parser model builds, and those of the compiler model (which has no functions, calls, comprehensions, `match`, `export`, `return`).
-/
namespace Yasl

/-- The operator of a `N_BINOP`, compiler/compiler.c:1172-1266. -/
def Tok.binTok : Tok → Option BinTok
  | .dqmark => some .coalesce
  | .dbar => some .or
  | .damp => some .and
  | .bar => some (.op .bor) | .caret => some (.op .bxor) | .amp => some (.op .band) | .ampCaret => some (.op .bandnot)
  | .deq => some (.op .eq) | .teq => some (.op .id) | .bangEq => some .ne | .bangDeq => some .nid
  | .gt => some (.op .gt) | .gtEq => some (.op .ge) | .lt => some (.op .lt) | .ltEq => some (.op .le)
  | .tilde => some (.op .cnct) | .dgt => some (.op .shr) | .dlt => some (.op .shl)
  | .plus => some (.op .add) | .minus => some (.op .sub) | .star => some (.op .mul) | .slash => some (.op .fdiv) | .dslash => some (.op .idiv)
  | .mod => some (.op .mod) | .dstar => some (.op .pow)
  | _ => none

/-- The operator of a `N_UNOP`, compiler/compiler.c:1285-1306. -/
def Tok.unOp : Tok → Option UnOp
  | .plus => some .pos | .minus => some .neg | .bang => some .not | .caret => some .bnot | .len => some .len
  | _ => none

/-- The constants which `fold_BinOp` and `fold_UnOp` look for (`N_INT`, `N_FLOAT`, `N_BOOL`), middleend.c:100-102, 296-334. -/
def Node.const? : Node → Option Expr
  | .int i => some (.int i)
  | .float f => some (.float f)
  | .bool b => some (.bool b)
  | _ => none

/-- The node made by `make_int`, `make_float`, `make_bool`, middleend.c:66-82; otherwise the node is unchanged. -/
def Expr.constNode (n : Node) : Expr → Node
  | .int i => .int i
  | .float f => .float f
  | .bool b => .bool b
  | _ => n

/-- `fold_BinOp` on folded children, middleend.c:96-290. -/
def foldBinNode (F : FloatOps) (t : Tok) (l r : Node) : Option Node :=
  match t.binTok, l.const?, r.const? with
  | some o, some a, some b => (foldBin F o a b).map (Expr.constNode (.bin t l r))
  | _, _, _ => some (.bin t l r)

/-- `fold_UnOp` on the folded child, middleend.c:292-347. -/
def foldUnNode (t : Tok) (e : Node) : Option Node :=
  match t.unOp, e.const? with
  | some o, some a => (foldUn o a).map (Expr.constNode (.un t e))
  | _, _ => some (.un t e)

mutual
/-- `fold`, middleend.c:367-425, and the functions it calls, middleend.c:1-62, 96-365.  Functions (`N_FNDECL`), `N_VARIADIC`, the iterators of comprehensions and
the other statements are left as they are. -/
def foldNode (F : FloatOps) : Node → Option Node
  | .exprStmt e => (foldNode F e).bind fun e => some (.exprStmt e)
  | .block ss => (foldNodes F ss).bind fun ss => some (.block ss)
  | .call f as => (foldNode F f).bind fun f => (foldNodes F as).bind fun as => some (.call f as)
  | .mcall o m as => (foldNode F o).bind fun o => (foldNodes F as).bind fun as => some (.mcall o m as)
  | .set c k v => (foldNode F c).bind fun c => (foldNode F k).bind fun k => (foldNodeOpt F v).bind fun v => some (.set c k v)
  | .get c k => (foldNode F c).bind fun c => (foldNode F k).bind fun k => some (.get c k)
  | .slice c a b => (foldNode F c).bind fun c => (foldNode F a).bind fun a => (foldNode F b).bind fun b => some (.slice c a b)
  | .listComp e i c => (foldNode F e).bind fun e => (foldNodeOpt F c).bind fun c => some (.listComp e i c)
  | .tableComp kv i c => (foldNodes F kv).bind fun kv => (foldNodeOpt F c).bind fun c => some (.tableComp kv i c)
  | .tri c a b => (foldNode F c).bind fun c => (foldNode F a).bind fun a => (foldNode F b).bind fun b => some (.tri c a b)
  | .bin t l r => (foldNode F l).bind fun l => (foldNode F r).bind fun r => foldBinNode F t l r
  | .un t e => (foldNode F e).bind fun e => foldUnNode t e
  | .assign x e => (foldNodeOpt F e).bind fun e => some (.assign x e)
  | .list es => (foldNodes F es).bind fun es => some (.list es)
  | .table es => (foldNodes F es).bind fun es => some (.table es)
  | n => some n
/-- `fold_Body`, middleend.c:11-15. -/
def foldNodes (F : FloatOps) : List Node → Option (List Node)
  | [] => some []
  | n :: ns => (foldNode F n).bind fun n => (foldNodes F ns).bind fun ns => some (n :: ns)
/-- `if (!node) return;`, middleend.c:368. -/
def foldNodeOpt (F : FloatOps) : Option Node → Option (Option Node)
  | none => some none
  | some n => (foldNode F n).bind fun n => some (some n)
end

mutual
/-- The tree of the compiler model for an expression. -/
def Node.expr : Node → Option Expr
  | .undef => some .undef
  | .bool b => some (.bool b)
  | .int i => some (.int i)
  | .float f => some (.float f)
  | .str s => some (.str s)
  | .var x => some (.var x)
  | .un t e => (t.unOp).bind fun o => (Node.expr e).bind fun e => some (.un o e)
  | .bin t l r => (t.binTok).bind fun o => (Node.expr l).bind fun l => (Node.expr r).bind fun r => some (.bin o l r)
  | .tri c a b => (Node.expr c).bind fun c => (Node.expr a).bind fun a => (Node.expr b).bind fun b => some (.tri c a b)
  | .list es => (exprsOf es).bind fun es => some (.list es)
  | .table es => (exprsOf es).bind fun es => some (.table es)
  | .get c k => (Node.expr c).bind fun c => (Node.expr k).bind fun k => some (.get c k)
  | .slice c a b => (Node.expr c).bind fun c => (Node.expr a).bind fun a => (Node.expr b).bind fun b => some (.slice c a b)
  | _ => none
/-- The same for the children of a `N_BODY`. -/
def exprsOf : List Node → Option Exprs
  | [] => some .nil
  | e :: es => (Node.expr e).bind fun e => (exprsOf es).bind fun es => some (.cons e es)
end

/-- A left-hand side of a `N_DECL`. -/
def Node.lval : Node → Option LVal
  | .let_ x none => some (.let_ x)
  | .const_ x none => some (.const_ x)
  | .assign x none => some (.assign x)
  | .set c k none => c.expr.bind fun c => k.expr.bind fun k => some (.set c k)
  | _ => none

/-- The left-hand sides of a `N_DECL`. -/
def lvalsOf : List Node → Option (List LVal)
  | [] => some []
  | l :: ls => l.lval.bind fun l => (lvalsOf ls).bind fun ls => some (l :: ls)

mutual
/-- The tree of the compiler model for a statement. -/
def Node.stmt : Node → Option Stmt
  | .exprStmt e => e.expr.bind fun e => some (.expr e)
  | .decl ls rs => (lvalsOf ls).bind fun ls => (exprsOf rs).bind fun rs => some (.decl ls rs)
  | .let_ x (some e) => e.expr.bind fun e => some (.letOne x e)
  | .assign x (some e) => e.expr.bind fun e => some (.assign x e)
  | .set c k (some v) => c.expr.bind fun c => k.expr.bind fun k => v.expr.bind fun v => some (.set c k v)
  | .echo e => e.expr.bind fun e => some (.echo e)
  | .assert e => e.expr.bind fun e => some (.assert e)
  | .block ss => (stmtsOf ss).bind fun ss => some (.block ss)
  | .if_ c t none => c.expr.bind fun c => (Node.stmt t).bind fun t => some (.ifThen c t)
  | .if_ c t (some e) => c.expr.bind fun c => (Node.stmt t).bind fun t => (Node.stmt e).bind fun e => some (.ifElse c t e)
  | .while_ c b none => c.expr.bind fun c => (Node.stmt b).bind fun b => some (.while_ c b)
  | .while_ c b (some (.exprStmt p)) => c.expr.bind fun c => (Node.stmt b).bind fun b => (Node.stmt p).bind fun p => some (.forLoop c b (.post p))
  | .forIter (.letIter x coll) b => coll.expr.bind fun coll => (Node.stmt b).bind fun b => some (.forIter x coll b)
  | .brk => some .brk
  | .cont => some .cont
  | _ => none
/-- The same for the children of a `N_BODY`. -/
def stmtsOf : List Node → Option Stmts
  | [] => some .nil
  | s :: ss => (Node.stmt s).bind fun s => (stmtsOf ss).bind fun ss => some (.cons s ss)
end

end Yasl
