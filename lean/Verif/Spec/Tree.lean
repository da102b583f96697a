import Verif.Model.Node
import Verif.Model.FAst
set_option autoImplicit false
/-!
# The trees of a program

The grammar (`Verif.Spec.Grammar`) and the parser speak of `Node`s; the meaning of programs (`Verif.Spec.Semantics`, `Verif.Spec.FLang`) is given for `Stmts` and
`FStmts`.  Here it is said which node a tree of the latter kinds stands for: the one that is written the same way.
-/
namespace Yasl

/-- How an operator with two operands is written. -/
def BinTok.sign : BinTok → Tok
  | .coalesce => .dqmark
  | .or => .dbar
  | .and => .damp
  | .ne => .bangEq
  | .nid => .bangDeq
  | .op .bor => .bar
  | .op .bxor => .caret
  | .op .band => .amp
  | .op .bandnot => .ampCaret
  | .op .eq => .deq
  | .op .id => .teq
  | .op .gt => .gt
  | .op .ge => .gtEq
  | .op .lt => .lt
  | .op .le => .ltEq
  | .op .cnct => .tilde
  | .op .shr => .dgt
  | .op .shl => .dlt
  | .op .add => .plus
  | .op .sub => .minus
  | .op .mul => .star
  | .op .fdiv => .slash
  | .op .idiv => .dslash
  | .op .mod => .mod
  | .op .pow => .dstar

/-- How an operator with one operand is written. -/
def UnOp.sign : UnOp → Tok
  | .pos => .plus
  | .neg => .minus
  | .not => .bang
  | .bnot => .caret
  | .len => .len

/-! ## Programs without functions -/

mutual
/-- The node of an expression. -/
def Expr.node : Expr → Node
  | .undef => .undef
  | .bool b => .bool b
  | .int i => .int i
  | .float f => .float f
  | .str s => .str s
  | .var x => .var x
  | .un o e => .un o.sign e.node
  | .bin o l r => .bin o.sign l.node r.node
  | .tri c a b => .tri c.node a.node b.node
  | .list es => .list es.nodes
  | .table es => .table es.nodes
  | .get c k => .get c.node k.node
  | .slice c a b => .slice c.node a.node b.node
/-- The nodes of several expressions. -/
def Exprs.nodes : Exprs → List Node
  | .nil => []
  | .cons e es => e.node :: es.nodes
end

/-- The node of a left side. -/
def LVal.node : LVal → Node
  | .let_ x => .let_ x none
  | .const_ x => .const_ x none
  | .assign x => .assign x none
  | .set c k => .set c.node k.node none

mutual
/-- The node of a statement. -/
def Stmt.node : Stmt → Node
  | .expr e => .exprStmt e.node
  | .post s => .exprStmt s.node
  | .decl ls rs => .decl (ls.map LVal.node) rs.nodes
  | .letOne x e => .let_ x (some e.node)
  | .assign x e => .assign x (some e.node)
  | .set c k v => .set c.node k.node (some v.node)
  | .echo e => .echo e.node
  | .assert e => .assert e.node
  | .block ss => .block ss.nodes
  | .ifThen c t => .if_ c.node t.node none
  | .ifElse c t e => .if_ c.node t.node (some e.node)
  | .while_ c b => .while_ c.node b.node none
  | .forLoop c b p => .while_ c.node b.node (some p.node)
  | .forIter x coll b => .forIter (.letIter x coll.node) b.node
  | .brk => .brk
  | .cont => .cont
/-- The nodes of several statements. -/
def Stmts.nodes : Stmts → List Node
  | .nil => []
  | .cons s ss => s.node :: ss.nodes
end

/-! ## Programs with functions -/

/-- The node of a constant. -/
def FLit.node : FLit → Node
  | .undef => .undef
  | .bool b => .bool b
  | .int i => .int i
  | .float f => .float f
  | .str s => .str s

/-- The node of a left side. -/
def FTarget.node : FTarget → Node
  | .let_ x => .let_ x none
  | .const_ x => .const_ x none
  | .assign x => .assign x none

mutual
/-- The expression stands for the node.  (A function literal of a `Node` has a name if it is the one of a `fn name(…) { … }`.) -/
def FExpr.Is : FExpr → Node → Prop
  | .lit l, n => n = l.node
  | .var x, n => n = .var x
  | .un o e, n => ∃ a, n = .un o.sign a ∧ e.Is a
  | .bin o l r, n => ∃ a b, n = .bin o.sign a b ∧ l.Is a ∧ r.Is b
  | .tri c x y, n => ∃ a b d, n = .tri a b d ∧ c.Is a ∧ x.Is b ∧ y.Is d
  | .list es, n => ∃ as, n = .list as ∧ es.Is as
  | .table es, n => ∃ as, n = .table as ∧ es.Is as
  | .get c k, n => ∃ a b, n = .get a b ∧ c.Is a ∧ k.Is b
  | .slice c x y, n => ∃ a b d, n = .slice a b d ∧ c.Is a ∧ x.Is b ∧ y.Is d
  | .fn _ ps body, n => ∃ name b, n = .fn (ps.map fun x => .let_ x none) b name ∧ body.Is b
  | .call f args, n => ∃ a as, n = .call a as ∧ f.Is a ∧ args.Is as
  | .mcall obj m args, n => ∃ a as, n = .mcall a m as ∧ obj.Is a ∧ args.Is as
  | .ctx true e, n => ∃ a, n = .variadic a (-1) ∧ e.Is a
  | .ctx false e, n => ∃ a, n = .variadic a 1 ∧ e.Is a
/-- The expressions stand for the nodes. -/
def FExprs.Is : FExprs → List Node → Prop
  | .nil, ns => ns = []
  | .cons e es, ns => ∃ a as, ns = a :: as ∧ e.Is a ∧ es.Is as
/-- The statement stands for the node.  (The third part of a `for` is wrapped in an `exprStmt` by the parser, also if it is an assignment; its first part is a `let_`.) -/
def FStmt.Is : FStmt → Node → Prop
  | .expr e, n => ∃ a, n = .exprStmt a ∧ e.Is a
  | .let_ x e, n => ∃ a, (n = .decl [.let_ x none] [a] ∨ n = .let_ x (some a)) ∧ e.Is a
  | .const_ x e, n => ∃ a, n = .decl [.const_ x none] [a] ∧ e.Is a
  | .multi ls es, n => ∃ as, n = .decl (ls.map FTarget.node) as ∧ es.Is as
  | .assign x e, n => ∃ a, (n = .assign x (some a) ∨ n = .exprStmt (.assign x (some a))) ∧ e.Is a
  | .set c k v, n => ∃ a b d, (n = .set a b (some d) ∨ n = .exprStmt (.set a b (some d))) ∧ c.Is a ∧ k.Is b ∧ v.Is d
  | .echo e, n => ∃ a, n = .echo a ∧ e.Is a
  | .assert e, n => ∃ a, n = .assert a ∧ e.Is a
  | .block ss, n => ∃ as, n = .block as ∧ ss.Is as
  | .ifThen c t, n => ∃ a b, n = .if_ a b none ∧ c.Is a ∧ t.Is b
  | .ifElse c t e, n => ∃ a b d, n = .if_ a b (some d) ∧ c.Is a ∧ t.Is b ∧ e.Is d
  | .while_ c body, n => ∃ a b, n = .while_ a b none ∧ c.Is a ∧ body.Is b
  | .loop c body post, n => ∃ a b d, n = .while_ a b (some d) ∧ c.Is a ∧ body.Is b ∧ post.Is d
  | .forIter x coll body, n => ∃ a b, n = .forIter (.letIter x a) b ∧ coll.Is a ∧ body.Is b
  | .brk, n => n = .brk
  | .cont, n => n = .cont
  | .ret e, n => ∃ a, n = .ret a ∧ e.Is a
  | .fnDecl x _ ps body, n => ∃ name b, n = .let_ x (some (.fn (ps.map fun x => .let_ x none) b (some name))) ∧ body.Is b
/-- The statements stand for the nodes. -/
def FStmts.Is : FStmts → List Node → Prop
  | .nil, ns => ns = []
  | .cons s ss, ns => ∃ a as, ns = a :: as ∧ s.Is a ∧ ss.Is as
end

end Yasl
