import Verif.Model.FAst
import Verif.Props.Fold
set_option autoImplicit false
/-!
# When constant folding is harmless in a program with functions

As `FoldSafe` (C27), for the trees of `Verif.Model.FAst`.
-/
namespace Yasl

/-- An int, float or bool as a literal. -/
def Expr.lit? : Expr → Option FLit
  | .int i => some (.int i)
  | .float f => some (.float f)
  | .bool b => some (.bool b)
  | _ => none

/-- The constant (int, float or bool) which the compiler makes of an expression, if it is one. -/
def FExpr.known (F : FloatOps) : FExpr → Option FLit
  | .lit l => l.expr.lit?
  | .un o e => (FExpr.known F e).bind fun a => (foldUn o a.expr).bind Expr.lit?
  | .bin t l r => (FExpr.known F l).bind fun a => (FExpr.known F r).bind fun b => (foldBin F t a.expr b.expr).bind Expr.lit?
  | _ => none

mutual
/-- Every `===` and `!==` of constants in the expression, and in the functions in it, is applied to operands on which folding agrees, and no `!` is applied to a
constant NaN. -/
def SafeFE (F : FloatOps) : FExpr → Prop
  | .lit _ | .var _ => True
  | .un o e => SafeFE F e ∧ (o = .not → ∀ b, e.known F = some (.float b) → fnan b = false)
  | .bin t l r => SafeFE F l ∧ SafeFE F r ∧ ((t = .op .id ∨ t = .nid) → ∀ a b, l.known F = some a → r.known F = some b → IdAgrees a.expr b.expr)
  | .tri c a b => SafeFE F c ∧ SafeFE F a ∧ SafeFE F b
  | .list es => SafeFEs F es
  | .table es => SafeFEs F es
  | .get c k => SafeFE F c ∧ SafeFE F k
  | .slice c a b => SafeFE F c ∧ SafeFE F a ∧ SafeFE F b
  | .fn _ _ body => SafeFSs F body
  | .call f args => SafeFE F f ∧ SafeFEs F args
  | .mcall o _ args => SafeFE F o ∧ SafeFEs F args
  | .ctx _ e => SafeFE F e
/-- The same for several expressions. -/
def SafeFEs (F : FloatOps) : FExprs → Prop
  | .nil => True
  | .cons e es => SafeFE F e ∧ SafeFEs F es
/-- The same for statements. -/
def SafeFS (F : FloatOps) : FStmt → Prop
  | .expr e | .let_ _ e | .const_ _ e | .assign _ e | .echo e | .assert e | .ret e => SafeFE F e
  | .multi _ es => SafeFEs F es
  | .set c k v => SafeFE F c ∧ SafeFE F k ∧ SafeFE F v
  | .block ss => SafeFSs F ss
  | .ifThen c t => SafeFE F c ∧ SafeFS F t
  | .ifElse c t e => SafeFE F c ∧ SafeFS F t ∧ SafeFS F e
  | .while_ c b => SafeFE F c ∧ SafeFS F b
  | .loop c b p => SafeFE F c ∧ SafeFS F b ∧ SafeFS F p
  | .forIter _ c b => SafeFE F c ∧ SafeFS F b
  | .brk | .cont => True
  | .fnDecl _ _ _ body => SafeFSs F body
/-- The same for several statements. -/
def SafeFSs (F : FloatOps) : FStmts → Prop
  | .nil => True
  | .cons s ss => SafeFS F s ∧ SafeFSs F ss
end

end Yasl
