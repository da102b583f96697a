import Verif.Props.Fold
set_option autoImplicit false
/-!
# Programs with all constants folded

`foldStmts F prog` is the program with `fold` applied to every expression, `none` if that is undefined for one of them.  `SafeStmts F prog`: folding is harmless
in every expression (`FoldSafe`, see C27).
-/
namespace Yasl

/-- A left-hand side with folded expressions. -/
def foldLVal (F : FloatOps) : LVal → Option LVal
  | .set c k => (fold F c).bind fun c => (fold F k).bind fun k => some (.set c k)
  | l => some l

/-- Left-hand sides with folded expressions. -/
def foldLVals (F : FloatOps) : List LVal → Option (List LVal)
  | [] => some []
  | l :: ls => (foldLVal F l).bind fun l => (foldLVals F ls).bind fun ls => some (l :: ls)

mutual
/-- A statement with folded expressions. -/
def foldStmt (F : FloatOps) : Stmt → Option Stmt
  | .expr e => (fold F e).bind fun e => some (.expr e)
  | .post s => (foldStmt F s).bind fun s => some (.post s)
  | .decl ls rs => (foldLVals F ls).bind fun ls => (foldBody F rs).bind fun rs => some (.decl ls rs)
  | .letOne x e => (fold F e).bind fun e => some (.letOne x e)
  | .assign x e => (fold F e).bind fun e => some (.assign x e)
  | .set c k v => (fold F c).bind fun c => (fold F k).bind fun k => (fold F v).bind fun v => some (.set c k v)
  | .echo e => (fold F e).bind fun e => some (.echo e)
  | .assert e => (fold F e).bind fun e => some (.assert e)
  | .block ss => (foldStmts F ss).bind fun ss => some (.block ss)
  | .ifThen c t => (fold F c).bind fun c => (foldStmt F t).bind fun t => some (.ifThen c t)
  | .ifElse c t e => (fold F c).bind fun c => (foldStmt F t).bind fun t => (foldStmt F e).bind fun e => some (.ifElse c t e)
  | .while_ c b => (fold F c).bind fun c => (foldStmt F b).bind fun b => some (.while_ c b)
  | .forLoop c b p => (fold F c).bind fun c => (foldStmt F b).bind fun b => (foldStmt F p).bind fun p => some (.forLoop c b p)
  | .forIter x c b => (fold F c).bind fun c => (foldStmt F b).bind fun b => some (.forIter x c b)
  | .brk => some .brk
  | .cont => some .cont
/-- Statements with folded expressions. -/
def foldStmts (F : FloatOps) : Stmts → Option Stmts
  | .nil => some .nil
  | .cons s ss => (foldStmt F s).bind fun s => (foldStmts F ss).bind fun ss => some (.cons s ss)
end

/-- Folding is harmless in a left-hand side. -/
def SafeLVal (F : FloatOps) : LVal → Prop
  | .set c k => FoldSafe F c ∧ FoldSafe F k
  | _ => True

mutual
/-- Folding is harmless in all expressions of the statement. -/
def SafeStmt (F : FloatOps) : Stmt → Prop
  | .expr e | .letOne _ e | .assign _ e | .echo e | .assert e => FoldSafe F e
  | .post s => SafeStmt F s
  | .decl ls rs => (∀ l ∈ ls, SafeLVal F l) ∧ FoldSafes F rs
  | .set c k v => FoldSafe F c ∧ FoldSafe F k ∧ FoldSafe F v
  | .block ss => SafeStmts F ss
  | .ifThen c t => FoldSafe F c ∧ SafeStmt F t
  | .ifElse c t e => FoldSafe F c ∧ SafeStmt F t ∧ SafeStmt F e
  | .while_ c b => FoldSafe F c ∧ SafeStmt F b
  | .forLoop c b p => FoldSafe F c ∧ SafeStmt F b ∧ SafeStmt F p
  | .forIter _ c b => FoldSafe F c ∧ SafeStmt F b
  | .brk | .cont => True
/-- Folding is harmless in all expressions of the statements. -/
def SafeStmts (F : FloatOps) : Stmts → Prop
  | .nil => True
  | .cons s ss => SafeStmt F s ∧ SafeStmts F ss
end

end Yasl
