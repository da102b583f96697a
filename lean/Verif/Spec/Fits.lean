import Verif.Model.Ast
set_option autoImplicit false
/-!
# Programs which respect the limits of the implementation

Static conditions on programs, in terms of the source: how much of the value stack an expression needs, how many local variables there are,
how deeply `for … <-` loops are nested, and where `break` and `continue` are.
-/
namespace Yasl

mutual
/-- The table literals have a value for every key (as the parser builds them). -/
def WfE : Expr → Prop
  | .un _ e => WfE e
  | .bin _ l r => WfE l ∧ WfE r
  | .tri c a b => WfE c ∧ WfE a ∧ WfE b
  | .list es => WfEs es
  | .table es => es.length % 2 = 0 ∧ WfEs es
  | .get c k => WfE c ∧ WfE k
  | .slice c a b => WfE c ∧ WfE a ∧ WfE b
  | _ => True
def WfEs : Exprs → Prop
  | .nil => True
  | .cons e es => WfE e ∧ WfEs es
end

mutual
/-- The most values that are on the stack at the same time while the expression is evaluated, the result included. -/
def needE : Expr → Nat
  | .un _ e => needE e
  | .bin .and l r | .bin .or l r | .bin .coalesce l r => max (max (needE l) 2) (needE r)
  | .bin _ l r => max (needE l) (1 + needE r)
  | .tri c a b => max (needE c) (max (needE a) (needE b))
  | .list es => 1 + needEs es
  | .table es => 1 + needEs es
  | .get c k => max (needE c) (1 + needE k)
  | .slice c a b => max (needE c) (max (1 + needE a) (2 + needE b))
  | _ => 1
def needEs : Exprs → Nat
  | .nil => 0
  | .cons e es => max (needE e) (1 + needEs es)
end

/-! ## Statements -/

/-- Does the left-hand side declare a variable? -/
def LVal.declares : LVal → Nat
  | .let_ _ | .const_ _ => 1
  | _ => 0

/-- The number of variables which the statement declares in the scope it is in. -/
def Stmt.declares : Stmt → Nat
  | .decl ls _ => (ls.map LVal.declares).sum
  | .letOne _ _ => 1
  | _ => 0

/-- The greatest number of local variables whose offsets are bytes from 0 to 127. -/
def maxLocals : Nat := 128

/-- Size of the value stack (`STACK_SIZE`, interpreter/VM.h:8). -/
def stackLimit : Nat := 1024

/-- Number of loop frames (interpreter/VM.h:85). -/
def loopLimit : Nat := 16

/-- An expression with `n` values below it. -/
def FitsE (e : Expr) (n : Nat) : Prop := WfE e ∧ n + needE e ≤ stackLimit

/-- Left-hand sides of a declaration, with `n` local variables and the values `m` still to be bound. -/
def FitsL : List LVal → Nat → Nat → Prop
  | [], _, _ => True
  | .let_ _ :: ls, n, m | .const_ _ :: ls, n, m => n + 1 ≤ maxLocals ∧ FitsL ls (n + 1) (m - 1)
  | .assign _ :: ls, n, m => n < maxLocals ∧ FitsL ls n (m - 1)
  | .set c k :: ls, n, m => n < maxLocals ∧ FitsE c (n + m) ∧ FitsE k (n + m + 1) ∧ FitsL ls n (m - 1)

mutual
/-- The statement respects the limits, with `n` local variables in scope of which `L` were there where the body of the innermost loop
begins, inside of `d` loops over collections:

- no more than 128 local variables at a time, 1024 values on the stack, 16 nested loops over collections;
- as many values as left-hand sides in a declaration;
- bodies of `if` and of loops do not declare variables (they are blocks);
- the third part of a `for` is an assignment;
- no local variable is declared between the start of a loop body and a `break` or `continue`. -/
def Fits : Stmt → (n L d : Nat) → Prop
  | .expr e, n, _, _ => FitsE e n
  | .post (.assign x e), n, L, d => Fits (.assign x e) n L d
  | .post (.set c k v), n, L, d => Fits (.set c k v) n L d
  | .post _, _, _, _ => False
  | .decl ls rs, n, _, _ => ls.length = rs.length ∧ WfEs rs ∧ n + needEs rs ≤ stackLimit ∧ FitsL ls n rs.length
  | .letOne _ e, n, _, _ => FitsE e n ∧ n + 1 ≤ maxLocals
  | .assign _ e, n, _, _ => FitsE e n
  | .set c k v, n, _, _ => FitsE c n ∧ FitsE k (n + 1) ∧ FitsE v (n + 2)
  | .echo e, n, _, _ => FitsE e n
  | .assert e, n, _, _ => FitsE e n
  | .block ss, n, L, d => FitsAll ss n L d
  | .ifThen c t, n, L, d => FitsE c n ∧ t.declares = 0 ∧ Fits t n L d
  | .ifElse c t e, n, L, d => FitsE c n ∧ (t.declares = 0 ∧ Fits t n L d) ∧ e.declares = 0 ∧ Fits e n L d
  | .while_ c body, n, _, d => FitsE c n ∧ body.declares = 0 ∧ Fits body n n d
  | .forLoop c body post, n, L, d =>
    FitsE c n ∧ (body.declares = 0 ∧ Fits body n n d) ∧ (∃ s, post = .post s) ∧ Fits post n L d
  | .forIter _ coll body, n, _, d =>
    FitsE coll n ∧ n + 1 ≤ maxLocals ∧ n + 3 ≤ stackLimit ∧ d < loopLimit ∧ body.declares = 0 ∧ Fits body (n + 1) (n + 1) (d + 1)
  | .brk, n, L, _ => n = L
  | .cont, n, L, _ => n = L
/-- The same for statements in sequence. -/
def FitsAll : Stmts → (n L d : Nat) → Prop
  | .nil, _, _, _ => True
  | .cons s ss, n, L, d => Fits s n L d ∧ FitsAll ss (n + s.declares) L d
end

end Yasl
