import Verif.Model.FAst
set_option autoImplicit false
/-!
# The command `yasl`: what is said about it
-/
namespace Yasl

/-- Is it assigned to on the left side of a declaration? -/
def usesL (x : Name) : List FTarget → Bool
  | [] => false
  | .assign y :: ls => y == x || usesL x ls
  | .let_ _ :: ls | .const_ _ :: ls => usesL x ls

mutual
/-- Is the variable `x` read or assigned to anywhere in the expression? -/
def FExpr.uses (x : Name) : FExpr → Bool
  | .lit _ => false
  | .var y => y == x
  | .un _ e | .ctx _ e => e.uses x
  | .bin _ a b | .get a b => a.uses x || b.uses x
  | .tri a b c | .slice a b c => a.uses x || b.uses x || c.uses x
  | .list es | .table es => es.uses x
  | .fn _ _ body => body.uses x
  | .call f args | .mcall f _ args => f.uses x || args.uses x
/-- In some of them? -/
def FExprs.uses (x : Name) : FExprs → Bool
  | .nil => false
  | .cons e es => e.uses x || es.uses x
/-- Is it read or assigned to anywhere in the statement? -/
def FStmt.uses (x : Name) : FStmt → Bool
  | .expr e | .echo e | .assert e | .let_ _ e | .const_ _ e | .ret e => e.uses x
  | .assign y e => y == x || e.uses x
  | .multi ls es => usesL x ls || es.uses x
  | .set a b c => a.uses x || b.uses x || c.uses x
  | .block ss | .fnDecl _ _ _ ss => ss.uses x
  | .ifThen c t => c.uses x || t.uses x
  | .ifElse c t e => c.uses x || t.uses x || e.uses x
  | .while_ c body => c.uses x || body.uses x
  | .loop c body post => c.uses x || body.uses x || post.uses x
  | .forIter _ coll body => coll.uses x || body.uses x
  | .brk | .cont => false
/-- In some of them? -/
def FStmts.uses (x : Name) : FStmts → Bool
  | .nil => false
  | .cons s ss => s.uses x || ss.uses x
end

/-- The complete lines of a text, each with its end, and what is after the last of them. -/
def textLines : List Byte → List (List Byte) × List Byte
  | [] => ([], [])
  | b :: bs =>
    let r := textLines bs
    if b = 10 then ([b] :: r.1, r.2)
    else match r with
      | ([], rest) => ([], b :: rest)
      | (l :: ls, rest) => ((b :: l) :: ls, rest)

end Yasl
