import Verif.Model.FAst
set_option autoImplicit false
/-!
# Which programs the compiler refuses: the rules

The rules a YASL program has to follow before it is run, said by looking at the program text (its syntax tree) alone.

* A variable that is used has to be visible: declared before, in a block around the place, in a function around it, or given by the host.
* A name is declared at most once in a block.
* Only variables which are not constants are assigned to; the host's variables are no constants.
* A function (and the file outside of functions) has at most 255 variables at a time, parameters and loop variables included.
* `break` and `continue` stand in a loop, `return` stands in a function.

The rules hold for code that is never run, too.  `Rule.meant` are the rules as above; `Rule.code` the ones of the code, which differ in three places:
a loop `while false` or `while undef` does not count as a loop; a function inside of a loop counts as inside of the loop; the parameters of a
function need not be different.
-/
namespace Yasl

/-- The rules of the language, or those of the code. -/
inductive Rule where
  | meant
  | code
deriving DecidableEq, Repr

/-- What can be seen from a place in a program.  `here`: the blocks around the place up to the function it is in, innermost first, each with the
variables declared so far and if they are constants.  `around`: the same for the functions around that function, innermost first, and last the file; it is empty
outside of functions.  `globals`: the variables of the host.  `inLoop`: is the place in a loop? -/
structure Seen where
  here : List (List (Name × Bool))
  around : List (List (List (Name × Bool)))
  globals : List Name
  inLoop : Bool

/-- The variable which a name stands for: `some true` is a constant, `none` is no variable. -/
def Seen.find (v : Seen) (x : Name) : Option Bool :=
  ((v.here.flatten ++ v.around.flatten.flatten).lookup x).or (if x ∈ v.globals then some false else none)

/-- May the name be declared here? -/
def Seen.free (v : Seen) (x : Name) : Bool := !((v.here.headD []).map Prod.fst).contains x

/-- One more variable in the innermost block. -/
def Seen.add (v : Seen) (x : Name) (const : Bool) : Seen := { v with here := ((x, const) :: v.here.headD []) :: v.here.tail }

/-- At most 255 variables. -/
def Seen.fits (v : Seen) : Bool := v.here.flatten.length ≤ 255

/-- In a new block. -/
def Seen.inBlock (v : Seen) : Seen := { v with here := [] :: v.here }

/-- In a loop. -/
def Seen.loop (v : Seen) : Seen := { v with inLoop := true }

/-- The parameters as variables of one block; a name that is there twice is one variable. -/
def paramBlock : List Name → List (Name × Bool) → List (Name × Bool)
  | [], sc => sc
  | x :: xs, sc => paramBlock xs (if (sc.map Prod.fst).contains x then sc else (x, false) :: sc)

/-- In a function. -/
def Seen.inFunction (v : Seen) (r : Rule) (params : List Name) : Seen :=
  { v with here := [paramBlock params []], around := v.here :: v.around, inLoop := v.inLoop && r == .code }

/-- May these be the parameters of a function? -/
def okParams (r : Rule) (params : List Name) : Bool := r == .code || params.Nodup

/-- A condition that is written `false` or `undef`. -/
def FExpr.neverNode : FExpr → Bool
  | .lit (.bool false) | .lit .undef => true
  | _ => false

/-- What is seen from the body of a loop with this condition. -/
def Seen.whileBody (v : Seen) (r : Rule) (c : FExpr) : Seen := if c.neverNode && r == .code then v else v.loop

/-- What is seen after the left sides of a declaration. -/
def afterL : List FTarget → Seen → Seen
  | [], v => v
  | .let_ x :: ls, v => afterL ls (v.add x false)
  | .const_ x :: ls, v => afterL ls (v.add x true)
  | .assign _ :: ls, v => afterL ls v

/-- Do the left sides of a declaration follow the rules? -/
def goodL : List FTarget → Seen → Bool
  | [], _ => true
  | .let_ x :: ls, v => v.free x && (v.add x false).fits && goodL ls (v.add x false)
  | .const_ x :: ls, v => v.free x && (v.add x true).fits && goodL ls (v.add x true)
  | .assign x :: ls, v => v.find x == some false && goodL ls v

/-- What is seen after a statement. -/
def FStmt.after (v : Seen) : FStmt → Seen
  | .let_ x _ | .fnDecl x _ _ _ => v.add x false
  | .const_ x _ => v.add x true
  | .multi ls _ => afterL ls v
  | _ => v

mutual
/-- Does an expression follow the rules? -/
def FExpr.good (r : Rule) : FExpr → Seen → Bool
  | .lit _, _ => true
  | .var x, v => (v.find x).isSome
  | .un _ e, v => e.good r v
  | .bin _ a b, v => a.good r v && b.good r v
  | .tri c a b, v => c.good r v && a.good r v && b.good r v
  | .list es, v | .table es, v => es.good r v
  | .get c k, v => c.good r v && k.good r v
  | .slice c a b, v => c.good r v && a.good r v && b.good r v
  | .fn _ params body, v => okParams r params && (v.inFunction r params).fits && body.good r (v.inFunction r params)
  | .call f args, v => f.good r v && args.good r v
  | .mcall o _ args, v => o.good r v && args.good r v
  | .ctx _ e, v => e.good r v
/-- All of some expressions. -/
def FExprs.good (r : Rule) : FExprs → Seen → Bool
  | .nil, _ => true
  | .cons e es, v => e.good r v && es.good r v
/-- Does a statement follow the rules? -/
def FStmt.good (r : Rule) : FStmt → Seen → Bool
  | .expr e, v | .echo e, v | .assert e, v => e.good r v
  | .let_ x e, v => e.good r v && v.free x && (v.add x false).fits
  | .const_ x e, v => e.good r v && v.free x && (v.add x true).fits
  | .multi ls es, v => es.good r v && goodL ls v
  | .assign x e, v => e.good r v && v.find x == some false
  | .set c k e, v => c.good r v && k.good r v && e.good r v
  | .block ss, v => ss.good r v.inBlock
  | .ifThen c t, v => c.good r v && t.good r v
  | .ifElse c t e, v => c.good r v && t.good r v && e.good r v
  | .while_ c body, v => c.good r (v.whileBody r c) && body.good r (v.whileBody r c)
  | .loop c body post, v => c.good r (v.whileBody r c) && body.good r (v.whileBody r c) && post.good r v
  | .forIter x coll body, v => coll.good r v.inBlock && (v.inBlock.add x false).fits && body.good r (v.inBlock.add x false).loop
  | .brk, v | .cont, v => v.inLoop
  | .ret e, v => !v.around.isEmpty && e.good r v
  | .fnDecl x _ params body, v => v.free x && (v.add x false).fits && okParams r params &&
      ((v.add x false).inFunction r params).fits && body.good r ((v.add x false).inFunction r params)
/-- All of some statements, each with what was declared before. -/
def FStmts.good (r : Rule) : FStmts → Seen → Bool
  | .nil, _ => true
  | .cons s ss, v => s.good r v && ss.good r (s.after v)
end

/-- Does a file follow the rules, when the host has these variables? -/
def goodFile (r : Rule) (globals : List Name) (prog : FStmts) : Bool :=
  prog.good r { here := [[]], around := [], globals := globals, inLoop := false }

/-! Syntax: the body of a loop and the branches of an `if` are blocks (or, after `else`, another `if`), and the part of a `for` done after each round
is an expression or an assignment: none of them declares a variable in the block it is in. -/
mutual
/-- The shape that the parser gives to expressions. -/
def FExpr.shaped : FExpr → Bool
  | .lit _ | .var _ => true
  | .un _ e | .ctx _ e => e.shaped
  | .bin _ a b | .get a b => a.shaped && b.shaped
  | .tri a b c | .slice a b c => a.shaped && b.shaped && c.shaped
  | .list es | .table es => es.shaped
  | .fn _ _ body => body.shaped
  | .call f args | .mcall f _ args => f.shaped && args.shaped
/-- All of some expressions. -/
def FExprs.shaped : FExprs → Bool
  | .nil => true
  | .cons e es => e.shaped && es.shaped
/-- The shape that the parser gives to statements. -/
def FStmt.shaped : FStmt → Bool
  | .expr e | .echo e | .assert e | .let_ _ e | .const_ _ e | .assign _ e | .ret e => e.shaped
  | .multi _ es => es.shaped
  | .set a b c => a.shaped && b.shaped && c.shaped
  | .block ss | .fnDecl _ _ _ ss => ss.shaped
  | .ifThen c t => c.shaped && t.decls.isEmpty && t.shaped
  | .ifElse c t e => c.shaped && t.decls.isEmpty && t.shaped && e.decls.isEmpty && e.shaped
  | .while_ c body => c.shaped && body.decls.isEmpty && body.shaped
  | .loop c body post => c.shaped && body.decls.isEmpty && body.shaped && post.decls.isEmpty && post.shaped
  | .forIter _ coll body => coll.shaped && body.decls.isEmpty && body.shaped
  | .brk | .cont => true
/-- All of some statements. -/
def FStmts.shaped : FStmts → Bool
  | .nil => true
  | .cons s ss => s.shaped && ss.shaped
end

/-! Programs for which the two kinds of rules agree. -/
mutual
/-- No loop has a condition written `false` or `undef`. -/
def FExpr.noNever : FExpr → Bool
  | .lit _ | .var _ => true
  | .un _ e | .ctx _ e => e.noNever
  | .bin _ a b | .get a b => a.noNever && b.noNever
  | .tri a b c | .slice a b c => a.noNever && b.noNever && c.noNever
  | .list es | .table es => es.noNever
  | .fn _ _ body => body.noNever
  | .call f args | .mcall f _ args => f.noNever && args.noNever
/-- No loop has a condition written `false` or `undef`. -/
def FExprs.noNever : FExprs → Bool
  | .nil => true
  | .cons e es => e.noNever && es.noNever
/-- No loop has a condition written `false` or `undef`. -/
def FStmt.noNever : FStmt → Bool
  | .expr e | .echo e | .assert e | .let_ _ e | .const_ _ e | .assign _ e | .ret e => e.noNever
  | .multi _ es => es.noNever
  | .set a b c => a.noNever && b.noNever && c.noNever
  | .block ss | .fnDecl _ _ _ ss => ss.noNever
  | .ifThen c t => c.noNever && t.noNever
  | .ifElse c t e => c.noNever && t.noNever && e.noNever
  | .while_ c body => !c.neverNode && c.noNever && body.noNever
  | .loop c body post => !c.neverNode && c.noNever && body.noNever && post.noNever
  | .forIter _ coll body => coll.noNever && body.noNever
  | .brk | .cont => true
/-- No loop has a condition written `false` or `undef`. -/
def FStmts.noNever : FStmts → Bool
  | .nil => true
  | .cons s ss => s.noNever && ss.noNever
end

mutual
/-- The parameters of each function are different, and no function stands in a loop; `l`: is this in a loop? -/
def FExpr.calm : FExpr → Bool → Bool
  | .lit _, _ | .var _, _ => true
  | .un _ e, l | .ctx _ e, l => e.calm l
  | .bin _ a b, l | .get a b, l => a.calm l && b.calm l
  | .tri a b c, l | .slice a b c, l => a.calm l && b.calm l && c.calm l
  | .list es, l | .table es, l => es.calm l
  | .fn _ ps body, l => !l && ps.Nodup && body.calm false
  | .call f args, l | .mcall f _ args, l => f.calm l && args.calm l
/-- All of some expressions. -/
def FExprs.calm : FExprs → Bool → Bool
  | .nil, _ => true
  | .cons e es, l => e.calm l && es.calm l
/-- The same for a statement. -/
def FStmt.calm : FStmt → Bool → Bool
  | .expr e, l | .echo e, l | .assert e, l | .let_ _ e, l | .const_ _ e, l | .assign _ e, l | .ret e, l => e.calm l
  | .multi _ es, l => es.calm l
  | .set a b c, l => a.calm l && b.calm l && c.calm l
  | .block ss, l => ss.calm l
  | .fnDecl _ _ ps body, l => !l && ps.Nodup && body.calm false
  | .ifThen c t, l => c.calm l && t.calm l
  | .ifElse c t e, l => c.calm l && t.calm l && e.calm l
  | .while_ c body, _ => c.calm true && body.calm true
  | .loop c body post, l => c.calm true && body.calm true && post.calm l
  | .forIter _ coll body, l => coll.calm l && body.calm true
  | .brk, _ | .cont, _ => true
/-- All of some statements. -/
def FStmts.calm : FStmts → Bool → Bool
  | .nil, _ => true
  | .cons s ss, l => s.calm l && ss.calm l
end

end Yasl
