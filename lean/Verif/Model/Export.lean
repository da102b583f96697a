import Verif.Model.Node
set_option autoImplicit false
/-!
# Where `export` is accepted: compiler/compiler.c

The part of the visitors that decides whether `export` and `return` are refused: the functions and scopes in use.  Names are not modelled here: at every place
where a name can be refused (redeclared, undeclared, constant, or a pattern that binds it wrongly), and at `break` and `continue`, a parameter `ora` says
whether it is, so that the theorems hold whatever the names are (they are modelled in `Verif.Model.FCompile`).  Code is not modelled here.
-/
namespace Yasl

/-- The errors of the visitors: "`export` statement must be at top level of module" (compiler.c:488), "`return` outside of function" (compiler.c:465, 476), all
others. -/
inductive XErr where
  | export_
  | return_
  | other
  deriving DecidableEq

/-- `compiler->params != NULL` (`in_function`, compiler.c:62-64) and the number of scopes in the list `compiler->stack`. -/
structure XC where
  inFn : Bool
  depth : Nat

/-- `enter_scope`, compiler.c:74-77 (the scopes of functions, `compiler->params->scope`, are not counted). -/
def XC.enter (c : XC) : XC := if c.inFn then c else { c with depth := c.depth + 1 }

/-- `compiler->params = env_new(compiler->params)`, compiler.c:381; `compiler->stack` stays. -/
def XC.fn (c : XC) : XC := { c with inFn := true }

/-- Whether an error of another kind is reported at this place. -/
def xOth (ora : List Nat → Bool) (p : List Nat) : List XErr := if ora p then [.other] else []

/-- `Node_istruthy` or `Node_isfalsey`, compiler.c:640-660: the condition is not visited. -/
def Node.xConst : Node → Bool
  | .int _ | .bool _ | .undef => true
  | _ => false

mutual
/-- The errors reported by `visit`, compiler.c:1404-1411, and the visitors in its table; `p` is the place of the node, which `ora` sees.  What is not taken (the
`else` of a true condition, the body of `while false`) is visited by `validate` (compiler.c:1378-1388), so its errors count.  Simplified: the errors of `match`
are listed with those of the guards first (visit_Match_helper, compiler.c:952-1013, takes the clauses in turn). -/
def xv (ora : List Nat → Bool) (c : XC) (p : List Nat) : Node → List XErr
  -- visit_Undef, visit_Boolean, visit_Integer, visit_Float, visit_String, compiler.c:1317-1354
  | .undef | .bool _ | .int _ | .float _ | .str _ | .null => []
  -- visit_Var, compiler.c:1313-1315; visit_Break and visit_Continue, compiler.c:706-723
  | .var _ | .brk | .cont => xOth ora p
  -- visit_UnOp, compiler.c:1278-1280
  | .un _ e => xv ora c (0 :: p) e
  -- visit_BinOp, compiler.c:1176-1203
  | .bin _ l r => xv ora c (0 :: p) l ++ xv ora c (1 :: p) r
  -- visit_TriOp, compiler.c:1155-1174 (the condition is visited twice)
  | .tri a b d => xv ora c (0 :: p) a ++ xv ora c (1 :: p) a ++ xv ora c (2 :: p) b ++ xv ora c (3 :: p) d
  -- visit_List and visit_Table, compiler.c:1361-1373
  | .list es => xvs ora c (0 :: p) es
  | .table es => xvs ora c (0 :: p) es
  -- visit_Comp, compiler.c:541-588: a scope of its own
  | .listComp e it cond => xv ora c.enter (0 :: p) it ++ xOth ora p ++ xvo ora c.enter (1 :: p) cond ++ xv ora c.enter (2 :: p) e
  | .tableComp kv it cond => xv ora c.enter (0 :: p) it ++ xOth ora p ++ xvo ora c.enter (1 :: p) cond ++ xvs ora c.enter (2 :: p) kv
  -- visit_Get, visit_Slice, compiler.c:503-514
  | .get a k => xv ora c (0 :: p) a ++ xv ora c (1 :: p) k
  | .slice a b d => xv ora c (0 :: p) a ++ xv ora c (1 :: p) b ++ xv ora c (2 :: p) d
  -- visit_Call and visit_MethodCall, compiler.c:440-461
  | .call f as => xv ora c (0 :: p) f ++ xvs ora c (1 :: p) as
  | .mcall o _ as => xv ora c (0 :: p) o ++ xvs ora c (1 :: p) as
  -- visit_VariadicContext, compiler.c:433-438
  | .variadic e _ => xv ora c (0 :: p) e
  -- visit_FnDecl, compiler.c:380-431 (the parameters hold no expressions)
  | .fn _ body _ => xOth ora p ++ xvs ora c.fn (0 :: p) body
  -- visit_Set, compiler.c:496-501
  | .set a k v => xv ora c (0 :: p) a ++ xv ora c (1 :: p) k ++ xvo ora c (2 :: p) v
  -- visit_ExprStmt, compiler.c:358-378 (literals, whose visitors report nothing, are skipped)
  | .exprStmt e => xv ora c (0 :: p) e
  -- visit_Echo, visit_Assert, compiler.c:1075-1079, 1356-1359
  | .echo e => xv ora c (0 :: p) e
  | .assert e => xv ora c (0 :: p) e
  -- visit_Export, compiler.c:486-494: `in_function(compiler) || compiler->stack && compiler->stack->parent`
  | .export_ e => if c.inFn || decide (2 ≤ c.depth) then [.export_] else xv ora c (0 :: p) e
  -- visit_Return and visit_MultiReturn, compiler.c:463-484
  | .ret e => if c.inFn then xv ora c (0 :: p) e else [.return_]
  | .multiRet es => if c.inFn then xvs ora c (0 :: p) es else [.return_]
  -- visit_Decl, compiler.c:1118-1153
  | .decl ls rs => xvs ora c (0 :: p) rs ++ xvl ora c (1 :: p) ls
  -- declare_with_let_or_const, compiler.c:1081-1116; visit_Assign, compiler.c:1302-1311
  | .let_ _ e => if ora p then [.other] else xvo ora c (0 :: p) e
  | .const_ _ e => if ora p then [.other] else xvo ora c (0 :: p) e
  | .assign _ e => if ora p then [.other] else xvo ora c (0 :: p) e
  -- `LetIter_get_collection`, compiler.c:548, 594 (the node itself is never visited)
  | .letIter _ coll => xv ora c (0 :: p) coll
  -- visit_ForIter, compiler.c:590-628
  | .forIter it body => xv ora c.enter (0 :: p) it ++ xOth ora p ++ xv ora c.enter (1 :: p) body
  -- visit_While, compiler.c:662-704
  | .while_ cond body post =>
      if cond.xConst then xv ora c (1 :: p) body ++ xvo ora c (2 :: p) post
      else xvo ora c (2 :: p) post ++ xv ora c (0 :: p) cond ++ xv ora c (1 :: p) body
  -- visit_If, compiler.c:1029-1073
  | .if_ cond t e =>
      if cond.xConst then xv ora c (1 :: p) t ++ xvo ora c (2 :: p) e
      else xv ora c (0 :: p) cond ++ xv ora c (1 :: p) t ++ xvo ora c (2 :: p) e
  -- visit_Match, compiler.c:952-1027: every clause has a scope
  | .match_ e _ gs bs => xv ora c (0 :: p) e ++ xOth ora p ++ xvg ora c.enter (1 :: p) gs ++ xvb ora c.enter (2 :: p) bs
  -- visit_Block, compiler.c:516-520
  | .block ss => xvs ora c.enter (0 :: p) ss
/-- `visit_Body`, compiler.c:122-126. -/
def xvs (ora : List Nat → Bool) (c : XC) (p : List Nat) : List Node → List XErr
  | [] => []
  | n :: ns => xv ora c (0 :: p) n ++ xvs ora c (1 :: p) ns
/-- `if (node) visit(compiler, node)`, for instance compiler.c:1036. -/
def xvo (ora : List Nat → Bool) (c : XC) (p : List Nat) : Option Node → List XErr
  | none => []
  | some n => xv ora c (0 :: p) n
/-- The left-hand sides of visit_Decl, compiler.c:1121-1152: a name that is refused ends the loop. -/
def xvl (ora : List Nat → Bool) (c : XC) (p : List Nat) : List Node → List XErr
  | [] => []
  | .set a k _ :: ls => xv ora c (0 :: 0 :: p) a ++ xv ora c (1 :: 0 :: p) k ++ xvl ora c (1 :: p) ls
  | _ :: ls => if ora p then [.other] else xvl ora c (1 :: p) ls
/-- The guards of a `match`, compiler.c:962-985. -/
def xvg (ora : List Nat → Bool) (c : XC) (p : List Nat) : List (Option Node) → List XErr
  | [] => []
  | g :: gs => xvo ora c (0 :: p) g ++ xvg ora c (1 :: p) gs
/-- The bodies of a `match`, compiler.c:991. -/
def xvb (ora : List Nat → Bool) (c : XC) (p : List Nat) : List (List Node) → List XErr
  | [] => []
  | b :: bs => xvs ora c (0 :: p) b ++ xvb ora c (1 :: p) bs
end

/-- The errors of `compile`, compiler.c:311-335, on the statements of a text: `enter_scope` first. -/
def compileErrs (ora : List Nat → Bool) (ss : List Node) : List XErr := xvs ora (XC.enter ⟨false, 0⟩) [] ss

/-- The errors of `compile_REPL`, compiler.c:337-356: no scope.  (That the last expression statement becomes `echo` changes no error.) -/
def replErrs (ora : List Nat → Bool) (ss : List Node) : List XErr := xvs ora ⟨false, 0⟩ [] ss

end Yasl
