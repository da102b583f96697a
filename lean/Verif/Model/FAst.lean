import Verif.Model.Ast
set_option autoImplicit false
/-!
# Abstract syntax with functions: compiler/ast.h, compiler/nodetype.x

The syntax trees of `Verif.Model.Ast` with function literals, calls, method calls and `return`.  Not in this fragment: elements of collections as the targets of
declarations of several variables at once, calls that fill several of them, multiple `return` values, `const` parameters, comprehensions, `match`, `export`.
-/
namespace Yasl

/-- Literals: `N_UNDEF`, `N_BOOL`, `N_INT`, `N_FLOAT`, `N_STR`, compiler/nodetype.x. -/
inductive FLit where
  | undef
  | bool (b : Bool)
  | int (i : BitVec 64)
  | float (f : BitVec 64)
  | str (s : List Byte)

/-- The literal as a node of `Verif.Model.Ast`. -/
def FLit.expr : FLit → Expr
  | .undef => .undef
  | .bool b => .bool b
  | .int i => .int i
  | .float f => .float f
  | .str s => .str s

/-- The value of a literal. -/
def FLit.val : FLit → Val
  | .undef => .undef
  | .bool b => .bool b
  | .int i => .int i
  | .float f => .float f
  | .str s => .str s

/-- A left side of a `N_DECL`: `let x`, `const x`, or the variable `x`; compiler/parser.c:402-424, compiler/compiler.c:1113-1146. -/
inductive FTarget where
  | let_ (x : Name)
  | const_ (x : Name)
  | assign (x : Name)

mutual
/-- Expression nodes: those of `Expr`; `N_FNDECL` (with a number `id` that names the node, which the C code does not have); `N_CALL`; `N_MCALL`; and
the node `new_VariadicContext` makes (compiler/ast.c:265) around the last argument of a call, the value of `return` and of a declaration: `all` is the
number −1 (all the results), otherwise it is 1. -/
inductive FExpr where
  | lit (l : FLit)
  | var (x : Name)
  | un (op : UnOp) (e : FExpr)
  | bin (t : BinTok) (l r : FExpr)
  | tri (c a b : FExpr)
  | list (es : FExprs)
  | table (kvs : FExprs)
  | get (c k : FExpr)
  | slice (c a b : FExpr)
  | fn (id : Nat) (params : List Name) (body : FStmts)
  | call (f : FExpr) (args : FExprs)
  | mcall (obj : FExpr) (name : Name) (args : FExprs)
  | ctx (all : Bool) (e : FExpr)
/-- The children of a `N_BODY` of expressions, compiler/ast.h. -/
inductive FExprs where
  | nil
  | cons (e : FExpr) (es : FExprs)
/-- Statement nodes: `N_EXPRSTMT`; `N_DECL` of one variable or constant, and as `multi` of several ones; `N_ASSIGN`; `N_SET`; `N_ECHO`; `N_ASS`; `N_BLOCK`; `N_IF`; `N_WHILE`, and
as `loop` with what is done after each round (`for let x = a; c; post { … }`, compiler/parser.c:513-522); `N_FORITER`; `N_BREAK`; `N_CONT`; `N_RET`; and `N_LET` of a named function (`fn x(…) { … }`, compiler/parser.c:384). -/
inductive FStmt where
  | expr (e : FExpr)
  | let_ (x : Name) (e : FExpr)
  | const_ (x : Name) (e : FExpr)
  | multi (ls : List FTarget) (es : FExprs)
  | assign (x : Name) (e : FExpr)
  | set (c k v : FExpr)
  | echo (e : FExpr)
  | assert (e : FExpr)
  | block (ss : FStmts)
  | ifThen (c : FExpr) (t : FStmt)
  | ifElse (c : FExpr) (t e : FStmt)
  | while_ (c : FExpr) (body : FStmt)
  | loop (c : FExpr) (body post : FStmt)
  | forIter (x : Name) (coll : FExpr) (body : FStmt)
  | brk
  | cont
  | ret (e : FExpr)
  | fnDecl (x : Name) (id : Nat) (params : List Name) (body : FStmts)
/-- The children of a `N_BODY` of statements. -/
inductive FStmts where
  | nil
  | cons (s : FStmt) (ss : FStmts)
end

/-- Number of children, `node->children_len`. compiler/ast.h -/
def FExprs.length : FExprs → Nat
  | .nil => 0
  | .cons _ es => es.length + 1

/-- The names which left sides declare, the newest first. -/
def declsL : List FTarget → List Name
  | [] => []
  | .let_ x :: ls | .const_ x :: ls => declsL ls ++ [x]
  | .assign _ :: ls => declsL ls

/-- The names which a statement declares in the scope it is in. -/
def FStmt.decls : FStmt → List Name
  | .let_ x _ | .const_ x _ | .fnDecl x _ _ _ => [x]
  | .multi ls _ => declsL ls
  | _ => []

/-- The names which statements declare, the newest first. -/
def FStmts.decls : FStmts → List Name
  | .nil => []
  | .cons s ss => ss.decls ++ s.decls

end Yasl
