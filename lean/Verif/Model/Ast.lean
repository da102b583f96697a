import Verif.Model.Ops
set_option autoImplicit false
/-!
# Abstract syntax: compiler/ast.h, compiler/nodetype.x

Expressions and statements as the parser builds them, without function declarations, calls, comprehensions, `match` and
`export` (not modelled here).  Line numbers are modelled in `Verif.Model.Lines`.
-/
namespace Yasl

/-- A variable name (a C string). -/
abbrev Name := List Byte

/-- `node->value.type` of a `N_BINOP` (compiler/compiler.c:1172-1266): the operators which are one opcode, `!=`, `!==`, and
the short-circuiting `&&`, `||`, `??`. -/
inductive BinTok where
  | op (o : BinOp)
  | ne | nid
  | and | or | coalesce
deriving DecidableEq, Repr

mutual
/-- Expression nodes: `N_UNDEF`, `N_BOOL`, `N_INT`, `N_FLOAT`, `N_STR`, `N_VAR`, `N_UNOP`, `N_BINOP`, `N_TRIOP`, `N_LIST`,
`N_TABLE` (keys and values alternating), `N_GET`, `N_SLICE`; compiler/nodetype.x. -/
inductive Expr where
  | undef
  | bool (b : Bool)
  | int (i : BitVec 64)
  | float (f : BitVec 64)
  | str (s : List Byte)
  | var (x : Name)
  | un (op : UnOp) (e : Expr)
  | bin (t : BinTok) (l r : Expr)
  | tri (c a b : Expr)
  | list (es : Exprs)
  | table (kvs : Exprs)
  | get (c k : Expr)
  | slice (c a b : Expr)
/-- The children of a `N_BODY` of expressions, compiler/ast.h. -/
inductive Exprs where
  | nil
  | cons (e : Expr) (es : Exprs)
end

/-- A left-hand side in a `N_DECL`: `let x`, `const x`, `x`, `c[k]`; compiler/parser.c:402-424, compiler/compiler.c:1113-1146. -/
inductive LVal where
  | let_ (x : Name)
  | const_ (x : Name)
  | assign (x : Name)
  | set (c k : Expr)

mutual
/-- Statement nodes: `N_EXPRSTMT` of an expression; `N_EXPRSTMT` of a statement (what `parse_for`, compiler/parser.c:500, builds
for the third part of a `for`); `N_DECL`; `N_LET` (the first part of a `for`); `N_ASSIGN`; `N_SET`; `N_ECHO`; `N_ASS`; `N_BLOCK` of a
`N_BODY`; `N_IF` without and with `else`; `N_WHILE` without and with `post`; `N_FORITER` with its `N_LETITER`; `N_BREAK`; `N_CONT`. -/
inductive Stmt where
  | expr (e : Expr)
  | post (s : Stmt)
  | decl (ls : List LVal) (rs : Exprs)
  | letOne (x : Name) (e : Expr)
  | assign (x : Name) (e : Expr)
  | set (c k v : Expr)
  | echo (e : Expr)
  | assert (e : Expr)
  | block (ss : Stmts)
  | ifThen (c : Expr) (t : Stmt)
  | ifElse (c : Expr) (t e : Stmt)
  | while_ (c : Expr) (body : Stmt)
  | forLoop (c : Expr) (body post : Stmt)
  | forIter (x : Name) (coll : Expr) (body : Stmt)
  | brk
  | cont
/-- The children of a `N_BODY` of statements. -/
inductive Stmts where
  | nil
  | cons (s : Stmt) (ss : Stmts)
end

/-- Number of children, `node->children_len`. compiler/ast.h -/
def Exprs.length : Exprs → Nat
  | .nil => 0
  | .cons _ es => es.length + 1

end Yasl
