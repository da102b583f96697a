import Verif.Model.Lexer
import Verif.Model.Ast
import Verif.Spec.Pattern
set_option autoImplicit false
/-!
# The nodes built by the parser: compiler/ast.h, compiler/ast.c, compiler/nodetype.x

All node types.  Line numbers, the list of all nodes (`next`) and ownership are not modelled.
-/
namespace Yasl

/-- The nodes of patterns: `N_PATUNDEF` ... `N_PATALT`, compiler/nodetype.x, as built by compiler/parser.c:527-714.  The children of `table` are keys and
patterns in turn, as in C. -/
inductive PatNode where
  | undef
  | any
  | bool (b : Bool)
  | int (i : BitVec 64)
  | float (f : BitVec 64)
  | str (s : List Byte)
  | type (t : PType)
  | let_ (x : Name)
  | const_ (x : Name)
  | table (rest : Bool) (ps : List PatNode)
  | ls (rest : Bool) (ps : List PatNode)
  | alt (p q : PatNode)

/-- `struct Node`, compiler/ast.h:53-70; a pointer that may be `NULL` is an `Option`.  `null` is the `NULL` that `parse_program` returns for `T_UNKNOWN`. -/
inductive Node where
  | undef
  | bool (b : Bool)
  | int (i : BitVec 64)
  | float (f : BitVec 64)
  | str (s : List Byte)
  | var (x : Name)
  | un (t : Tok) (e : Node)
  | bin (t : Tok) (l r : Node)
  | tri (c a b : Node)
  | list (es : List Node)
  | table (kvs : List Node)
  | listComp (e iter : Node) (cond : Option Node)
  | tableComp (kv : List Node) (iter : Node) (cond : Option Node)
  | get (c k : Node)
  | slice (c a b : Node)
  | call (f : Node) (args : List Node)
  | mcall (obj : Node) (m : Name) (args : List Node)
  | variadic (e : Node) (expected : Int)
  | fn (params : List Node) (body : List Node) (name : Option Name)
  | set (c k : Node) (v : Option Node)
  | exprStmt (e : Node)
  | echo (e : Node)
  | assert (e : Node)
  | export_ (e : Node)
  | ret (e : Node)
  | multiRet (es : List Node)
  | decl (ls rs : List Node)
  | let_ (x : Name) (e : Option Node)
  | const_ (x : Name) (e : Option Node)
  | assign (x : Name) (e : Option Node)
  | letIter (x : Name) (coll : Node)
  | forIter (iter body : Node)
  | while_ (c body : Node) (post : Option Node)
  | if_ (c t : Node) (e : Option Node)
  | match_ (e : Node) (pats : List PatNode) (guards : List (Option Node)) (bodies : List (List Node))
  | block (ss : List Node)
  | brk
  | cont
  | null

/-- `will_var_expand`, compiler/ast.c:161-163. -/
def Node.varExpands : Node → Bool
  | .call _ _ | .mcall _ _ _ => true
  | _ => false

/-- `block->children[block->children_len - 1] = new_VariadicContext(parser, last, n, last->line)` if `last && will_var_expand(last)`,
compiler/parser.c:345-348, 925-929, 969-973.  (For an empty list of children `body_last` reads the field before `children`, which is `children_len`, 0.) -/
def spreadLast (es : List Node) (n : Int) : List Node :=
  match es.getLast? with
  | some e => if e.varExpands then es.dropLast ++ [.variadic e n] else es
  | none => es

end Yasl
