import Verif.Model.FAst
set_option autoImplicit false
/-!
# Which programs with functions stay in the limits

The compiler accepts programs which do not run as written; here are the conditions under which they do.  `hid` are the names of local variables of the
places around the current function; `loc` the local variables (not those of the file), the newest first; `n` the number of variables of the file when they
are in the same frame, else 0.

- a function uses its own local variables, those of the file, and globals, but no local variables of the places around it;
- as many values as left sides in a declaration of several variables;
- at most 128 variables in a frame (C32), the left sides of a declaration of several variables that are assigned included, and different names for the parameters;
- `break` and `continue` only where no local variable of the body of the loop is visible (C30), and not in a function inside of the loop;
- no declaration directly as the body of an `if` or a loop (the parser makes blocks).
-/
namespace Yasl

/-- The left sides of a declaration of several variables. -/
def FFitsL (hid : List Name) : List Name → List FTarget → Prop
  | _, [] => True
  | loc, .let_ x :: ls | loc, .const_ x :: ls => FFitsL hid (x :: loc) ls
  | loc, .assign x :: ls => (x ∈ loc ∨ x ∉ hid) ∧ FFitsL hid loc ls

mutual
/-- Expressions. -/
def FFitsE (hid loc : List Name) : FExpr → Prop
  | .lit _ => True
  | .var x => x ∈ loc ∨ x ∉ hid
  | .un _ e => FFitsE hid loc e
  | .bin _ l r => FFitsE hid loc l ∧ FFitsE hid loc r
  | .tri c a b => FFitsE hid loc c ∧ FFitsE hid loc a ∧ FFitsE hid loc b
  | .list es => FFitsEs hid loc es
  | .table es => FFitsEs hid loc es
  | .get c k => FFitsE hid loc c ∧ FFitsE hid loc k
  | .slice c a b => FFitsE hid loc c ∧ FFitsE hid loc a ∧ FFitsE hid loc b
  | .fn _ params body => params.Nodup ∧ params.length + body.decls.length ≤ 128 ∧ FFitsSs (loc ++ hid) 0 params.reverse none body
  | .call f args => FFitsE hid loc f ∧ FFitsEs hid loc args
  | .mcall obj _ args => FFitsE hid loc obj ∧ FFitsEs hid loc args
  | .ctx _ e => FFitsE hid loc e
/-- Several expressions. -/
def FFitsEs (hid loc : List Name) : FExprs → Prop
  | .nil => True
  | .cons e es => FFitsE hid loc e ∧ FFitsEs hid loc es
/-- Statements; `L` are the local variables at the loop around the statement, if there is one in the function. -/
def FFitsS (hid : List Name) (n : Nat) (loc : List Name) (L : Option (List Name)) : FStmt → Prop
  | .expr e | .echo e | .assert e | .ret e => FFitsE hid loc e
  | .let_ _ e | .const_ _ e => n + loc.length + 1 ≤ 128 ∧ FFitsE hid loc e
  | .multi ls es => n + loc.length + ls.length ≤ 128 ∧ es.length = ls.length ∧ FFitsEs hid loc es ∧ FFitsL hid loc ls
  | .assign x e => (x ∈ loc ∨ x ∉ hid) ∧ FFitsE hid loc e
  | .set c k v => FFitsE hid loc c ∧ FFitsE hid loc k ∧ FFitsE hid loc v
  | .block ss => FFitsSs hid n loc L ss
  | .ifThen c t => FFitsE hid loc c ∧ t.decls = [] ∧ FFitsS hid n loc L t
  | .ifElse c t e => FFitsE hid loc c ∧ (t.decls = [] ∧ FFitsS hid n loc L t) ∧ e.decls = [] ∧ FFitsS hid n loc L e
  | .while_ c body => FFitsE hid loc c ∧ body.decls = [] ∧ FFitsS hid n loc (some loc) body
  | .loop c body post => FFitsE hid loc c ∧ (body.decls = [] ∧ FFitsS hid n loc (some loc) body) ∧ post.decls = [] ∧ FFitsS hid n loc none post
  | .forIter x coll body => n + loc.length + 1 ≤ 128 ∧ FFitsE hid loc coll ∧ body.decls = [] ∧ FFitsS hid n (x :: loc) (some (x :: loc)) body
  | .brk | .cont => L = some loc
  | .fnDecl x _ params body => n + loc.length + 1 ≤ 128 ∧ params.Nodup ∧ params.length + body.decls.length ≤ 128 ∧
    FFitsSs (x :: loc ++ hid) 0 params.reverse none body
/-- Several statements. -/
def FFitsSs (hid : List Name) (n : Nat) (loc : List Name) (L : Option (List Name)) : FStmts → Prop
  | .nil => True
  | .cons s ss => FFitsS hid n loc L s ∧ FFitsSs hid n (s.decls ++ loc) L ss
end

/-- The statements of the file, of which the variables `sts` are already declared. -/
def FFitsTop : List Name → FStmts → Prop
  | _, .nil => True
  | sts, .cons st ss => (match st with
    | .let_ _ e | .const_ _ e => sts.length + 1 ≤ 128 ∧ FFitsE [] [] e
    | .fnDecl _ _ params body => sts.length + 1 ≤ 128 ∧ params.Nodup ∧ params.length + body.decls.length ≤ 128 ∧ FFitsSs [] 0 params.reverse none body
    | st => FFitsS [] sts.length [] none st) ∧ FFitsTop (st.decls ++ sts) ss

/-! ## The numbers of the function literals -/

mutual
/-- The numbers of the function literals of an expression. -/
def FExpr.ids : FExpr → List Nat
  | .lit _ | .var _ => []
  | .un _ e => e.ids
  | .bin _ l r => l.ids ++ r.ids
  | .tri c a b => c.ids ++ (a.ids ++ b.ids)
  | .list es => es.ids
  | .table es => es.ids
  | .get c k => c.ids ++ k.ids
  | .slice c a b => c.ids ++ (a.ids ++ b.ids)
  | .fn id _ body => body.ids ++ [id]
  | .call f args => f.ids ++ args.ids
  | .mcall o _ args => o.ids ++ args.ids
  | .ctx _ e => e.ids
def FExprs.ids : FExprs → List Nat
  | .nil => []
  | .cons e es => e.ids ++ es.ids
/-- The numbers of the function literals of a statement. -/
def FStmt.ids : FStmt → List Nat
  | .expr e => e.ids
  | .let_ _ e => e.ids
  | .const_ _ e => e.ids
  | .multi _ es => es.ids
  | .assign _ e => e.ids
  | .set c k v => c.ids ++ (k.ids ++ v.ids)
  | .echo e => e.ids
  | .assert e => e.ids
  | .block ss => ss.ids
  | .ifThen c t => c.ids ++ t.ids
  | .ifElse c t e => c.ids ++ (t.ids ++ e.ids)
  | .while_ c b => c.ids ++ b.ids
  | .loop c b p => p.ids ++ (c.ids ++ b.ids)
  | .forIter _ c b => c.ids ++ b.ids
  | .brk => []
  | .cont => []
  | .ret e => e.ids
  | .fnDecl _ id _ body => body.ids ++ [id]
def FStmts.ids : FStmts → List Nat
  | .nil => []
  | .cons s ss => s.ids ++ ss.ids
end

end Yasl
