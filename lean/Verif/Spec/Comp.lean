import Verif.Spec.Lang
import Verif.Spec.Fits
set_option autoImplicit false
/-!
# What comprehensions mean

`[e for x <- coll if cond]` and `{k: v for x <- coll if cond}`: the values for the elements of the collection, in order, for which the condition holds.  Here a comprehension stands
where nothing else of its statement has been evaluated before it: alone, as the only operand or the left operand of an operator, as the container of an index, or as the
collection of another comprehension.
-/
namespace Yasl

/-- Expressions with comprehensions in such places. -/
inductive CExpr where
  | plain (e : Expr)
  /-- `outs` is the element, or the key and the value -/
  | comp (table : Bool) (outs : Exprs) (x : Name) (coll : CExpr) (cond : Option Expr)
  | un (o : UnOp) (a : CExpr)
  | bin (o : BinOp) (a : CExpr) (r : Expr)
  | get (a : CExpr) (k : Expr)

/-- What is done with the value. -/
inductive CUse where
  | let_ (y : Name)
  | const_ (y : Name)
  | assign (y : Name)
  | echo
  /-- an expression as a statement -/
  | drop

/-- A statement of the top level of a file: as before, or with comprehensions. -/
inductive XStmt where
  | plain (st : Stmt)
  | use (u : CUse) (e : CExpr)

/-- Up to this many values of a comprehension are described here. -/
def compLimit : Nat := 800

/-- The result of an expression: `none` if it is not described (more than `compLimit` values), otherwise a value, an error, or a loop over more elements than the bound. -/
abbrev CRes (W α : Type) := Option (W × Except Sig α)

/-- Sequencing. -/
def CRes.bind {W α β : Type} (r : CRes W α) (k : W → α → CRes W β) : CRes W β :=
  match r with
  | none => none
  | some (w, .ok a) => k w a
  | some (w, .error e) => some (w, .error e)

/-- The result of an operation. -/
def CRes.of {W α : Type} (r : PRes W α) : CRes W α :=
  match r with
  | (w, .ok a) => some (w, .ok a)
  | (w, .error e) => some (w, .error (.err e))

section
variable {W : Type} (F : FloatOps) (P : Prims W)

/-- The values of the variables, with one more variable. -/
def withVar (ρ : Name → Option Val) (x : Name) (v : Val) : Name → Option Val := fun y => if y = x then some v else ρ y

/-- Is the element taken? -/
def takes (ρ : Name → Option Val) : Option Expr → W → PRes W Bool
  | none, w => (w, .ok true)
  | some c, w => (eval F P ρ c w).bind fun w b => (w, .ok (!b.falsey))

/-- The values, from a cursor on, after `acc`; at most `fuel` elements. -/
def collect (ρ : Name → Option Val) (outs : Exprs) (x : Name) (coll : Val) (cond : Option Expr) : Nat → Nat → W → List Val → CRes W (List Val)
  | 0, _, w, _ => some (w, .error .timeout)
  | fuel + 1, i, w, acc =>
    if compLimit < acc.length then none
    else (CRes.of (P.next w coll i)).bind fun w r => match r with
      | none => some (w, .ok acc)
      | some (v, j) => (CRes.of (takes F P (withVar ρ x v) cond w)).bind fun w t =>
        if t then (CRes.of (evalAll F P (withVar ρ x v) outs w)).bind fun w vs => collect ρ outs x coll cond fuel j w (acc ++ vs)
        else collect ρ outs x coll cond fuel j w acc

/-- The value of an expression with comprehensions. -/
def evalC (fuel : Nat) (ρ : Name → Option Val) : CExpr → W → CRes W Val
  | .plain e, w => CRes.of (eval F P ρ e w)
  | .comp table outs x coll cond, w => (evalC fuel ρ coll w).bind fun w c => (collect F P ρ outs x c cond fuel 0 w []).bind fun w vs =>
    CRes.of (if table then P.newTable w (pairUp vs) else P.newList w vs)
  | .un o a, w => (evalC fuel ρ a w).bind fun w v => CRes.of (applyUn P w o v)
  | .bin o a r, w => (evalC fuel ρ a w).bind fun w a => CRes.of ((eval F P ρ r w).bind fun w b => applyBin F P w o a b)
  | .get a k, w => (evalC fuel ρ a w).bind fun w c => CRes.of ((eval F P ρ k w).bind fun w k => P.get w c k)

/-- Go on with the value. -/
def withC (s : PState W) (r : CRes W Val) (k : PState W → Val → Option (SRes W)) : Option (SRes W) :=
  match r with
  | none => none
  | some (w, .ok v) => k { s with world := w } v
  | some (w, .error e) => some ({ s with world := w }, e)

/-- What is done with the value. -/
def CUse.run : CUse → PState W → Val → SRes W
  | .let_ y, s, v | .const_ y, s, v => ({ s with env := (y, v) :: s.env }, .normal)
  | .assign y, s, v => (s.assign y v, .normal)
  | .echo, s, v => withVal s (P.tostr s.world v) fun s t => ({ s with out := s.out ++ echoBytes t }, .normal)
  | .drop, s, _ => (s, .normal)

/-- The effect of a statement. -/
def execX (fuel : Nat) : XStmt → PState W → Option (SRes W)
  | .plain st, s => some (exec F P fuel st s)
  | .use u e, s => withC s (evalC F P fuel s.look e s.world) fun s v => some (u.run P s v)

/-- Statements in sequence. -/
def execXs (fuel : Nat) : List XStmt → PState W → Option (SRes W)
  | [], s => some (s, .normal)
  | st :: ss, s => match execX F P fuel st s with
    | some (s, .normal) => execXs fuel ss s
    | r => r
end

/-! ## The limits of the implementation (as `Fits`) -/

/-- With `n` local variables, inside of `d` loops over collections. -/
def FitsC : CExpr → (n d : Nat) → Prop
  | .plain e, n, _ => FitsE e n
  | .comp _ outs _ coll cond, n, d => FitsC coll n d ∧ n + 1 ≤ maxLocals ∧ d < loopLimit ∧ (∀ c, cond = some c → FitsE c (n + 2 + compLimit)) ∧
      WfEs outs ∧ n + 2 + compLimit + needEs outs ≤ stackLimit
  | .un _ a, n, d => FitsC a n d
  | .bin _ a r, n, d => FitsC a n d ∧ FitsE r (n + 1)
  | .get a k, n, d => FitsC a n d ∧ FitsE k (n + 1)

/-- The variables declared. -/
def XStmt.declares : XStmt → Nat
  | .plain st => st.declares
  | .use (.let_ _) _ | .use (.const_ _) _ => 1
  | .use _ _ => 0

/-- A statement at the top level, with `n` local variables.  (An expression without comprehensions as a statement is `.plain`.) -/
def FitsX : XStmt → Nat → Prop
  | .plain st, n => Fits st n 0 0
  | .use .drop (.plain _), _ => False
  | .use u e, n => FitsC e n 0 ∧ n + (XStmt.use u e).declares ≤ maxLocals

/-- Statements in sequence. -/
def FitsXs : List XStmt → Nat → Prop
  | [], _ => True
  | st :: ss, n => FitsX st n ∧ FitsXs ss (n + st.declares)

end Yasl
