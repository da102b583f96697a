import Verif.Spec.Pattern
set_option autoImplicit false
/-!
# `match` statements: which clause is taken
-/
namespace Yasl

/-- A clause `pattern if guard { body }`; `binds` is the number of variables of the pattern.  The guard is a function of the variables that are visible. -/
structure Clause where
  pat : Pat
  binds : Nat
  guard : Option (List Val → Val)

/-- The values of the first `n` variables. -/
def visible (n : Nat) (slots : Nat → Val) : List Val := (List.range n).map slots

/-- The guard, if there is one, is true for these variables. -/
def Clause.admits (c : Clause) (vars : Nat) (slots : Nat → Val) : Bool :=
  match c.guard with
  | none => true
  | some g => !(g (visible (vars + c.binds) slots)).falsey

/-- The first clause whose pattern matches and whose guard is true: its number (counted from `i`) and the variables its body sees.  `vars` variables exist around the `match`. -/
def selectClause (H : Heap) (vars : Nat) (v : Val) (slots : Nat → Val) : Nat → List Clause → Option (Nat × List Val)
  | _, [] => none
  | i, c :: cs => match c.pat.bindings H v with
    | some l => if c.admits vars (bindAllIn slots l) then some (i, visible (vars + c.binds) (bindAllIn slots l)) else selectClause H vars v slots (i + 1) cs
    | none => selectClause H vars v slots (i + 1) cs

end Yasl
