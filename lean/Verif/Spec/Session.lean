import Verif.Spec.Lang
import Verif.Spec.Fits
set_option autoImplicit false
/-!
# Several texts, one after the other

A host can give a state one text after the other (`YASL_resetstate_bb`), and at the prompt (`yasl>`, `yasl -e`) every line is such a text.  At the prompt variables
declared outside of blocks are global, and if the last statement is an expression its value is printed.
-/
namespace Yasl

/-- How a text is run: `YASL_execute`, or `YASL_execute_REPL`. -/
inductive Entry where
  | file | prompt
deriving DecidableEq

section
variable {W : Type} (F : FloatOps) (P : Prims W)

/-- `let x, y = …` outside of blocks at the prompt: global variables. -/
def bindGlobals : List Name → List Val → PState W → PState W
  | x :: xs, v :: vs, s => bindGlobals xs vs { s with globals := fun y => if y = x then some v else s.globals y }
  | _, _, s => s

/-- The names, if only variables and constants are declared. -/
def declared : List LVal → Option (List Name)
  | [] => some []
  | .let_ x :: ls | .const_ x :: ls => (declared ls).map (x :: ·)
  | _ => none

/-- A statement outside of blocks, at the prompt. -/
def execPrompt (fuel : Nat) (st : Stmt) (s : PState W) : SRes W :=
  match st with
  | .decl ls rs => match declared ls with
    | some xs => withVal s (evalAll F P s.look rs s.world) fun s vs => (bindGlobals xs vs s, .normal)
    | none => exec F P fuel st s
  | st => exec F P fuel st s

/-- The statements of a line; the value of the last one is printed. -/
def execLine (fuel : Nat) : Stmts → PState W → SRes W
  | .nil, s => (s, .normal)
  | .cons (.expr e) .nil, s => exec F P fuel (.echo e) s
  | .cons st ss, s => (execPrompt F P fuel st s).andThen (execLine fuel ss)

/-- A text. -/
def execEntry (fuel : Nat) : Entry → Stmts → PState W → SRes W
  | .file, ss, s => execAll F P fuel ss s
  | .prompt, ss, s => execLine F P fuel ss s

/-- Texts one after the other, up to the first that does not end. -/
def execEntries (fuel : Nat) : List (Entry × Stmts) → PState W → SRes W
  | [], s => (s, .normal)
  | (h, ss) :: r, s => (execEntry F P fuel h ss s).andThen (execEntries fuel r)

end

/-- Does a statement at the prompt respect the limits of the implementation? -/
def FitsPrompt (st : Stmt) : Prop :=
  match st with
  | .decl ls rs => match declared ls with
    | some xs => xs.length = rs.length ∧ WfEs rs ∧ needEs rs ≤ stackLimit
    | none => Fits st 0 0 0 ∧ st.declares = 0
  | st => Fits st 0 0 0 ∧ st.declares = 0

/-- The statements of a line. -/
def FitsLine : Stmts → Prop
  | .nil => True
  | .cons st ss => FitsPrompt st ∧ FitsLine ss

/-- Statements that respect the limits and declare nothing outside of blocks. -/
def Quiet : Stmts → Prop
  | .nil => True
  | .cons st ss => (Fits st 0 0 0 ∧ st.declares = 0) ∧ Quiet ss

/-- A text respects the limits. -/
def FitsEntry : Entry → Stmts → Prop
  | .file, ss => FitsAll ss 0 0 0
  | .prompt, ss => FitsLine ss

/-- `x = e` or `…, x, … = …`. -/
def Stmt.assigns (x : Name) : Stmt → Prop
  | .assign y _ => y = x
  | .decl ls _ => LVal.assign x ∈ ls
  | _ => False

/-- One of the statements, outside of blocks, assigns to `x`. -/
def Stmts.assign (x : Name) : Stmts → Prop
  | .nil => False
  | .cons st ss => st.assigns x ∨ ss.assign x

end Yasl
