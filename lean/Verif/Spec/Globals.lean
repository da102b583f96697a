import Verif.Model.Value
set_option autoImplicit false
/-!
# Specification of global variables

Independent of the implementation: a global has a declaration (with a "constant" mark) and perhaps a value.
-/
namespace Yasl

/-- The operations on globals: from C, `push` (any `YASL_push…`), `decl` (`YASL_declglobal`), `set` (`YASL_setglobal`), `load`
(`YASL_loadglobal`); from compiled code, `makeConst` (a `const` declaration at the top level of the REPL), `gstore` and `gload`
(assignment to and use of a global). -/
inductive GOp where
  | push (v : Val)
  | decl (n : List Byte)
  | makeConst (n : List Byte)
  | set (n : List Byte)
  | load (n : List Byte)
  | gstore (n : List Byte)
  | gload (n : List Byte)
deriving DecidableEq

/-- What the user knows: which globals are declared (`some true`: constant), their values, the values on the stack (top first), and the
results of the calls so far (`false` is an error; newest first). -/
structure GSpec where
  decls : List Byte → Option Bool
  vals : List Byte → Option Val
  stack : List Val
  log : List Bool

/-- Nothing declared. -/
def GSpec.empty : GSpec := ⟨fun _ => none, fun _ => none, [], []⟩

/-- The meaning of an operation.  A set needs a declared, not constant, global; a load needs a global with a value. -/
def GSpec.step (g : GSpec) : GOp → GSpec
  | .push v => { g with stack := v :: g.stack }
  | .decl n => { g with decls := fun x => if x = n then some false else g.decls x, log := true :: g.log }
  | .makeConst n => { g with decls := fun x => if x = n then some true else g.decls x }
  | .set n =>
    if g.decls n = some false then
      { g with vals := fun x => if x = n then g.stack.head? else g.vals x, stack := g.stack.tail, log := true :: g.log }
    else { g with log := false :: g.log }
  | .load n => match g.vals n with
    | some v => { g with stack := v :: g.stack, log := true :: g.log }
    | none => { g with log := false :: g.log }
  | .gstore n => { g with vals := fun x => if x = n then g.stack.head? else g.vals x, stack := g.stack.tail }
  | .gload n => { g with stack := (g.vals n).getD .end_ :: g.stack }

/-- A history of operations. -/
def GSpec.run (g : GSpec) (ops : List GOp) : GSpec := ops.foldl GSpec.step g

/-- Histories in which values come from somewhere: sets have a value on the stack, no value is `undef`, a global is made constant once after
its declaration, and compiled code only uses globals that have a value. -/
def GSpec.Proper (g : GSpec) : List GOp → Prop
  | [] => True
  | op :: ops =>
    (match op with
      | .push v => v ≠ .undef ∧ v ≠ .end_
      | .decl _ | .load _ => True
      | .makeConst n => g.decls n = some false
      | .set _ | .gstore _ => g.stack ≠ []
      | .gload n => (g.vals n).isSome = true) ∧ (g.step op).Proper ops

end Yasl
