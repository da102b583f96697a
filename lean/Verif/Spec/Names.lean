import Verif.Model.Ast
set_option autoImplicit false
/-!
# What names mean

Independent of the compiler's tables.  A function (or the file) is a list of blocks, a block a list of variables, always the innermost or newest
first.
-/
namespace Yasl

/-- A declared variable. -/
structure SVar where
  name : Name
  const_ : Bool

/-- The visible variables: for each function around the place (the innermost first, the file last) its blocks. -/
abbrev Visible := List (List (List SVar))

/-- The newest variable of a name in a list, with the number of older ones. -/
def findVar (x : Name) : List SVar → Option (SVar × Nat)
  | [] => none
  | v :: vs => if v.name = x then some (v, vs.length) else findVar x vs

/-- The meaning of a name: the newest variable of that name in the innermost function that has one; with the number of functions around the
variable and the number of older variables of its function (its slot). -/
def Visible.lookup (x : Name) : Visible → Option (SVar × Nat × Nat)
  | [] => none
  | f :: fs => match findVar x f.flatten with
    | some (v, slot) => some (v, fs.length, slot)
    | none => Visible.lookup x fs

/-- A declaration in the innermost block. -/
def Visible.declare (v : SVar) : Visible → Visible
  | (b :: bs) :: fs => ((v :: b) :: bs) :: fs
  | vis => vis

/-- A block of the innermost function is entered. -/
def Visible.enterBlock : Visible → Visible
  | f :: fs => ([] :: f) :: fs
  | [] => []

/-- The innermost block is left. -/
def Visible.exitBlock : Visible → Visible
  | f :: fs => f.tail :: fs
  | [] => []

/-- What a program does with names, in the order of the text: blocks, functions, declarations, parameters, uses and assignments. -/
inductive NOp where
  | enterScope | exitScope | enterFn | exitFn
  | declare (x : Name) (const_ : Bool)
  | param (x : Name) (const_ : Bool)
  | load (x : Name)
  | store (x : Name)
deriving DecidableEq

/-- What is known about names at a place of the text: the visible variables, and the globals with their being constant.  At the start there
is only the file, without a block (a program of a file is in a block; in an interactive session it is not, and declares globals). -/
structure Names where
  vis : Visible
  globals : Name → Option Bool

/-- At the start. -/
def Names.initial : Names := { vis := [[]], globals := fun _ => none }

/-- A declaration is in the innermost block; outside of all blocks it is a global. -/
def Names.declare (s : Names) (x : Name) (c : Bool) : Names :=
  match s.vis with
  | [] :: _ => { s with globals := fun y => if y = x then some c else s.globals y }
  | _ => { s with vis := s.vis.declare ⟨x, c⟩ }

/-- The effect on the meaning of names. -/
def Names.op (s : Names) : NOp → Names
  | .enterScope => { s with vis := s.vis.enterBlock }
  | .exitScope => { s with vis := s.vis.exitBlock }
  | .enterFn => { s with vis := [[]] :: s.vis }
  | .exitFn => { s with vis := s.vis.tail }
  | .declare x c => s.declare x c
  | .param x c => s.declare x c
  | .load _ => s
  | .store _ => s

/-- The name is not yet declared in the innermost block. -/
def Names.fresh (s : Names) (x : Name) : Prop :=
  match s.vis with
  | (b :: _) :: _ => ∀ v ∈ b, v.name ≠ x
  | _ => s.globals x = none

/-- Text is well nested: a block that is left was entered, in the same function; a function that is left was entered.  No block has two
variables of the same name. -/
def Names.allows (s : Names) : NOp → Prop
  | .exitScope => match s.vis with
    | [f] => f ≠ []
    | f :: _ => 2 ≤ f.length
    | [] => False
  | .exitFn => 2 ≤ s.vis.length
  | .declare x _ => s.fresh x
  | .param x _ => s.fresh x
  | _ => True

/-- All the operations are allowed, one after the other. -/
def Names.allowsAll : Names → List NOp → Prop
  | _, [] => True
  | s, op :: ops => s.allows op ∧ (s.op op).allowsAll ops

end Yasl
