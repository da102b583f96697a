import Verif.Spec.FLang
set_option autoImplicit false
/-! # What a file with an `export` means: the value of the expression after the statements before it -/
namespace Yasl

variable {W : Type} (F : FloatOps) (P : Prims W) (Q : W → Val → List Val → PRes W (List Val)) (label : Nat → Option Nat)

/-- The statements before the `export`, then the value of its expression; nothing of what follows is executed. -/
def fmodule (n : Nat) (prog : FStmts) (e : FExpr) (s : Sh W) : FRes W Val :=
  (fprog F P Q label n prog s).bind fun s _ => feval F P Q label (callF F P Q label n) s.statics.length [] e false s

end Yasl
