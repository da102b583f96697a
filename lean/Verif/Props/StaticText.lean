import Verif.Proofs.Shape
import Verif.Proofs.FRed
import Verif.Props.Static
import Verif.Props.FEndToEnd
set_option autoImplicit false
/-!
# C112 for texts: nothing of a program that breaks a rule is run
-/
namespace Yasl

/-- The rules of the language do not depend on constant folding. -/
def FRedStatic : (c : FCat) → c.T → c.T → Prop
  | .expr, e, e' => FExpr.good .meant e = FExpr.good .meant e' ∧ FExpr.shaped e = FExpr.shaped e' ∧ FExpr.calm e = FExpr.calm e'
  | .exprs, e, e' => FExprs.good .meant e = FExprs.good .meant e' ∧ FExprs.shaped e = FExprs.shaped e' ∧ FExprs.calm e = FExprs.calm e'
  | .stmt, e, e' => FStmt.good .meant e = FStmt.good .meant e' ∧ FStmt.shaped e = FStmt.shaped e' ∧ FStmt.calm e = FStmt.calm e' ∧
      FStmt.decls e = FStmt.decls e' ∧ ∀ v, FStmt.after v e = FStmt.after v e'
  | .stmts, e, e' => FStmts.good .meant e = FStmts.good .meant e' ∧ FStmts.shaped e = FStmts.shaped e' ∧ FStmts.calm e = FStmts.calm e'

theorem whileBody_meant (v : Seen) (c : FExpr) : v.whileBody .meant c = v.loop := by simp [Seen.whileBody]

theorem fred_static {F : FloatOps} {c : FCat} {x y : c.T} (h : FRed F c x y) : FRedStatic c x y := by
  induction h with
  | @trans c x y z _ _ i1 i2 => cases c <;> simp_all [FRedStatic]
  | lit | var | nil | snil => exact ⟨rfl, rfl, rfl⟩
  | brk | cont => exact ⟨rfl, rfl, rfl, rfl, fun _ => rfl⟩
  | foldBin =>
    refine ⟨funext fun v => ?_, ?_, funext fun l => ?_⟩
    · simp [FExpr.good]
    · simp [FExpr.shaped]
    · simp [FExpr.calm]
  | foldUn =>
    refine ⟨funext fun v => ?_, ?_, funext fun l => ?_⟩
    · simp [FExpr.good]
    · simp [FExpr.shaped]
    · simp [FExpr.calm]
  | _ =>
    simp_all only [FRedStatic]
    refine ⟨funext fun v => ?_, ?_, ?_⟩ <;>
    simp_all [FExpr.good, FExprs.good, FStmt.good, FStmts.good, FExpr.shaped, FExprs.shaped, FStmt.shaped, FStmts.shaped,
      FStmt.decls, FStmt.after, whileBody_meant, funext_iff, FExpr.calm, FExprs.calm, FStmt.calm, FStmts.calm]

/-- **C112, from the text.**  Nothing of a program is run that breaks a rule, wherever and however deep, unless it has a function in a loop or a function with two
parameters of the same name. -/
theorem C112_text_partial {W : Type} (flt : List Byte → BitVec 64) (F : FloatOps) (P : Prims W) (Q : W → Val → List Val → PRes W (List Val)) (globals : List Name)
    (lines src : List Byte) (ts : List TextItem) (ss : List Node) (prog : FStmts) (ht : TextItems src ts) (hg : Gram flt some .stmts ts ss)
    (hp : fprogOf ss = some prog) (hl : globals.length ≤ 2 ^ 63) (hc : prog.calm false = true) (h : goodFile .meant globals prog = false)
    (G : Name → Option Val) (w : W) (nextFp : Int) (k : Nat) :
    (∀ m e, executeF ⟨flt, foldNode F⟩ F P Q globals lines src G w nextFp k ≠ some (.stopped m e)) ∧
    ∀ m, executeF ⟨flt, foldNode F⟩ F P Q globals lines src G w nextFp k ≠ some (.running m) := by
  have hb : ∀ image, buildF ⟨flt, foldNode F⟩ globals lines src ≠ some (.image image) := by
    intro image hb
    obtain ⟨prog', h1, h2, -⟩ := buildF_folds ht hg hp hb
    obtain ⟨g, s, c⟩ := fred_static h2
    have h3 := C112_refused_partial globals prog' lines hl (by rw [← s]; exact gram_shaped hg hp) (by rw [← c]; exact hc)
      (by rw [← h]; unfold goodFile; rw [g])
    rw [h3] at h1; cases h1
  rcases hr : buildF ⟨flt, foldNode F⟩ globals lines src with _ | (_ | _ | _ | _ | _)
  · constructor <;> intros <;> rw [executeF, hr] <;> simp
  · exact absurd hr (hb _)
  all_goals constructor <;> intros <;> rw [executeF, hr] <;> simp

/-! The hypotheses are met: `echo 1` and then, in a branch that is never taken, a name that is not declared.  Nothing is printed. -/

/-- The text. -/
def deadText : List Byte := word "echo 1\nif false { echo x; }\n"

theorem deadText_tokens : (tokensOf deadText).1 = [.op .echo, .word .int (word "1"), .sep .semi true, .op .if_, .word .bool (word "false"), .op .lbrc, .op .echo,
    .word .id (word "x"), .sep .semi false, .op .rbrc, .sep .semi true] ∧ (tokensOf deadText).2.type = .eof := by decide +kernel

/-- The tree. -/
def deadTree : List Node := [.echo (.int 1), .if_ (.bool false) (.block [.echo (.var (word "x"))]) none]

theorem deadText_gram (flt : List Byte → BitVec 64) : ∃ ts, TextItems deadText ts ∧ Gram flt some .stmts ts deadTree := by
  suffices h : Gram flt some .stmts (tokensOf deadText).1 deadTree from
    ⟨_, (textItems_plain (by decide +kernel) (FirstPlain.gram h)).2 ⟨rfl, deadText_tokens.2⟩, h⟩
  rw [deadText_tokens.1]
  have i1 : getInt (word "1") = 1#64 := by decide +kernel
  have hb : (word "false" == word "true") = false := by decide +kernel
  have e1 : Gram flt some .expr [.word .int (word "1")] (.int 1) := by
    have h : Gram flt some .unary [.word .int (word "1")] (.int (getInt (word "1"))) := Gram.int.atomTo
    rw [i1] at h
    exact .expr (.ternOne (h.unaryTo 0 (by omega))) rfl
  have e2 : Gram flt some .expr [.word .bool (word "false")] (.bool false) := by
    have h : Gram flt some .unary [.word .bool (word "false")] (.bool (word "false" == word "true")) := Gram.bool.atomTo
    rw [hb] at h
    exact .expr (.ternOne (h.unaryTo 0 (by omega))) rfl
  have e3 : Gram flt some .expr [.word .id (word "x")] (.var (word "x")) := .expr (.ternOne (Gram.var.atomTo.unaryTo 0 (by omega))) rfl
  exact .stmts (nl := true) (.echo e1) (.stmts (nl := true) (.if_ (.ifEnd e2 (.body (.stmts (nl := false) (.echo e3) .stmtsEnd)))) .stmtsEnd)

example (k : Nat) (m : FVM Unit) (e : RtErr) :
    executeF ⟨fun _ => 0, foldNode demoFloat⟩ demoFloat demoPrims demoQ [] [] deadText (fun _ => none) () 0 k ≠ some (.stopped m e) := by
  obtain ⟨ts, h1, h2⟩ := deadText_gram (fun _ => 0)
  exact (C112_text_partial _ _ _ _ _ _ _ _ _ (.cons (.echo (.lit (.int 1))) (.cons (.ifThen (.lit (.bool false))
    (.block (.cons (.echo (.var (word "x"))) .nil))) .nil)) h1 h2 rfl (by simp) (by decide +kernel) (by decide +kernel) _ _ _ _).1 _ _

end Yasl
