import Verif.Proofs.Static
import Verif.Proofs.StaticRules
set_option autoImplicit false
/-!
# C112: which programs the compiler refuses
-/
namespace Yasl

/-- **C112, the code.**  A program is compiled exactly when it follows the rules of the code.  (`shaped`: the parser gives no other trees.) -/
theorem C112_exact (globals : List Name) (prog : FStmts) (lines : List Byte) (hg : globals.length ≤ 2 ^ 63) (hs : prog.shaped = true) :
    (compileF globals prog lines).isSome = goodFile .code globals prog := by
  have h := compileFAll_step prog (FState.initial globals) [] _ hs (initial_live globals hg)
  unfold compileF goodFile
  dsimp only
  rw [← h]
  split
  · rename_i hh; rw [hh]; rfl
  · rename_i hh; rw [Bool.not_eq_true] at hh; rw [hh]; rfl

/-- **C112.**  A program which follows the rules of the language is compiled, unless it has a loop whose condition is written `false` or `undef`. -/
theorem C112_accepted_partial (globals : List Name) (prog : FStmts) (lines : List Byte) (hg : globals.length ≤ 2 ^ 63) (hs : prog.shaped = true)
    (hn : prog.noNever = true) (h : goodFile .meant globals prog = true) : ∃ code, compileF globals prog lines = some code := by
  have h1 := C112_exact globals prog lines hg hs
  have h2 : goodFile .code globals prog = true := ssGood_code prog _ false (fun hh => hh) hn h
  rw [h2] at h1
  exact Option.isSome_iff_exists.mp h1

/-- **C112.**  A program which breaks a rule of the language is refused, unless it has a function in a loop or a function with two
parameters of the same name. -/
theorem C112_refused_partial (globals : List Name) (prog : FStmts) (lines : List Byte) (hg : globals.length ≤ 2 ^ 63) (hs : prog.shaped = true)
    (hn : prog.calm false = true) (h : goodFile .meant globals prog = false) : compileF globals prog lines = none := by
  have h1 := C112_exact globals prog lines hg hs
  rcases hc : goodFile .code globals prog with _ | _
  · rw [hc] at h1
    exact Option.not_isSome_iff_eq_none.mp (by simp [h1])
  · have h2 : goodFile .meant globals prog = true := ssGood_meant prog _ false (fun hh => hh) hn hc
    rw [h] at h2; cases h2

/-- **C112.**  In such a program, what is never run is checked like all the rest: a name used in a branch that is never taken has to be visible. -/
theorem C112_dead_code (globals : List Name) (x : Name) (lines : List Byte) (hg : globals.length ≤ 2 ^ 63) (hx : x ∉ globals) :
    compileF globals (.cons (.ifThen (.lit (.bool false)) (.block (.cons (.echo (.var x)) .nil))) .nil) lines = none := by
  refine C112_refused_partial globals _ lines hg rfl rfl ?_
  simp [goodFile, FStmts.good, FStmt.good, FExpr.good, Seen.find, Seen.inBlock, hx]

/-- **C112, where it fails.**  `while false { break }` follows the rules and is refused. -/
theorem C112_counterexample_never (lines : List Byte) :
    let prog := FStmts.cons (.while_ (.lit (.bool false)) (.block (.cons .brk .nil))) .nil
    goodFile .meant [] prog = true ∧ compileF [] prog lines = none := by
  refine ⟨by decide +kernel, ?_⟩
  have h := C112_exact [] (FStmts.cons (.while_ (.lit (.bool false)) (.block (.cons .brk .nil))) .nil) lines (by simp) (by decide +kernel)
  have h2 : goodFile .code [] (FStmts.cons (.while_ (.lit (.bool false)) (.block (.cons .brk .nil))) .nil) = false := by decide +kernel
  rw [h2] at h
  exact Option.not_isSome_iff_eq_none.mp (by simp [h])

/-- **C112, where it fails.**  `while true { let f = fn() { break } }` breaks the rules, `break` stands in no loop of the function, and is compiled. -/
theorem C112_counterexample_function (lines : List Byte) :
    let prog := FStmts.cons (.while_ (.lit (.bool true)) (.block (.cons (.let_ [102] (.fn 0 [] (.cons .brk .nil))) .nil))) .nil
    goodFile .meant [] prog = false ∧ ∃ code, compileF [] prog lines = some code := by
  refine ⟨by decide +kernel, ?_⟩
  have h := C112_exact [] (FStmts.cons (.while_ (.lit (.bool true)) (.block (.cons (.let_ [102] (.fn 0 [] (.cons .brk .nil))) .nil))) .nil) lines
    (by simp) (by decide +kernel)
  have h2 : goodFile .code [] (FStmts.cons (.while_ (.lit (.bool true)) (.block (.cons (.let_ [102] (.fn 0 [] (.cons .brk .nil))) .nil))) .nil) = true := by
    decide +kernel
  rw [h2] at h
  exact Option.isSome_iff_exists.mp h

/-- **C112, where it fails.**  `let f = fn(a, a) { }` declares a name twice and is compiled. -/
theorem C112_counterexample_params (lines : List Byte) :
    let prog := FStmts.cons (.let_ [102] (.fn 0 [[97], [97]] .nil)) .nil
    goodFile .meant [] prog = false ∧ ∃ code, compileF [] prog lines = some code := by
  refine ⟨by decide +kernel, ?_⟩
  have h := C112_exact [] (FStmts.cons (.let_ [102] (.fn 0 [[97], [97]] .nil)) .nil) lines (by simp) (by decide +kernel)
  have h2 : goodFile .code [] (FStmts.cons (.let_ [102] (.fn 0 [[97], [97]] .nil)) .nil) = true := by decide +kernel
  rw [h2] at h
  exact Option.isSome_iff_exists.mp h

/-! The hypotheses are met: `fn f(n) { if n { return print } for x <- n { let y = x; if y { break } y = f(y) } return n }` with the global `print`. -/

/-- The program above. -/
def staticDemo : FStmts :=
  .cons (.fnDecl [102] 0 [[110]]
    (.cons (.ifThen (.var [110]) (.block (.cons (.ret (.var [112])) .nil)))
    (.cons (.forIter [120] (.var [110]) (.block
      (.cons (.let_ [121] (.var [120]))
      (.cons (.ifThen (.var [121]) (.block (.cons .brk .nil)))
      (.cons (.assign [121] (.call (.var [102]) (.cons (.var [121]) .nil))) .nil)))))
    (.cons (.ret (.var [110])) .nil)))) .nil

example : staticDemo.shaped = true ∧ staticDemo.noNever = true ∧ staticDemo.calm false = true ∧ goodFile .meant [[112]] staticDemo = true ∧
    goodFile .meant [] staticDemo = false := by decide +kernel

example (lines : List Byte) : (∃ code, compileF [[112]] staticDemo lines = some code) ∧ compileF [] staticDemo lines = none :=
  ⟨C112_accepted_partial _ _ _ (by simp) (by decide +kernel) (by decide +kernel) (by decide +kernel),
   C112_refused_partial _ _ _ (by simp) (by decide +kernel) (by decide +kernel) (by decide +kernel)⟩

/-- Assigning to a constant, from a function: refused. -/
example (lines : List Byte) : compileF [] (.cons (.const_ [99] (.lit (.int 1))) (.cons (.fnDecl [102] 0 [] (.cons (.assign [99] (.lit (.int 2))) .nil)) .nil)) lines = none :=
  C112_refused_partial _ _ _ (by simp) (by decide +kernel) (by decide +kernel) (by decide +kernel)

end Yasl
