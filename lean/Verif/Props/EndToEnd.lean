import Verif.Model.Execute
import Verif.Props.Parser
import Verif.Props.Compile
import Verif.Proofs.GramFold
import Verif.Proofs.GramFwd
import Verif.Proofs.Tree
set_option autoImplicit false
/-!
# C93 — a program runs as it is written

`execute` is all of `YASL_execute`: the text is split into tokens and parsed, constants are folded, code is generated, loaded and run.  What the text means is given
by the grammar (`Verif.Spec.Grammar`, without any folding: `Gram flt some`) and by `execAll` (`Verif.Spec.Semantics`).  `stmtsOf` only renames: it gives the tree in
the type on which `execAll` is defined (`C93_same_tree`, with `Verif.Spec.Tree`).
-/
namespace Yasl

theorem build_image {cfg : ParseCfg} {globals : List Name} {lines src image : List Byte} (h : build cfg globals lines src = some (.image image)) :
    ∃ ss prog, parseSource cfg src = some (.accepted ss) ∧ stmtsOf ss = some prog ∧ compile globals prog lines = some image := by
  rw [build] at h
  repeat' split at h
  all_goals cases h
  exact ⟨_, _, ‹_›, ‹_›, ‹_›⟩

/-- C93: suppose the text `src` is, by the grammar, the program `prog`, and `YASL_compile` makes bytecode of it.  Then `YASL_execute` does what `prog` means:
it ends with the same output, globals and world if `prog` ends, with the same error if it ends in an error, and does not end if `prog` does not end.
The hypotheses say that constant folding is harmless (C27), that the stack is large enough and `break` is not used in the scope of variables (`FitsAll`, C30, C31). -/
theorem C93_runs_the_text {W : Type} (flt : List Byte → BitVec 64) (F : FloatOps) (P : Prims W) (hP : P.NoEnd) (globals : List Name) (lines src image : List Byte)
    (ts : List TextItem) (ss : List Node) (prog : Stmts) (ht : TextItems src ts) (hg : Gram flt some .stmts ts ss) (hp : stmtsOf ss = some prog)
    (hb : build ⟨flt, foldNode F⟩ globals lines src = some (.image image)) (hlen : image.length < 2 ^ 63) (hs : SafeStmts F prog) (hF : FitsAll prog 0 0 0)
    (G : Name → Option Val) (hG : ∀ x ∈ globals, G x ≠ none) (hE : ∀ x v, G x = some v → v ≠ .end_) (w : W) (fuel : Nat) :
    match execAll F P fuel prog ⟨[], G, w, []⟩ with
    | (t, .normal) => ∃ k m', execute ⟨flt, foldNode F⟩ F P globals lines src G w k = some (.stopped m' .halt) ∧ m'.out = t.out ∧ m'.globals = t.globals ∧
        m'.world = t.world ∧ m'.stack = t.env.map Prod.snd
    | (t, .err e) => ∃ k m', execute ⟨flt, foldNode F⟩ F P globals lines src G w k = some (.stopped m' e) ∧ m'.out = t.out ∧ m'.globals = t.globals ∧
        m'.world = t.world
    | (_, .timeout) => ∃ k m', fuel ≤ k ∧ execute ⟨flt, foldNode F⟩ F P globals lines src G w k = some (.running m')
    | _ => False := by
  obtain ⟨ss', prog', h1, h2, h3⟩ := build_image hb
  obtain ⟨ts', h4, h5⟩ := (C86_grammar ⟨flt, foldNode F⟩ src ss').1 h1
  obtain ⟨ss2, prog2, g1, g2, g3⟩ := gram_back h5 prog' h2
  have hss : ss2 = ss := C87_unambiguous flt some src ts' ts ss2 ss h4 ht g1 hg
  rw [hss, hp] at g2
  cases g2
  obtain ⟨m, K, hl, hr⟩ := C29_program F P hP globals prog' lines image h3 hlen (hF.fold g3) G hG hE w
  have hr := hr fuel
  rw [execAll_fold F P fuel _ _ hs g3] at hr
  have hx : ∀ k, execute ⟨flt, foldNode F⟩ F P globals lines src G w k = match VM.run F P image K k m with
      | .stop m e => some (.stopped m e)
      | .next m => some (.running m) := by
    intro k; rw [execute, hb]; dsimp only; rw [hl]; rfl
  split
  · rename_i heq
    rw [heq] at hr; dsimp only at hr
    obtain ⟨k, m', e1, e2⟩ := hr
    exact ⟨k, m', by rw [hx, e1], e2⟩
  · rename_i heq
    rw [heq] at hr; dsimp only at hr
    obtain ⟨k, m', e1, e2⟩ := hr
    exact ⟨k, m', by rw [hx, e1], e2⟩
  · rename_i heq
    rw [heq] at hr; dsimp only at hr
    obtain ⟨k, m', e1, e2⟩ := hr
    exact ⟨k, m', e1, by rw [hx, e2]⟩
  · rename_i heq1 heq2 heq3
    split at hr
    · exact heq1 _ ‹_›
    · exact heq2 _ _ ‹_›
    · exact heq3 _ ‹_›
    · exact hr

/-- C93: bytecode is made of the text of every program of the fragment whose constants can be folded without undefined behaviour and whose names are in order. -/
theorem C93_builds (flt : List Byte → BitVec 64) (F : FloatOps) (globals : List Name) (lines src image : List Byte) (ts : List TextItem) (ss : List Node)
    (prog prog' : Stmts) (ht : TextItems src ts) (hg : Gram flt some .stmts ts ss) (hp : stmtsOf ss = some prog) (hf : foldStmts F prog = some prog')
    (hc : compile globals prog' lines = some image) : build ⟨flt, foldNode F⟩ globals lines src = some (.image image) := by
  obtain ⟨ss', h1, h2⟩ := gram_fwd hg prog prog' hp hf
  have h3 := (C86_grammar ⟨flt, foldNode F⟩ src ss').2 ⟨ts, ht, h1⟩
  rw [build, h3]; dsimp only; rw [h2]; dsimp only; rw [hc]

/-- C93: if the parser or the compiler reports an error, no instruction is run and the error is what `YASL_execute` returns; and of a text that is no program by the
grammar nothing is ever run. -/
theorem C93_refused {W : Type} (cfg : ParseCfg) (F : FloatOps) (P : Prims W) (globals : List Name) (lines src : List Byte) (G : Name → Option Val) (w : W) (n : Nat) :
    (parseSource cfg src = some .rejected → execute cfg F P globals lines src G w n = some .refused) ∧
    (∀ ts ss prog, TextItems src ts → Gram cfg.strtod cfg.fold .stmts ts ss → stmtsOf ss = some prog → compile globals prog lines = none →
      execute cfg F P globals lines src G w n = some .refused) ∧
    ((¬ ∃ ts ss, TextItems src ts ∧ Gram cfg.strtod cfg.fold .stmts ts ss) →
      ∀ r, execute cfg F P globals lines src G w n = some r → (∀ m e, r ≠ .stopped m e) ∧ ∀ m, r ≠ .running m) := by
  refine ⟨fun h => by rw [execute, build, h], fun ts ss prog ht hg hp hc => ?_, fun h r hr => ?_⟩
  · have h3 := (C86_grammar cfg src ss).2 ⟨ts, ht, hg⟩
    rw [execute, build, h3]; dsimp only; rw [hp]; dsimp only; rw [hc]
  · rw [execute] at hr
    cases hb : build cfg globals lines src with
    | none => rw [hb] at hr; cases hr
    | some b =>
      cases b with
      | image b =>
        obtain ⟨ss, -, h1, -⟩ := build_image hb
        obtain ⟨ts, h2⟩ := (C86_grammar cfg src ss).1 h1
        exact absurd ⟨ts, ss, h2⟩ h
      | _ => rw [hb] at hr; cases hr; exact ⟨nofun, nofun⟩

/-- the text `x@` is no program and is not run -/
example {W : Type} (F : FloatOps) (P : Prims W) (G : Name → Option Val) (w : W) (n : Nat) (r : Executed W)
    (hr : execute ⟨fun _ => 0, foldNode F⟩ F P [] [] [ch 'x', 0x40, 10] G w n = some r) : ∀ m, r ≠ .running m := by
  refine ((C93_refused _ F P [] [] _ G w n).2.2 ?_ r hr).2
  rintro ⟨ts, ss, h1, h2⟩
  exact absurd ((textItems_plain (by decide +kernel) (FirstPlain.gram h2)).1 h1).2 (by decide +kernel)

/-- a program with constants to be folded -/
def runText : List Byte := word "let x = 2 * 3 + 1\nwhile x > 2 { x = x - 1; }\necho x\n"

theorem runText_tokens : (tokensOf runText).1 = [.op .let_, .word .id (word "x"), .op .eq, .word .int (word "2"), .op .star, .word .int (word "3"), .op .plus,
      .word .int (word "1"), .sep .semi true, .op .while_, .word .id (word "x"), .op .gt, .word .int (word "2"), .op .lbrc, .word .id (word "x"), .op .eq,
      .word .id (word "x"), .op .minus, .word .int (word "1"), .sep .semi false, .op .rbrc, .sep .semi true, .op .echo, .word .id (word "x"), .sep .semi true] ∧
    (tokensOf runText).2.type = .eof := by decide +kernel

def runTree : List Node :=
  [.decl [.let_ (word "x") none] [.bin .plus (.bin .star (.int 2) (.int 3)) (.int 1)],
   .while_ (.bin .gt (.var (word "x")) (.int 2)) (.block [.assign (word "x") (some (.bin .minus (.var (word "x")) (.int 1)))]) none, .echo (.var (word "x"))]

def runProg : Stmts := .of [.decl [.let_ (word "x")] (.cons (.bin (.op .add) (.bin (.op .mul) (.int 2) (.int 3)) (.int 1)) .nil),
  .while_ (.bin (.op .gt) (.var (word "x")) (.int 2)) (.block (.of [.assign (word "x") (.bin (.op .sub) (.var (word "x")) (.int 1))])), .echo (.var (word "x"))]

def runFolded : Stmts := .of [.decl [.let_ (word "x")] (.cons (.int 7) .nil),
  .while_ (.bin (.op .gt) (.var (word "x")) (.int 2)) (.block (.of [.assign (word "x") (.bin (.op .sub) (.var (word "x")) (.int 1))])), .echo (.var (word "x"))]

theorem runText_gram (flt : List Byte → BitVec 64) : ∃ ts, TextItems runText ts ∧ Gram flt some .stmts ts runTree := by
  suffices h : Gram flt some .stmts (tokensOf runText).1 runTree from
    ⟨_, (textItems_plain (by decide +kernel) (FirstPlain.gram h)).2 ⟨rfl, runText_tokens.2⟩, h⟩
  rw [runText_tokens.1]
  have hv : ∀ (v : Name), Gram flt some .unary [.word .id v] (.var v) := fun v => Gram.var.atomTo
  have hi : ∀ (v : List Byte) (i : BitVec 64), getInt v = i → Gram flt some .unary [.word .int v] (.int i) := by
    rintro v i rfl; exact Gram.int.atomTo
  have e1 : Gram flt some .expr [.word .int (word "2"), .op .star, .word .int (word "3"), .op .plus, .word .int (word "1")]
      (.bin .plus (.bin .star (.int 2) (.int 3)) (.int 1)) := by
    refine Gram.toExpr (Gram.down (k := 10) ?_ (by omega) (by omega))
    refine Gram.binLeft (tl := [.word .int (word "2"), .op .star, .word .int (word "3")]) ⟨_, rfl, by decide⟩ (Gram.down (k := 11) ?_ (by omega) (by omega))
      ((hi _ _ (by decide +kernel)).unaryTo 11 (by omega))
    exact Gram.binLeft (tl := [.word .int (word "2")]) ⟨_, rfl, by decide⟩ ((hi _ _ (by decide +kernel)).unaryTo 11 (by omega))
      ((hi _ _ (by decide +kernel)).unaryTo 12 (by omega))
  have ex : Gram flt some .expr [.word .id (word "x")] (.var (word "x")) := Gram.toExpr ((hv _).unaryTo 0 (by omega))
  have e2 : Gram flt some .expr [.word .id (word "x"), .op .gt, .word .int (word "2")] (.bin .gt (.var (word "x")) (.int 2)) :=
    Gram.toExpr (Gram.down (k := 4) (Gram.binLeft (tl := [.word .id (word "x")]) ⟨_, rfl, by decide⟩ ((hv _).unaryTo 4 (by omega))
      ((hi _ _ (by decide +kernel)).unaryTo 5 (by omega))) (by omega) (by omega))
  have e3 : Gram flt some .expr [.word .id (word "x"), .op .minus, .word .int (word "1")] (.bin .minus (.var (word "x")) (.int 1)) :=
    Gram.toExpr (Gram.down (k := 10) (Gram.binLeft (tl := [.word .id (word "x")]) ⟨_, rfl, by decide⟩ ((hv _).unaryTo 10 (by omega))
      ((hi _ _ (by decide +kernel)).unaryTo 11 (by omega))) (by omega) (by omega))
  have s1 : Gram flt some .stmt [.word .id (word "x"), .op .eq, .word .id (word "x"), .op .minus, .word .int (word "1")]
      (.assign (word "x") (some (.bin .minus (.var (word "x")) (.int 1)))) :=
    .simple (by simp) (by simp) (.assign (tx := [.word .id (word "x")]) ex e3)
  exact .stmts (ts := [.op .let_, .word .id (word "x"), .op .eq, .word .int (word "2"), .op .star, .word .int (word "3"), .op .plus, .word .int (word "1")])
    (.declLet (tl := []) (tm := []) .lvalsEnd e1 .moreEnd (by simp))
    (.stmts (ts := [.op .while_, .word .id (word "x"), .op .gt, .word .int (word "2"), .op .lbrc, .word .id (word "x"), .op .eq,
        .word .id (word "x"), .op .minus, .word .int (word "1"), .sep .semi false, .op .rbrc])
      (.while_ (tc := [.word .id (word "x"), .op .gt, .word .int (word "2")]) e2
        (.body (ts := [.word .id (word "x"), .op .eq, .word .id (word "x"), .op .minus, .word .int (word "1"), .sep .semi false])
          (.stmts (ts := [.word .id (word "x"), .op .eq, .word .id (word "x"), .op .minus, .word .int (word "1")]) s1 .stmtsEnd)))
      (.stmts (ts := [.op .echo, .word .id (word "x")]) (.echo ex) .stmtsEnd))

/-- the hypotheses of C93 are met by this text -/
theorem runText_meets : stmtsOf runTree = some runProg ∧ SafeStmts demoFloat runProg ∧ FitsAll runProg 0 0 0 ∧ foldStmts demoFloat runProg = some runFolded ∧
    ∃ image, build ⟨fun _ => 0, foldNode demoFloat⟩ [] [] runText = some (.image image) ∧ image.length < 2 ^ 63 := by
  have h1 : stmtsOf runTree = some runProg := by rfl
  have h2 : foldStmts demoFloat runProg = some runFolded := by rfl
  refine ⟨h1, ?_, ?_, h2, ?_⟩
  · simp [runProg, Stmts.of, SafeStmts, SafeStmt, FoldSafe, FoldSafes, SafeLVal]
  · simp [runProg, Stmts.of, FitsAll, Fits, FitsL, FitsE, WfE, WfEs, needE, needEs, stackLimit, maxLocals, Stmt.declares, LVal.declares, Exprs.length]
  · obtain ⟨ts, h3, h4⟩ := runText_gram (fun _ => 0)
    obtain ⟨image, h5⟩ := Option.isSome_iff_exists.1 (show (compile [] runFolded []).isSome = true by decide +kernel)
    refine ⟨image, C93_builds _ demoFloat [] [] runText image ts runTree runProg runFolded h3 h4 h1 h2 h5, ?_⟩
    have : (compile [] runFolded []).map List.length = some image.length := by rw [h5]; rfl
    have h6 : ((compile [] runFolded []).map List.length).all (· < 100) = true := by decide +kernel
    rw [this] at h6
    simp at h6
    omega

/-- C93: the program on which the theorems above speak is the tree of the text: `stmtsOf` gives back a program only for the nodes this program is written with. -/
theorem C93_same_tree (ss : List Node) (prog : Stmts) (h : stmtsOf ss = some prog) : ss = prog.nodes := stmts_nodes ss prog h

example : runTree = runProg.nodes := C93_same_tree _ _ runText_meets.1

/-- the program prints 2 -/
example : ∃ k m, execute ⟨fun _ => 0, foldNode demoFloat⟩ demoFloat demoPrims [] [] runText (fun _ => none) () k = some (.stopped m .halt) ∧ m.out = [50, 10] := by
  obtain ⟨h1, h2, h3, -, image, h5, h6⟩ := runText_meets
  obtain ⟨ts, h7, h8⟩ := runText_gram (fun _ => 0)
  have h := C93_runs_the_text (fun _ => 0) demoFloat demoPrims demoPrims_noEnd [] [] runText image ts runTree runProg h7 h8 h1 h5 h6 h2 h3 (fun _ => none) (by simp)
    (by simp) () 20
  have h9 : demoMeaning runProg 20 = ([50, 10], .normal) := by decide +kernel
  rw [demoMeaning] at h9
  simp only [Prod.mk.injEq] at h9
  split at h
  · rename_i t heq
    rw [heq] at h9
    obtain ⟨k, m, e1, e2, -⟩ := h
    exact ⟨k, m, e1, by rw [e2, ← h9.1]⟩
  all_goals simp_all

/-! ## Programs for which it is false -/

/-- What a text of the fragment does, from what the machine does with the code of its folded statements. -/
theorem runs_demo {src : List Byte} {ts : List TextItem} {ss : List Node} {prog prog' : Stmts} {k : Nat} {out : List Byte} {e : RtErr} (ht : TextItems src ts)
    (hg : Gram (fun _ => 0) some .stmts ts ss) (hp : stmtsOf ss = some prog) (hf : foldStmts demoFloat prog = some prog') (hr : demoRun prog' k = some (out, e)) :
    ∃ m, execute ⟨fun _ => 0, foldNode demoFloat⟩ demoFloat demoPrims [] [] src (fun _ => none) () k = some (.stopped m e) ∧ m.out = out := by
  rw [demoRun] at hr
  obtain ⟨image, hi, hr⟩ := Option.bind_eq_some_iff.1 hr
  obtain ⟨⟨m, K⟩, hl, hr⟩ := Option.bind_eq_some_iff.1 hr
  dsimp only at hr
  have hb := C93_builds (fun _ => 0) demoFloat [] [] src image ts ss prog prog' ht hg hp hf hi
  rw [execute, hb]; dsimp only; rw [hl]; dsimp only
  rcases hv : VM.run demoFloat demoPrims image K k m with m' | ⟨m', e'⟩
  · rw [hv] at hr; cases hr
  · rw [hv] at hr; cases hr; exact ⟨m', rfl, rfl⟩

/-- a value without a name -/
def extraText : List Byte := word "let x = 1, 2\nlet y = 3\necho y\n"

def extraTree : List Node := [.decl [.let_ (word "x") none] [.int 1, .int 2], .decl [.let_ (word "y") none] [.int 3], .echo (.var (word "y"))]

def extraProg : Stmts := .of [.decl [.let_ (word "x")] (.cons (.int 1) (.cons (.int 2) .nil)), .decl [.let_ (word "y")] (.cons (.int 3) .nil), .echo (.var (word "y"))]

theorem extraText_tokens : (tokensOf extraText).1 = [.op .let_, .word .id (word "x"), .op .eq, .word .int (word "1"), .op .comma, .word .int (word "2"), .sep .semi true,
      .op .let_, .word .id (word "y"), .op .eq, .word .int (word "3"), .sep .semi true, .op .echo, .word .id (word "y"), .sep .semi true] ∧
    (tokensOf extraText).2.type = .eof := by decide +kernel

theorem extraText_gram (flt : List Byte → BitVec 64) : ∃ ts, TextItems extraText ts ∧ Gram flt some .stmts ts extraTree := by
  suffices h : Gram flt some .stmts (tokensOf extraText).1 extraTree from
    ⟨_, (textItems_plain (by decide +kernel) (FirstPlain.gram h)).2 ⟨rfl, extraText_tokens.2⟩, h⟩
  rw [extraText_tokens.1]
  have hi : ∀ (v : List Byte) (i : BitVec 64), getInt v = i → Gram flt some .expr [.word .int v] (.int i) := by
    rintro v i rfl; exact Gram.toExpr (Gram.int.atomTo.unaryTo 0 (by omega))
  exact .stmts (ts := [.op .let_, .word .id (word "x"), .op .eq, .word .int (word "1"), .op .comma, .word .int (word "2")])
    (.declLet (tl := []) (tr := [.word .int (word "1")]) (tm := [.op .comma, .word .int (word "2")]) .lvalsEnd (hi _ _ (by decide +kernel))
      (.more (te := [.word .int (word "2")]) (hi _ _ (by decide +kernel)) .moreEnd) (by simp))
    (.stmts (ts := [.op .let_, .word .id (word "y"), .op .eq, .word .int (word "3")])
      (.declLet (tl := []) (tm := []) .lvalsEnd (hi _ _ (by decide +kernel)) .moreEnd (by simp))
      (.stmts (ts := [.op .echo, .word .id (word "y")]) (.echo (Gram.toExpr (Gram.var.atomTo.unaryTo 0 (by omega)))) .stmtsEnd))

/-- C93 is false for a declaration with a value too many, which is accepted: the value stays on the stack, and the variables declared after it are read from the wrong slots.
`let x = 1, 2`, `let y = 3`, `echo y` means 3 and prints 2. -/
theorem C93_extra_value_counterexample : (∃ ts, TextItems extraText ts ∧ Gram (fun _ => 0) some .stmts ts extraTree) ∧ stmtsOf extraTree = some extraProg ∧
    demoMeaning extraProg 20 = ([51, 10], .normal) ∧
    ∃ k m, execute ⟨fun _ => 0, foldNode demoFloat⟩ demoFloat demoPrims [] [] extraText (fun _ => none) () k = some (.stopped m .halt) ∧ m.out = [50, 10] := by
  obtain ⟨ts, h1, h2⟩ := extraText_gram (fun _ => 0)
  have h3 : stmtsOf extraTree = some extraProg := by rfl
  refine ⟨⟨ts, h1, h2⟩, h3, by decide +kernel, 200, ?_⟩
  exact runs_demo h1 h2 h3 (by rfl : foldStmts demoFloat extraProg = some extraProg) (by decide +kernel)

/-- a `for` with an expression as its third part -/
def postText : List Byte := word "let n = 0\nfor let i = 7; n < 1; n { n = 1; }\nlet z = 5\necho n\n"

def postTree : List Node := [.decl [.let_ (word "n") none] [.int 0],
  .block [.let_ (word "i") (some (.int 7)), .while_ (.bin .lt (.var (word "n")) (.int 1)) (.block [.assign (word "n") (some (.int 1))]) (some (.exprStmt (.exprStmt (.var (word "n")))))],
  .decl [.let_ (word "z") none] [.int 5], .echo (.var (word "n"))]

def postProg : Stmts := .of [.decl [.let_ (word "n")] (.cons (.int 0) .nil),
  .block (.of [.letOne (word "i") (.int 7), .forLoop (.bin (.op .lt) (.var (word "n")) (.int 1)) (.block (.of [.assign (word "n") (.int 1)])) (.post (.expr (.var (word "n"))))]),
  .decl [.let_ (word "z")] (.cons (.int 5) .nil), .echo (.var (word "n"))]

theorem postText_tokens : (tokensOf postText).1 = [.op .let_, .word .id (word "n"), .op .eq, .word .int (word "0"), .sep .semi true,
      .sep .for_ false, .op .let_, .word .id (word "i"), .op .eq, .word .int (word "7"), .sep .semi false, .word .id (word "n"), .op .lt, .word .int (word "1"), .sep .semi false,
      .word .id (word "n"), .op .lbrc, .word .id (word "n"), .op .eq, .word .int (word "1"), .sep .semi false, .op .rbrc, .sep .semi true,
      .op .let_, .word .id (word "z"), .op .eq, .word .int (word "5"), .sep .semi true, .op .echo, .word .id (word "n"), .sep .semi true] ∧
    (tokensOf postText).2.type = .eof := by decide +kernel

theorem postText_gram (flt : List Byte → BitVec 64) : ∃ ts, TextItems postText ts ∧ Gram flt some .stmts ts postTree := by
  suffices h : Gram flt some .stmts (tokensOf postText).1 postTree from
    ⟨_, (textItems_plain (by decide +kernel) (FirstPlain.gram h)).2 ⟨rfl, postText_tokens.2⟩, h⟩
  rw [postText_tokens.1]
  have hu : ∀ (v : List Byte) (i : BitVec 64), getInt v = i → Gram flt some .unary [.word .int v] (.int i) := by
    rintro v i rfl; exact Gram.int.atomTo
  have hi : ∀ (v : List Byte) (i : BitVec 64), getInt v = i → Gram flt some .expr [.word .int v] (.int i) :=
    fun v i h => Gram.toExpr ((hu v i h).unaryTo 0 (by omega))
  have ex : Gram flt some .expr [.word .id (word "n")] (.var (word "n")) := Gram.toExpr (Gram.var.atomTo.unaryTo 0 (by omega))
  have ec : Gram flt some .expr [.word .id (word "n"), .op .lt, .word .int (word "1")] (.bin .lt (.var (word "n")) (.int 1)) :=
    Gram.toExpr (Gram.down (k := 4) (Gram.binLeft (tl := [.word .id (word "n")]) ⟨_, rfl, by decide⟩ (Gram.var.atomTo.unaryTo 4 (by omega))
      ((hu _ _ (by decide +kernel)).unaryTo 5 (by omega))) (by omega) (by omega))
  have s1 : Gram flt some .stmt [.word .id (word "n"), .op .eq, .word .int (word "1")] (.assign (word "n") (some (.int 1))) :=
    .simple (by simp) (by simp) (.assign (tx := [.word .id (word "n")]) ex (hi _ _ (by decide +kernel)))
  exact .stmts (ts := [.op .let_, .word .id (word "n"), .op .eq, .word .int (word "0")])
    (.declLet (tl := []) (tm := []) .lvalsEnd (hi _ _ (by decide +kernel)) .moreEnd (by simp))
    (.stmts (ts := [.sep .for_ false, .op .let_, .word .id (word "i"), .op .eq, .word .int (word "7"), .sep .semi false, .word .id (word "n"), .op .lt, .word .int (word "1"),
        .sep .semi false, .word .id (word "n"), .op .lbrc, .word .id (word "n"), .op .eq, .word .int (word "1"), .sep .semi false, .op .rbrc])
      (.forLet (te := [.word .int (word "7")]) (tc := [.word .id (word "n"), .op .lt, .word .int (word "1")]) (tp := [.word .id (word "n")]) (hi _ _ (by decide +kernel)) ec
        (.exprStmt ex) (.body (ts := [.word .id (word "n"), .op .eq, .word .int (word "1"), .sep .semi false])
          (.stmts (ts := [.word .id (word "n"), .op .eq, .word .int (word "1")]) s1 .stmtsEnd)))
      (.stmts (ts := [.op .let_, .word .id (word "z"), .op .eq, .word .int (word "5")])
        (.declLet (tl := []) (tm := []) .lvalsEnd (hi _ _ (by decide +kernel)) .moreEnd (by simp))
        (.stmts (ts := [.op .echo, .word .id (word "n")]) (.echo ex) .stmtsEnd)))

/-- C93 is false for a `for` whose third part is an expression: its value is removed from the stack twice in every round, so that the variables are lost.
`let n = 0`, `for let i = 7; n < 1; n { n = 1; }`, `let z = 5`, `echo n` means 1 and prints 5, the value of `z`. -/
theorem C93_post_counterexample : (∃ ts, TextItems postText ts ∧ Gram (fun _ => 0) some .stmts ts postTree) ∧ stmtsOf postTree = some postProg ∧
    demoMeaning postProg 20 = ([49, 10], .normal) ∧
    ∃ k m, execute ⟨fun _ => 0, foldNode demoFloat⟩ demoFloat demoPrims [] [] postText (fun _ => none) () k = some (.stopped m .halt) ∧ m.out = [53, 10] := by
  obtain ⟨ts, h1, h2⟩ := postText_gram (fun _ => 0)
  have h3 : stmtsOf postTree = some postProg := by rfl
  refine ⟨⟨ts, h1, h2⟩, h3, by decide +kernel, 200, ?_⟩
  exact runs_demo h1 h2 h3 (by rfl : foldStmts demoFloat postProg = some postProg) (by decide +kernel)

end Yasl
