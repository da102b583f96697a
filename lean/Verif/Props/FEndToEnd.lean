import Verif.Proofs.FRedSem
import Verif.Proofs.FIds
import Verif.Proofs.NodeRed
import Verif.Proofs.Tree
import Verif.Props.Functions
import Verif.Props.Parser
set_option autoImplicit false
/-!
# C106 — a program with functions runs as it is written

`executeF` is all of `YASL_execute`: the text is split into tokens and parsed, constants are folded, code is generated, loaded and run.  What the text means is given
by the grammar (`Verif.Spec.Grammar`, without any folding: `Gram flt some`) and by `fprog` (`Verif.Spec.FLang`).  `fprogOf` only renames the nodes of the tree, and
numbers the function literals (`C106_same_tree`, with `Verif.Spec.Tree`).
-/
namespace Yasl

theorem buildF_image {cfg : ParseCfg} {globals : List Name} {lines src image : List Byte} (h : buildF cfg globals lines src = some (.image image)) :
    ∃ ss prog, parseSource cfg src = some (.accepted ss) ∧ fprogOf ss = some prog ∧ compileF globals prog lines = some image := by
  rw [buildF] at h
  repeat' split at h
  all_goals cases h
  exact ⟨_, _, ‹_›, ‹_›, ‹_›⟩

/-- The program that is compiled is the program of the text, up to folding. -/
theorem buildF_folds {flt : List Byte → BitVec 64} {F : FloatOps} {globals : List Name} {lines src image : List Byte} {ts : List TextItem} {ss : List Node}
    {prog : FStmts} (ht : TextItems src ts) (hg : Gram flt some .stmts ts ss) (hp : fprogOf ss = some prog)
    (hb : buildF ⟨flt, foldNode F⟩ globals lines src = some (.image image)) :
    ∃ prog', compileF globals prog' lines = some image ∧ FRed F .stmts prog prog' ∧ prog.ids.Nodup := by
  obtain ⟨ss', prog', h1, h2, h3⟩ := buildF_image hb
  obtain ⟨ts', h4, h5⟩ := (C86_grammar ⟨flt, foldNode F⟩ src ss').1 h1
  obtain ⟨ss2, g1, g2⟩ := gram_red h5
  have hss : ss2 = ss := C87_unambiguous flt some src ts' ts ss2 ss h4 ht g1 hg
  subst hss
  obtain ⟨⟨q, k⟩, h2', rfl⟩ := Option.map_eq_some_iff.1 (show (fstmtsOf ss' 0).map Prod.fst = some prog' from h2)
  obtain ⟨⟨p, k'⟩, hp', rfl⟩ := Option.map_eq_some_iff.1 (show (fstmtsOf ss2 0).map Prod.fst = some prog from hp)
  obtain ⟨s, h6, h7⟩ := (red_conv g2).2.1 0 q k h2'
  have h6 := hp'.symm.trans h6
  simp only [Option.some.injEq, Prod.mk.injEq] at h6
  obtain ⟨rfl, rfl⟩ := h6
  exact ⟨q, h3, h7, (fstmts_fresh _ _ _ hp').2.1⟩

/-- C106: suppose the text `src` is, by the grammar, the program `prog`, and `YASL_compile` makes bytecode of it.  Then `YASL_execute` does what `prog` means, unless
a limit is reached at run time (`LimitStop`: the stack is full, 1000 calls or 16 loops over collections are active): it ends with the same output, globals and world if
`prog` ends, with the same error if it ends in an error, and does not end if `prog` does not end.  The hypotheses say that constant folding is harmless (C27), and
that the program respects the limits of the implementation (`FFitsTop`, C96). -/
theorem C106_runs_the_text {W : Type} (flt : List Byte → BitVec 64) (F : FloatOps) (P : Prims W) (hP : P.NoEnd) (Q : W → Val → List Val → PRes W (List Val))
    (hQ : ∀ w v args w' rs, Q w v args = (w', .ok rs) → ∀ u ∈ rs, u ≠ Val.end_) (globals : List Name) (lines src image : List Byte)
    (ts : List TextItem) (ss : List Node) (prog : FStmts) (ht : TextItems src ts) (hg : Gram flt some .stmts ts ss) (hp : fprogOf ss = some prog)
    (hb : buildF ⟨flt, foldNode F⟩ globals lines src = some (.image image)) (hlen : image.length < 2 ^ 63) (hs : SafeFSs F prog) (hF : FFitsTop [] prog)
    (G : Name → Option Val) (hG : ∀ x ∈ globals, G x ≠ none) (hE : ∀ x v, G x = some v → v ≠ .end_) :
    ∃ label : Nat → Option Nat, (∀ i j a, label i = some a → label j = some a → i = j) ∧ ∀ (w : W) (nextFp : Int) (n : Nat),
      (∃ k m' e, executeF ⟨flt, foldNode F⟩ F P Q globals lines src G w nextFp k = some (.stopped m' e) ∧ LimitStop m' e) ∨
      match fprog F P Q label n prog ⟨[], G, w, [], fun _ => none, 0⟩ with
      | (t, .ok ()) => ∃ k m', executeF ⟨flt, foldNode F⟩ F P Q globals lines src G w nextFp k = some (.stopped m' .halt) ∧ m'.vm.out = t.out ∧
          m'.vm.globals = t.globals ∧ m'.vm.world = t.world ∧ m'.vm.stack = t.statics.map Prod.snd
      | (t, .error (.err e)) => ∃ k m', executeF ⟨flt, foldNode F⟩ F P Q globals lines src G w nextFp k = some (.stopped m' e) ∧ m'.vm.out = t.out ∧
          m'.vm.globals = t.globals ∧ m'.vm.world = t.world
      | (_, .error .timeout) => ∃ k m', n ≤ k ∧ executeF ⟨flt, foldNode F⟩ F P Q globals lines src G w nextFp k = some (.running m')
      | (_, .error .outside) => True := by
  obtain ⟨prog', hc, hr, hids⟩ := buildF_folds ht hg hp hb
  obtain ⟨label, hinj, h⟩ := C96_functions F P hP Q hQ globals prog' lines image hc hlen (fred_topFits hr [] hF) (hr.idss ▸ hids) G hG hE
  refine ⟨label, hinj, fun w nextFp n => ?_⟩
  obtain ⟨m, K, hl, h⟩ := h w nextFp
  have hx : ∀ k, executeF ⟨flt, foldNode F⟩ F P Q globals lines src G w nextFp k = match FVM.run F P Q image K k m with
      | .stop m e => some (.stopped m e)
      | .next m => some (.running m) := by
    intro k; rw [executeF, hb]; dsimp only; rw [hl]; rfl
  have hsem : SameR F (fprog F P Q label n prog ⟨[], G, w, [], fun _ => none, 0⟩) (fprog F P Q label n prog' ⟨[], G, w, [], fun _ => none, 0⟩) :=
    fred_semTop hr hs n _ _ ⟨rfl, rfl, rfl, rfl, rfl, fun v => trivial⟩
  rcases h n with ⟨k, m', e, h1, h2⟩ | h
  · exact .inl ⟨k, m', e, by rw [hx, h1], h2⟩
  right
  rcases h1 : fprog F P Q label n prog ⟨[], G, w, [], fun _ => none, 0⟩ with ⟨t, r⟩
  rcases h2 : fprog F P Q label n prog' ⟨[], G, w, [], fun _ => none, 0⟩ with ⟨t', r'⟩
  rw [h1, h2] at hsem
  rw [h2] at h
  obtain ⟨hsh, hrr⟩ := hsem
  dsimp only at hsh hrr
  subst hrr
  rcases r with (e | _ | _) | u
  · obtain ⟨k, m', e1, e2, e3, e4⟩ := h
    exact ⟨k, m', by rw [hx, e1], e2.trans hsh.out.symm, e3.trans hsh.globals.symm, e4.trans hsh.world.symm⟩
  · obtain ⟨k, m', e1, e2⟩ := h
    exact ⟨k, m', e1, by rw [hx, e2]⟩
  · trivial
  · obtain ⟨k, m', e1, e2, e3, e4, e5⟩ := h
    exact ⟨k, m', by rw [hx, e1], e2.trans hsh.out.symm, e3.trans hsh.globals.symm, e4.trans hsh.world.symm, by rw [e5, hsh.statics]⟩

theorem executeF_unique {W : Type} {cfg : ParseCfg} {F : FloatOps} {P : Prims W} {Q : W → Val → List Val → PRes W (List Val)} {globals : List Name} {lines src : List Byte}
    {G : Name → Option Val} {w : W} {nextFp : Int} {k j : Nat} {m m' : FVM W} {e e' : RtErr} (h : executeF cfg F P Q globals lines src G w nextFp k = some (.stopped m e))
    (h' : executeF cfg F P Q globals lines src G w nextFp j = some (.stopped m' e')) : m = m' ∧ e = e' := by
  rw [executeF] at h h'
  split at h
  · cases h
  · rename_i b hb
    split at h
    · rename_i m0 K hl
      split at h
      · rename_i m1 e1 hr
        simp only [Option.some.injEq, FExecuted.stopped.injEq] at h
        obtain ⟨rfl, rfl⟩ := h
        rw [hb] at h'
        dsimp only at h'
        rw [hl] at h'
        dsimp only at h'
        split at h'
        · rename_i m2 e2 hr'
          simp only [Option.some.injEq, FExecuted.stopped.injEq] at h'
          obtain ⟨rfl, rfl⟩ := h'
          exact FVM.run_stop_unique hr hr'
        · cases h'
      · cases h
    · cases h
  · cases h
  · cases h

/-- C106, the converse: whenever `YASL_execute` returns after running the program, and not because of a limit, the program has stopped in the same way, with the same
output, globals and world (or is one about which nothing is said). -/
theorem C106_execute_stops {W : Type} (flt : List Byte → BitVec 64) (F : FloatOps) (P : Prims W) (hP : P.NoEnd) (Q : W → Val → List Val → PRes W (List Val))
    (hQ : ∀ w v args w' rs, Q w v args = (w', .ok rs) → ∀ u ∈ rs, u ≠ Val.end_) (globals : List Name) (lines src image : List Byte)
    (ts : List TextItem) (ss : List Node) (prog : FStmts) (ht : TextItems src ts) (hg : Gram flt some .stmts ts ss) (hp : fprogOf ss = some prog)
    (hb : buildF ⟨flt, foldNode F⟩ globals lines src = some (.image image)) (hlen : image.length < 2 ^ 63) (hs : SafeFSs F prog) (hF : FFitsTop [] prog)
    (G : Name → Option Val) (hG : ∀ x ∈ globals, G x ≠ none) (hE : ∀ x v, G x = some v → v ≠ .end_) :
    ∃ label : Nat → Option Nat, (∀ i j a, label i = some a → label j = some a → i = j) ∧ ∀ (w : W) (nextFp : Int) (k : Nat) (m' : FVM W) (e : RtErr),
      executeF ⟨flt, foldNode F⟩ F P Q globals lines src G w nextFp k = some (.stopped m' e) → ¬ LimitStop m' e →
      ∃ n t, (fprog F P Q label n prog ⟨[], G, w, [], fun _ => none, 0⟩ = (t, .error .outside)) ∨
        ((fprog F P Q label n prog ⟨[], G, w, [], fun _ => none, 0⟩ = (t, .error (.err e)) ∨
          (e = .halt ∧ fprog F P Q label n prog ⟨[], G, w, [], fun _ => none, 0⟩ = (t, .ok ()))) ∧
        m'.vm.out = t.out ∧ m'.vm.globals = t.globals ∧ m'.vm.world = t.world) := by
  obtain ⟨prog', hc, hr, hids⟩ := buildF_folds ht hg hp hb
  obtain ⟨label, hinj, h⟩ := C96_machine_stops F P hP Q hQ globals prog' lines image hc hlen (fred_topFits hr [] hF) (hr.idss ▸ hids) G hG hE
  refine ⟨label, hinj, fun w nextFp k m' e hx hlim => ?_⟩
  rw [executeF, hb] at hx
  dsimp only at hx
  split at hx
  · rename_i m K hl
    split at hx
    · rename_i m1 e1 hrun
      simp only [Option.some.injEq, FExecuted.stopped.injEq] at hx
      obtain ⟨rfl, rfl⟩ := hx
      obtain ⟨n, t', h⟩ := h w nextFp m K hl k _ _ hrun hlim
      have hsem : SameR F (fprog F P Q label n prog ⟨[], G, w, [], fun _ => none, 0⟩) (fprog F P Q label n prog' ⟨[], G, w, [], fun _ => none, 0⟩) :=
        fred_semTop hr hs n _ _ ⟨rfl, rfl, rfl, rfl, rfl, fun v => trivial⟩
      rcases h1 : fprog F P Q label n prog ⟨[], G, w, [], fun _ => none, 0⟩ with ⟨t, r⟩
      rw [h1] at hsem
      obtain ⟨hsh, hrr⟩ := hsem
      dsimp only at hsh hrr
      refine ⟨n, t, ?_⟩
      rcases h with h | ⟨h | ⟨he, h⟩, e2, e3, e4⟩
      · rw [h] at hrr; dsimp only at hrr; subst hrr; exact .inl h1
      · rw [h] at hrr hsh; dsimp only at hrr hsh; subst hrr
        exact .inr ⟨.inl h1, e2.trans hsh.out.symm, e3.trans hsh.globals.symm, e4.trans hsh.world.symm⟩
      · rw [h] at hrr hsh; dsimp only at hrr hsh; subst hrr
        exact .inr ⟨.inr ⟨he, h1⟩, e2.trans hsh.out.symm, e3.trans hsh.globals.symm, e4.trans hsh.world.symm⟩
    · cases hx
  · cases hx

/-- C106: if the parser or the compiler reports an error, no instruction is run and the error is what `YASL_execute` returns; and of a text that is no program by the
grammar nothing is ever run. -/
theorem C106_refused {W : Type} (cfg : ParseCfg) (F : FloatOps) (P : Prims W) (Q : W → Val → List Val → PRes W (List Val)) (globals : List Name)
    (lines src : List Byte) (G : Name → Option Val) (w : W) (nextFp : Int) (n : Nat) :
    (parseSource cfg src = some .rejected → executeF cfg F P Q globals lines src G w nextFp n = some .refused) ∧
    (∀ ts ss prog, TextItems src ts → Gram cfg.strtod cfg.fold .stmts ts ss → fprogOf ss = some prog → compileF globals prog lines = none →
      executeF cfg F P Q globals lines src G w nextFp n = some .refused) ∧
    ((¬ ∃ ts ss, TextItems src ts ∧ Gram cfg.strtod cfg.fold .stmts ts ss) →
      ∀ r, executeF cfg F P Q globals lines src G w nextFp n = some r → (∀ m e, r ≠ .stopped m e) ∧ ∀ m, r ≠ .running m) := by
  refine ⟨fun h => by rw [executeF, buildF, h], fun ts ss prog ht hg hp hc => ?_, fun h r hr => ?_⟩
  · have h3 := (C86_grammar cfg src ss).2 ⟨ts, ht, hg⟩
    rw [executeF, buildF, h3]; dsimp only; rw [hp]; dsimp only; rw [hc]
  · rw [executeF] at hr
    cases hb : buildF cfg globals lines src with
    | none => rw [hb] at hr; cases hr
    | some b =>
      cases b with
      | image b =>
        obtain ⟨ss, -, h1, -⟩ := buildF_image hb
        obtain ⟨ts, h2⟩ := (C86_grammar cfg src ss).1 h1
        exact absurd ⟨ts, ss, h2⟩ h
      | _ => rw [hb] at hr; cases hr; exact ⟨nofun, nofun⟩

/-! ## A program -/

/-- a recursive function, with a constant to be folded -/
def recText : List Byte := word "fn f(n) { return n < 1 ? 2 - 1 : n * f(n - 1); }\necho f(4)\n"

theorem recText_tokens : (tokensOf recText).1 = [.op .fn, .word .id (word "f"), .op .lpar, .word .id (word "n"), .op .rpar, .op .lbrc, .op .ret, .word .id (word "n"),
      .op .lt, .word .int (word "1"), .op .qmark, .word .int (word "2"), .op .minus, .word .int (word "1"), .op .colon, .word .id (word "n"), .op .star,
      .word .id (word "f"), .op .lpar, .word .id (word "n"), .op .minus, .word .int (word "1"), .op .rpar, .sep .semi false, .op .rbrc, .sep .semi true, .op .echo,
      .word .id (word "f"), .op .lpar, .word .int (word "4"), .op .rpar, .sep .semi true] ∧ (tokensOf recText).2.type = .eof := by decide +kernel

/-- The tree, with the given node for `2 - 1`. -/
def recTree (one : Node) : List Node :=
  [.let_ (word "f") (some (.fn [.let_ (word "n") none] [.ret (.variadic (.tri (.bin .lt (.var (word "n")) (.int 1)) one
      (.bin .star (.var (word "n")) (.call (.var (word "f")) [.bin .minus (.var (word "n")) (.int 1)]))) (-1))] (some (word "f")))),
   .echo (.call (.var (word "f")) [.int 4])]

def recProg (one : FExpr) : FStmts := .of [
  .fnDecl (word "f") 0 [word "n"] (.of [.ret (.ctx true (.tri (.bin (.op .lt) (.var (word "n")) (.lit (.int 1))) one
    (.bin (.op .mul) (.var (word "n")) (.call (.var (word "f")) (.of [.bin (.op .sub) (.var (word "n")) (.lit (.int 1))])))))]),
  .echo (.call (.var (word "f")) (.of [.lit (.int 4)]))]

/-- The text is the program, in the grammar with or without folding. -/
theorem recText_gram (flt : List Byte → BitVec 64) (fold : Node → Option Node) (one : Node)
    (h1 : fold (.bin .minus (.var (word "n")) (.int 1)) = some (.bin .minus (.var (word "n")) (.int 1))) (h2 : fold (.int 4) = some (.int 4))
    (h3 : fold (.call (.var (word "f")) [.int 4]) = some (.call (.var (word "f")) [.int 4]))
    (h4 : fold (.tri (.bin .lt (.var (word "n")) (.int 1)) (.bin .minus (.int 2) (.int 1))
        (.bin .star (.var (word "n")) (.call (.var (word "f")) [.bin .minus (.var (word "n")) (.int 1)]))) =
      some (.tri (.bin .lt (.var (word "n")) (.int 1)) one (.bin .star (.var (word "n")) (.call (.var (word "f")) [.bin .minus (.var (word "n")) (.int 1)])))) :
    ∃ ts, TextItems recText ts ∧ Gram flt fold .stmts ts (recTree one) := by
  suffices h : Gram flt fold .stmts (tokensOf recText).1 (recTree one) from
    ⟨_, (textItems_plain (by decide +kernel) (FirstPlain.gram h)).2 ⟨rfl, recText_tokens.2⟩, h⟩
  rw [recText_tokens.1]
  have hv : ∀ (v : Name), Gram flt fold .unary [.word .id v] (.var v) := fun v => Gram.var.atomTo
  have hi : ∀ (v : List Byte) (i : BitVec 64), getInt v = i → Gram flt fold .unary [.word .int v] (.int i) := by
    rintro v i rfl; exact Gram.int.atomTo
  have i1 : getInt (word "1") = 1#64 := by decide +kernel
  have i2 : getInt (word "2") = 2#64 := by decide +kernel
  have i4 : getInt (word "4") = 4#64 := by decide +kernel
  have e1 : Gram flt fold .expr [.word .id (word "n"), .op .minus, .word .int (word "1")] (.bin .minus (.var (word "n")) (.int 1)) :=
    .expr (.ternOne (Gram.down (k := 10) (Gram.binLeft (tl := [.word .id (word "n")]) ⟨_, rfl, by decide⟩ ((hv _).unaryTo 10 (by omega))
      ((hi _ _ i1).unaryTo 11 (by omega))) (by omega) (by omega))) h1
  have e2 : Gram flt fold (.bin 0) [.word .id (word "n"), .op .lt, .word .int (word "1")] (.bin .lt (.var (word "n")) (.int 1)) :=
    Gram.down (k := 4) (Gram.binLeft (tl := [.word .id (word "n")]) ⟨_, rfl, by decide⟩ ((hv _).unaryTo 4 (by omega))
      ((hi _ _ i1).unaryTo 5 (by omega))) (by omega) (by omega)
  have e3 : Gram flt fold .tern [.word .int (word "2"), .op .minus, .word .int (word "1")] (.bin .minus (.int 2) (.int 1)) :=
    .ternOne (Gram.down (k := 10) (Gram.binLeft (tl := [.word .int (word "2")]) ⟨_, rfl, by decide⟩ ((hi _ _ i2).unaryTo 10 (by omega))
      ((hi _ _ i1).unaryTo 11 (by omega))) (by omega) (by omega))
  have c1 : Gram flt fold .post [.word .id (word "f"), .op .lpar, .word .id (word "n"), .op .minus, .word .int (word "1"), .op .rpar]
      (.call (.var (word "f")) [.bin .minus (.var (word "n")) (.int 1)]) :=
    Gram.call (tf := [.word .id (word "f")]) (ta := [.word .id (word "n"), .op .minus, .word .int (word "1")]) (.postOne .var) (.argsLast e1)
  have e4 : Gram flt fold .tern [.word .id (word "n"), .op .star, .word .id (word "f"), .op .lpar, .word .id (word "n"), .op .minus, .word .int (word "1"), .op .rpar]
      (.bin .star (.var (word "n")) (.call (.var (word "f")) [.bin .minus (.var (word "n")) (.int 1)])) :=
    .ternOne (Gram.down (k := 11) (Gram.binLeft (tl := [.word .id (word "n")]) ⟨_, rfl, by decide⟩ ((hv _).unaryTo 11 (by omega))
      (c1.postTo.unaryTo 12 (by omega))) (by omega) (by omega))
  have e5 := Gram.expr (Gram.tern e2 e3 e4) h4
  have e6 : Gram flt fold .expr [.word .int (word "4")] (.int 4) := .expr (.ternOne ((hi _ _ i4).unaryTo 0 (by omega))) h2
  have e7 : Gram flt fold .expr [.word .id (word "f"), .op .lpar, .word .int (word "4"), .op .rpar] (.call (.var (word "f")) [.int 4]) :=
    .expr (.ternOne ((Gram.call (tf := [.word .id (word "f")]) (ta := [.word .int (word "4")]) (.postOne .var) (.argsLast e6)).postTo.unaryTo 0 (by omega))) h3
  have b : Gram flt fold .body _ _ := .body (.stmts (nl := false) (.ret e5) .stmtsEnd)
  exact .stmts (nl := true) (.fnDecl (x := word "f") (.let_ (x := word "n")) b) (.stmts (nl := true) (.echo e7) .stmtsEnd)

/-- the hypotheses of C106 are met by this text -/
theorem recText_meets : fprogOf (recTree (.bin .minus (.int 2) (.int 1))) = some (recProg (.bin (.op .sub) (.lit (.int 2)) (.lit (.int 1)))) ∧
    SafeFSs demoFloat (recProg (.bin (.op .sub) (.lit (.int 2)) (.lit (.int 1)))) ∧ FFitsTop [] (recProg (.bin (.op .sub) (.lit (.int 2)) (.lit (.int 1)))) ∧
    ∃ image, buildF ⟨fun _ => 0, foldNode demoFloat⟩ [] [] recText = some (.image image) ∧ image.length < 2 ^ 63 := by
  refine ⟨by rfl, ?_, ?_, ?_⟩
  · simp [recProg, FStmts.of, FExprs.of, SafeFSs, SafeFS, SafeFE, SafeFEs]
  · simp [recProg, FStmts.of, FExprs.of, FFitsTop, FFitsS, FFitsSs, FFitsE, FFitsEs, FStmts.decls, FStmt.decls]
  · obtain ⟨ts, h1, h2⟩ := recText_gram (fun _ => 0) (foldNode demoFloat) (.int 1) (by rfl) (by rfl) (by rfl) (by rfl)
    have h3 := (C86_grammar ⟨fun _ => 0, foldNode demoFloat⟩ recText _).2 ⟨ts, h1, h2⟩
    have h4 : fprogOf (recTree (.int 1)) = some (recProg (.lit (.int 1))) := by rfl
    obtain ⟨image, h5⟩ := Option.isSome_iff_exists.1 (show (compileF [] (recProg (.lit (.int 1))) []).isSome = true by decide +kernel)
    refine ⟨image, by rw [buildF, h3]; dsimp only; rw [h4]; dsimp only; rw [h5], ?_⟩
    have : (compileF [] (recProg (.lit (.int 1))) []).map List.length = some image.length := by rw [h5]; rfl
    have h6 : ((compileF [] (recProg (.lit (.int 1))) []).map List.length).all (· < 200) = true := by decide +kernel
    rw [this] at h6
    simp at h6
    omega

/-- C106: the program on which the theorems above speak is the tree of the text. -/
theorem C106_same_tree (ss : List Node) (prog : FStmts) (h : fprogOf ss = some prog) : prog.Is ss := by
  rw [fprogOf, Option.map_eq_some_iff] at h
  obtain ⟨r, h1, rfl⟩ := h
  exact fstmts_is ss 0 r h1

example : (recProg (.bin (.op .sub) (.lit (.int 2)) (.lit (.int 1)))).Is (recTree (.bin .minus (.int 2) (.int 1))) := C106_same_tree _ _ recText_meets.1

/-- several names at once: `let a, b = 1, 2` and `a, b = b, a`; and a function with two parameters is not one with the parameters exchanged -/
example : (fprogOf [.decl [.let_ (word "a") none, .let_ (word "b") none] [.int 1, .int 2],
      .decl [.assign (word "a") none, .assign (word "b") none] [.var (word "b"), .var (word "a")]]).isSome = true ∧
    ¬ (FStmts.of [.expr (.fn 0 [word "y", word "x"] .nil)]).Is [.exprStmt (.fn [.let_ (word "x") none, .let_ (word "y") none] [] none)] := by
  refine ⟨by rfl, ?_⟩
  simp [FStmts.of, FStmts.Is, FStmt.Is, FExpr.Is, word]
  decide

/-- the program prints 24 -/
example : ∃ k m, executeF ⟨fun _ => 0, foldNode demoFloat⟩ demoFloat demoPrims demoQ [] [] recText (fun _ => none) () 0 k = some (.stopped m .halt) ∧
    m.vm.out = [50, 52, 10] := by
  obtain ⟨ts, h1, h2⟩ := recText_gram (fun _ => 0) (foldNode demoFloat) (.int 1) (by rfl) (by rfl) (by rfl) (by rfl)
  have h3 := (C86_grammar ⟨fun _ => 0, foldNode demoFloat⟩ recText _).2 ⟨ts, h1, h2⟩
  have h4 : fprogOf (recTree (.int 1)) = some (recProg (.lit (.int 1))) := by rfl
  have hd : (((compileF [] (recProg (.lit (.int 1))) []).bind fun image => (FVM.load image (fun _ => none) () 0).bind fun (m, K) =>
    match FVM.run demoFloat demoPrims demoQ image K 1000 m with
    | .stop m e => some (m.vm.out, e)
    | .next _ => none) = some ([50, 52, 10], .halt)) := by decide +kernel
  refine ⟨1000, ?_⟩
  rw [executeF, buildF, h3]; dsimp only; rw [h4]; dsimp only
  cases hc : compileF [] (recProg (.lit (.int 1))) [] with
  | none => rw [hc] at hd; simp at hd
  | some image =>
    rw [hc] at hd
    simp only [Option.bind_some] at hd
    dsimp only
    cases hl : FVM.load image (fun _ => none) () 0 with
    | none => rw [hl] at hd; simp at hd
    | some p =>
      obtain ⟨m, K⟩ := p
      rw [hl] at hd
      simp only [Option.bind_some] at hd
      dsimp only
      cases hr : FVM.run demoFloat demoPrims demoQ image K 1000 m with
      | next m => rw [hr] at hd; simp at hd
      | stop m e =>
        rw [hr] at hd
        simp only [Option.some.injEq, Prod.mk.injEq] at hd
        obtain ⟨h5, rfl⟩ := hd
        exact ⟨m, rfl, h5⟩

end Yasl
