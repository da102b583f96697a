import Verif.Proofs.WorldSem
import Verif.Props.FEndToEnd
set_option autoImplicit false
/-!
# C107 — programs with lists, tables and methods run as with sequences and maps

All of `YASL_execute` (`executeF`), with the operations of the machine on lists, tables and strings in memory (`World.prims`, `World.calls`), against the meaning
of the program where lists are sequences and tables are maps (`Verif.Spec.World`).
-/
namespace Yasl

/-- Nothing declared, no objects, nothing printed: where a program starts. -/
def AWorld.start : Sh AWorld := ⟨[], fun _ => none, ⟨[]⟩, [], fun _ => none, 0⟩

/-- C107: suppose the text `src` is, by the grammar, the program `prog`, and `YASL_compile` makes bytecode of it.  Then `YASL_execute` does with real lists, tables and
strings what `prog` means with sequences and maps, unless a limit is reached at run time: it prints the same and ends as `prog` ends, with the same error if there is
one, and does not end if `prog` does not end.  Nothing is claimed where the meaning is `RtErr.other`, "not described".  `f` bounds the loops of the model and may be
any number of at least 2^33; `strtod` is the function of the C library. -/
theorem C107_programs_with_data (flt : List Byte → BitVec 64) (F : FloatOps) (strtod : List Byte → BitVec 64) (f : Nat) (hf : 2 ^ 33 ≤ f) (lines src image : List Byte)
    (ts : List TextItem) (ss : List Node) (prog : FStmts) (ht : TextItems src ts) (hg : Gram flt some .stmts ts ss) (hp : fprogOf ss = some prog)
    (hb : buildF ⟨flt, foldNode F⟩ [] lines src = some (.image image)) (hlen : image.length < 2 ^ 63) (hs : SafeFSs F prog) (hF : FFitsTop [] prog) :
    ∃ label : Nat → Option Nat, (∀ i j a, label i = some a → label j = some a → i = j) ∧ ∀ (nextFp : Int) (n : Nat),
      (∃ k m' e, executeF ⟨flt, foldNode F⟩ F (World.prims f strtod) (World.calls f strtod) [] lines src (fun _ => none) ⟨[]⟩ nextFp k = some (.stopped m' e) ∧
        LimitStop m' e) ∨
      match fprog F AWorld.prims AWorld.calls label n prog AWorld.start with
      | (t, .ok ()) => ∃ k m', executeF ⟨flt, foldNode F⟩ F (World.prims f strtod) (World.calls f strtod) [] lines src (fun _ => none) ⟨[]⟩ nextFp k =
          some (.stopped m' .halt) ∧ m'.vm.out = t.out ∧ m'.vm.stack = t.statics.map Prod.snd
      | (_, .error (.err .other)) => True
      | (t, .error (.err e)) => ∃ k m', executeF ⟨flt, foldNode F⟩ F (World.prims f strtod) (World.calls f strtod) [] lines src (fun _ => none) ⟨[]⟩ nextFp k =
          some (.stopped m' e) ∧ m'.vm.out = t.out
      | (_, .error .timeout) => ∃ k m', n ≤ k ∧
          executeF ⟨flt, foldNode F⟩ F (World.prims f strtod) (World.calls f strtod) [] lines src (fun _ => none) ⟨[]⟩ nextFp k = some (.running m')
      | (_, .error .outside) => True := by
  obtain ⟨label, hinj, h⟩ := C106_runs_the_text flt F (World.prims f strtod) (prims_noEnd f strtod) (World.calls f strtod) (calls_noEnd f strtod) [] lines src image
    ts ss prog ht hg hp hb hlen hs hF (fun _ => none) (by simp) (by simp)
  refine ⟨label, hinj, fun nextFp n => ?_⟩
  rcases h ⟨[]⟩ nextFp n with h | h
  · exact .inl h
  right
  have hw : WSame (fprog F (World.prims f strtod) (World.calls f strtod) label n prog ⟨[], fun _ => none, ⟨[]⟩, [], fun _ => none, 0⟩)
      (fprog F AWorld.prims AWorld.calls label n prog AWorld.start) :=
    w_fprog (prims_sim hf strtod) (fun _ _ fn args r => calls_sim hf strtod r fn args) n prog _ _ ⟨rfl, rfl, rfl, rfl, rfl, WRep.empty⟩
  rcases h1 : fprog F (World.prims f strtod) (World.calls f strtod) label n prog ⟨[], fun _ => none, ⟨[]⟩, [], fun _ => none, 0⟩ with ⟨t, r⟩
  rcases h2 : fprog F AWorld.prims AWorld.calls label n prog AWorld.start with ⟨t', r'⟩
  rw [h1] at hw h
  rw [h2] at hw
  rcases hw with hw | ⟨hsh, hw⟩
  · dsimp only at hw; subst hw; trivial
  · dsimp only at hw hsh
    subst hw
    rcases r with (e | _ | _) | u
    · obtain ⟨k, m', e1, e2, -, -⟩ := h
      have : ∃ k m', executeF ⟨flt, foldNode F⟩ F (World.prims f strtod) (World.calls f strtod) [] lines src (fun _ => none) ⟨[]⟩ nextFp k = some (.stopped m' e) ∧
        m'.vm.out = t'.out := ⟨k, m', e1, e2.trans hsh.out⟩
      cases e <;> first | exact this | trivial
    · exact h
    · trivial
    · obtain ⟨k, m', e1, e2, -, -, e5⟩ := h
      exact ⟨k, m', e1, e2.trans hsh.out, by rw [e5, hsh.statics]⟩

/-- C107, the converse: whenever `YASL_execute` returns after running the program, and not because of a limit, the program has stopped in the same way, with the same
output (or is one about which nothing is said). -/
theorem C107_execute_stops (flt : List Byte → BitVec 64) (F : FloatOps) (strtod : List Byte → BitVec 64) (f : Nat) (hf : 2 ^ 33 ≤ f) (lines src image : List Byte)
    (ts : List TextItem) (ss : List Node) (prog : FStmts) (ht : TextItems src ts) (hg : Gram flt some .stmts ts ss) (hp : fprogOf ss = some prog)
    (hb : buildF ⟨flt, foldNode F⟩ [] lines src = some (.image image)) (hlen : image.length < 2 ^ 63) (hs : SafeFSs F prog) (hF : FFitsTop [] prog) :
    ∃ label : Nat → Option Nat, (∀ i j a, label i = some a → label j = some a → i = j) ∧ ∀ (nextFp : Int) (k : Nat) (m' : FVM World) (e : RtErr),
      executeF ⟨flt, foldNode F⟩ F (World.prims f strtod) (World.calls f strtod) [] lines src (fun _ => none) ⟨[]⟩ nextFp k = some (.stopped m' e) → ¬ LimitStop m' e →
      ∃ n t, (fprog F AWorld.prims AWorld.calls label n prog AWorld.start = (t, .error .outside)) ∨
        (fprog F AWorld.prims AWorld.calls label n prog AWorld.start = (t, .error (.err .other))) ∨
        ((fprog F AWorld.prims AWorld.calls label n prog AWorld.start = (t, .error (.err e)) ∨
          (e = .halt ∧ fprog F AWorld.prims AWorld.calls label n prog AWorld.start = (t, .ok ()))) ∧ m'.vm.out = t.out) := by
  obtain ⟨label, hinj, h⟩ := C106_execute_stops flt F (World.prims f strtod) (prims_noEnd f strtod) (World.calls f strtod) (calls_noEnd f strtod) [] lines src image
    ts ss prog ht hg hp hb hlen hs hF (fun _ => none) (by simp) (by simp)
  refine ⟨label, hinj, fun nextFp k m' e he hl => ?_⟩
  obtain ⟨n, t, h⟩ := h ⟨[]⟩ nextFp k m' e he hl
  have hw : WSame (fprog F (World.prims f strtod) (World.calls f strtod) label n prog ⟨[], fun _ => none, ⟨[]⟩, [], fun _ => none, 0⟩)
      (fprog F AWorld.prims AWorld.calls label n prog AWorld.start) :=
    w_fprog (prims_sim hf strtod) (fun _ _ fn args r => calls_sim hf strtod r fn args) n prog _ _ ⟨rfl, rfl, rfl, rfl, rfl, WRep.empty⟩
  rcases h2 : fprog F AWorld.prims AWorld.calls label n prog AWorld.start with ⟨t', r'⟩
  rw [h2] at hw
  refine ⟨n, t', ?_⟩
  rw [h2]
  rcases hw with hw | ⟨hsh, hw⟩
  · dsimp only at hw; subst hw; exact .inr (.inl rfl)
  · rcases h with h | ⟨h | ⟨he, h⟩, ho, -, -⟩
    · rw [h] at hw; dsimp only at hw; subst hw; exact .inl rfl
    · rw [h] at hw hsh; dsimp only at hw; subst hw; exact .inr (.inr ⟨.inl rfl, ho.trans hsh.out⟩)
    · rw [h] at hw hsh; dsimp only at hw; subst hw; exact .inr (.inr ⟨.inr ⟨he, rfl⟩, ho.trans hsh.out⟩)

/-- a program with a list, a method, an assignment to an element -/
def dataText : List Byte := word "let a = [3]\na->push(4)\na[0] = a[1] + 1\necho a\n"

theorem dataText_tokens : (tokensOf dataText).1 = [.op .let_, .word .id (word "a"), .op .eq, .op .lsqb, .word .int (word "3"), .op .rsqb, .sep .semi true,
      .word .id (word "a"), .op .rightArr, .word .id (word "push"), .op .lpar, .word .int (word "4"), .op .rpar, .sep .semi true,
      .word .id (word "a"), .op .lsqb, .word .int (word "0"), .op .rsqb, .op .eq, .word .id (word "a"), .op .lsqb, .word .int (word "1"), .op .rsqb, .op .plus,
      .word .int (word "1"), .sep .semi true, .op .echo, .word .id (word "a"), .sep .semi true] ∧ (tokensOf dataText).2.type = .eof := by decide +kernel

/-- Its tree. -/
def dataTree : List Node :=
  [.decl [.let_ (word "a") none] [.list [.int 3]], .exprStmt (.mcall (.var (word "a")) (word "push") [.int 4]),
   .set (.var (word "a")) (.int 0) (some (.bin .plus (.get (.var (word "a")) (.int 1)) (.int 1))), .echo (.var (word "a"))]

/-- The program. -/
def dataProg : FStmts := .of [
  .let_ (word "a") (.list (.of [.lit (.int 3)])), .expr (.mcall (.var (word "a")) (word "push") (.of [.lit (.int 4)])),
  .set (.var (word "a")) (.lit (.int 0)) (.bin (.op .add) (.get (.var (word "a")) (.lit (.int 1))) (.lit (.int 1))), .echo (.var (word "a"))]

theorem dataText_gram (flt : List Byte → BitVec 64) (fold : Node → Option Node) (h1 : ∀ i, fold (.int i) = some (.int i)) (h2 : fold (.list [.int 3]) = some (.list [.int 3]))
    (h3 : fold (.mcall (.var (word "a")) (word "push") [.int 4]) = some (.mcall (.var (word "a")) (word "push") [.int 4]))
    (h4 : fold (.get (.var (word "a")) (.int 0)) = some (.get (.var (word "a")) (.int 0)))
    (h5 : fold (.bin .plus (.get (.var (word "a")) (.int 1)) (.int 1)) = some (.bin .plus (.get (.var (word "a")) (.int 1)) (.int 1)))
    (h6 : fold (.var (word "a")) = some (.var (word "a"))) : ∃ ts, TextItems dataText ts ∧ Gram flt fold .stmts ts dataTree := by
  suffices h : Gram flt fold .stmts (tokensOf dataText).1 dataTree from
    ⟨_, (textItems_plain (by decide +kernel) (FirstPlain.gram h)).2 ⟨rfl, dataText_tokens.2⟩, h⟩
  rw [dataText_tokens.1]
  have hi : ∀ (v : List Byte) (i : BitVec 64), getInt v = i → Gram flt fold .unary [.word .int v] (.int i) := by
    rintro v i rfl; exact Gram.int.atomTo
  have i0 : getInt (word "0") = 0#64 := by decide +kernel
  have i1 : getInt (word "1") = 1#64 := by decide +kernel
  have i3 : getInt (word "3") = 3#64 := by decide +kernel
  have i4 : getInt (word "4") = 4#64 := by decide +kernel
  have hie : ∀ (v : List Byte) (i : BitVec 64), getInt v = i → Gram flt fold .expr [.word .int v] (.int i) := fun v i h =>
    .expr (.ternOne ((hi v i h).unaryTo 0 (by omega))) (h1 i)
  have hl : Gram flt fold .expr [.op .lsqb, .word .int (word "3"), .op .rsqb] (.list [.int 3]) :=
    .expr (.ternOne ((Gram.list (n1 := []) (tm := []) (n2 := []) (hie _ _ i3) (by simp [Newlines]) .moreEnd (by simp [Newlines])).atomTo.unaryTo 0 (by omega))) h2
  have hc : Gram flt fold .expr [.word .id (word "a"), .op .rightArr, .word .id (word "push"), .op .lpar, .word .int (word "4"), .op .rpar]
      (.mcall (.var (word "a")) (word "push") [.int 4]) :=
    .expr (.ternOne ((Gram.mcall («to» := [.word .id (word "a")]) (tm := [.word .id (word "push")]) (ta := [.word .int (word "4")]) (.postOne .var) .var
      (.argsLast (hie _ _ i4))).postTo.unaryTo 0 (by omega))) h3
  have hx : ∀ (v : List Byte) (i : BitVec 64), getInt v = i →
      Gram flt fold .post [.word .id (word "a"), .op .lsqb, .word .int v, .op .rsqb] (.get (.var (word "a")) (.int i)) := fun v i h =>
    Gram.index (tc := [.word .id (word "a")]) (tk := [.word .int v]) (.postOne .var) (hie _ _ h)
  have hg : Gram flt fold .expr [.word .id (word "a"), .op .lsqb, .word .int (word "0"), .op .rsqb] (.get (.var (word "a")) (.int 0)) :=
    .expr (.ternOne ((hx _ _ i0).postTo.unaryTo 0 (by omega))) h4
  have ha : Gram flt fold .expr [.word .id (word "a"), .op .lsqb, .word .int (word "1"), .op .rsqb, .op .plus, .word .int (word "1")]
      (.bin .plus (.get (.var (word "a")) (.int 1)) (.int 1)) :=
    .expr (.ternOne (Gram.down (k := 10) (Gram.binLeft (tl := [.word .id (word "a"), .op .lsqb, .word .int (word "1"), .op .rsqb]) ⟨_, rfl, by decide⟩
      ((hx _ _ i1).postTo.unaryTo 10 (by omega)) ((hi _ _ i1).unaryTo 11 (by omega))) (by omega) (by omega))) h5
  have hv : Gram flt fold .expr [.word .id (word "a")] (.var (word "a")) := .expr (.ternOne (Gram.var.atomTo.unaryTo 0 (by omega))) h6
  have s1 : Gram flt fold .stmt [.op .let_, .word .id (word "a"), .op .eq, .op .lsqb, .word .int (word "3"), .op .rsqb] (.decl [.let_ (word "a") none] [.list [.int 3]]) :=
    Gram.declLet (tl := []) (tr := [.op .lsqb, .word .int (word "3"), .op .rsqb]) (tm := []) .lvalsEnd hl .moreEnd (by simp)
  have s2 := Gram.simple (by simp) (by simp) (Gram.exprStmt hc)
  have s3 := Gram.simple (by simp) (by simp) (Gram.set hg ha)
  exact .stmts (nl := true) s1 (.stmts (nl := true) s2 (.stmts (nl := true) s3 (.stmts (nl := true) (.echo hv) .stmtsEnd)))

/-- the hypotheses of C107 are met by this text -/
theorem dataText_meets : (∃ ts, TextItems dataText ts ∧ Gram (fun _ => 0) some .stmts ts dataTree) ∧ fprogOf dataTree = some dataProg ∧ SafeFSs demoFloat dataProg ∧
    FFitsTop [] dataProg ∧ ∃ image, buildF ⟨fun _ => 0, foldNode demoFloat⟩ [] [] dataText = some (.image image) ∧ image.length < 2 ^ 63 := by
  refine ⟨dataText_gram _ some (fun _ => rfl) rfl rfl rfl rfl rfl, by rfl, ?_, ?_, ?_⟩
  · simp [dataProg, FStmts.of, FExprs.of, SafeFSs, SafeFS, SafeFE, SafeFEs]
  · simp [dataProg, FStmts.of, FExprs.of, FFitsTop, FFitsS, FFitsE, FFitsEs]
  · obtain ⟨ts, h1, h2⟩ := dataText_gram (fun _ => 0) (foldNode demoFloat) (fun _ => rfl) (by rfl) (by rfl) (by rfl) (by rfl) (by rfl)
    have h3 := (C86_grammar ⟨fun _ => 0, foldNode demoFloat⟩ dataText _).2 ⟨ts, h1, h2⟩
    have h4 : fprogOf dataTree = some dataProg := by rfl
    obtain ⟨image, h5⟩ := Option.isSome_iff_exists.1 (show (compileF [] dataProg []).isSome = true by decide +kernel)
    refine ⟨image, by rw [buildF, h3]; dsimp only; rw [h4]; dsimp only; rw [h5], ?_⟩
    have : (compileF [] dataProg []).map List.length = some image.length := by rw [h5]; rfl
    have h6 : ((compileF [] dataProg []).map List.length).all (· < 200) = true := by decide +kernel
    rw [this] at h6
    simp at h6
    omega

/-- What a program prints, by its meaning, with the error if there is one. -/
def meaningOf (n : Nat) (prog : FStmts) : List Byte × Except FErr Unit :=
  let r := fprog demoFloat AWorld.prims AWorld.calls (fun _ => none) n prog AWorld.start
  (r.1.out, r.2)

/-- it prints `[5, 4]` -/
example : meaningOf 9 dataProg = (ascii "[5, 4]\n", .ok ()) := by decide +kernel

/-- it prints `[5, 4]` -/
example : ∃ k m, executeF ⟨fun _ => 0, foldNode demoFloat⟩ demoFloat (World.prims (2 ^ 33) fun _ => 0) (World.calls (2 ^ 33) fun _ => 0) [] [] dataText (fun _ => none) ⟨[]⟩ 0 k =
    some (.stopped m .halt) ∧ m.vm.out = ascii "[5, 4]\n" := by
  obtain ⟨ts, h1, h2⟩ := dataText_gram (fun _ => 0) (foldNode demoFloat) (fun _ => rfl) (by rfl) (by rfl) (by rfl) (by rfl) (by rfl)
  have h3 := (C86_grammar ⟨fun _ => 0, foldNode demoFloat⟩ dataText _).2 ⟨ts, h1, h2⟩
  have h4 : fprogOf dataTree = some dataProg := by rfl
  have hd : (((compileF [] dataProg []).bind fun image => (FVM.load image (fun _ => none) (⟨[]⟩ : World) 0).bind fun (m, K) =>
    match FVM.run demoFloat (World.prims (2 ^ 33) fun _ => 0) (World.calls (2 ^ 33) fun _ => 0) image K 1000 m with
    | .stop m e => some (m.vm.out, e)
    | .next _ => none) = some (ascii "[5, 4]\n", .halt)) := by decide +kernel
  refine ⟨1000, ?_⟩
  rw [executeF, buildF, h3]; dsimp only; rw [h4]; dsimp only
  cases hc : compileF [] dataProg [] with
  | none => rw [hc] at hd; simp at hd
  | some image =>
    rw [hc] at hd
    simp only [Option.bind_some] at hd
    dsimp only
    cases hl : FVM.load image (fun _ => none) (⟨[]⟩ : World) 0 with
    | none => rw [hl] at hd; simp at hd
    | some p =>
      obtain ⟨m, K⟩ := p
      rw [hl] at hd
      simp only [Option.bind_some] at hd
      dsimp only
      cases hr : FVM.run demoFloat (World.prims (2 ^ 33) fun _ => 0) (World.calls (2 ^ 33) fun _ => 0) image K 1000 m with
      | next m => rw [hr] at hd; simp at hd
      | stop m e =>
        rw [hr] at hd
        simp only [Option.some.injEq, Prod.mk.injEq] at hd
        obtain ⟨h5, rfl⟩ := hd
        exact ⟨m, rfl, h5⟩

/-- `let t = {.k: [1, 2]}; fn sum(xs) { let s = 0; for x <- xs { s = s + x }; return s }; t.k->push(7); echo sum(t.k); echo t->len()`: a type error in the end, since
there is no such method -/
example : meaningOf 9 (.of [.let_ (word "t") (.table (.of [.lit (.str (word "k")), .list (.of [.lit (.int 1), .lit (.int 2)])])),
    .fnDecl (word "sum") 0 [word "xs"] (.of [.let_ (word "s") (.lit (.int 0)),
      .forIter (word "x") (.var (word "xs")) (.block (.of [.assign (word "s") (.bin (.op .add) (.var (word "s")) (.var (word "x")))])), .ret (.ctx true (.var (word "s")))]),
    .expr (.mcall (.get (.var (word "t")) (.lit (.str (word "k")))) (word "push") (.of [.lit (.int 7)])),
    .echo (.call (.var (word "sum")) (.of [.get (.var (word "t")) (.lit (.str (word "k")))])),
    .echo (.mcall (.var (word "t")) (word "len") .nil)]) = (ascii "10\n", .error (.err .type)) := by decide +kernel

/-- `let w = ' a b,c '->trim()->split(); echo w->join('+'); echo w[1]->split(','); …; echo 'a'->split('')`: methods of strings, and a value error in the end -/
example : meaningOf 9 (.of [
    .let_ (word "w") (.mcall (.mcall (.lit (.str (ascii " a b,c "))) (word "trim") .nil) (word "split") .nil),
    .echo (.mcall (.var (word "w")) (word "join") (.of [.lit (.str (ascii "+"))])),
    .echo (.mcall (.get (.var (word "w")) (.lit (.int 1))) (word "split") (.of [.lit (.str (ascii ","))])),
    .echo (.mcall (.lit (.str (ascii "xaaxa"))) (word "replace") (.of [.lit (.str (ascii "a")), .lit (.str (ascii "-"))])),
    .echo (.mcall (.lit (.str (ascii "aaa"))) (word "count") (.of [.lit (.str (ascii "aa"))])),
    .echo (.mcall (.lit (.str (ascii "--a-"))) (word "ltrim") (.of [.lit (.str (ascii "-"))])),
    .echo (.mcall (.lit (.str (ascii "--a-"))) (word "trim") (.of [.lit (.str (ascii "-"))])),
    .echo (.mcall (.lit (.str (ascii "a1"))) (word "isalnum") .nil),
    .echo (.mcall (.lit (.str (ascii "a"))) (word "split") (.of [.lit (.str [])]))]) =
    (ascii "a+b,c\n[b, c]\nx--x-\n1\na-\na\ntrue\n", .error (.err .value)) := by decide +kernel

/-- `let t = {.a: 1, .b: 2}; t.a = undef; echo len t; let u = t | {.b: 5, .c: 6}; u->remove('c'); echo u.b; echo u.c; echo len u; echo t == u; u.b = 2; echo t == u; echo t.b; t[[]] = 1`:
entries are removed, tables united and compared, and a type error in the end -/
example : meaningOf 9 (.of [
    .let_ (word "t") (.table (.of [.lit (.str (word "a")), .lit (.int 1), .lit (.str (word "b")), .lit (.int 2)])),
    .set (.var (word "t")) (.lit (.str (word "a"))) (.lit .undef),
    .echo (.un .len (.var (word "t"))),
    .let_ (word "u") (.bin (.op .bor) (.var (word "t")) (.table (.of [.lit (.str (word "b")), .lit (.int 5), .lit (.str (word "c")), .lit (.int 6)]))),
    .expr (.mcall (.var (word "u")) (word "remove") (.of [.lit (.str (word "c"))])),
    .echo (.get (.var (word "u")) (.lit (.str (word "b")))),
    .echo (.get (.var (word "u")) (.lit (.str (word "c")))),
    .echo (.un .len (.var (word "u"))),
    .echo (.bin (.op .eq) (.var (word "t")) (.var (word "u"))),
    .set (.var (word "u")) (.lit (.str (word "b"))) (.lit (.int 2)),
    .echo (.bin (.op .eq) (.var (word "t")) (.var (word "u"))),
    .echo (.get (.var (word "t")) (.lit (.str (word "b")))),
    .set (.var (word "t")) (.list (.of [])) (.lit (.int 1))]) =
    (ascii "1\n5\nundef\n1\nfalse\ntrue\n2\n", .error (.err .type)) := by decide +kernel

end Yasl
