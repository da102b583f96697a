import Verif.Proofs.ParsePlain
import Verif.Props.Lexer
set_option autoImplicit false
/-!
# C85–C92 — what texts are programs, and what they stand for

`parseSource cfg src` is what `compile` does with the text `src` before code is generated (`none`: it does not return).  The grammar is `Verif.Spec.Grammar`,
the items of a text are `Verif.Spec.Reads`; for a text without `#` they are its tokens one after the other (`tokensOf`).
-/
namespace Yasl

/-- Trees as written, without constant folding (the values of float literals do not matter in the examples). -/
def asWritten : ParseCfg := ⟨fun _ => 0, some⟩

section
variable {flt : List Byte → BitVec 64} {fold : Node → Option Node}

/-- From a level to all looser ones. -/
theorem Gram.down {ts : List TextItem} {e : Node} {k j : Nat} (h : Gram flt fold (.bin k) ts e) (hj : j ≤ k) (hk : k ≤ 12) : Gram flt fold (.bin j) ts e := by
  obtain ⟨d, rfl⟩ := Nat.exists_eq_add_of_le hj
  induction d with
  | zero => exact h
  | succ d ih => exact ih (.binUp (by omega) h) (by omega) (by omega)

theorem Gram.unaryTo {ts : List TextItem} {e : Node} (h : Gram flt fold .unary ts e) (j : Nat) (hj : j ≤ 12) : Gram flt fold (.bin j) ts e :=
  (Gram.binUnary h).down hj le_rfl

theorem Gram.postTo {ts : List TextItem} {e : Node} (h : Gram flt fold .post ts e) : Gram flt fold .unary ts e := .unaryOne (.powerOne h)

theorem Gram.atomTo {ts : List TextItem} {e : Node} (h : Gram flt fold .atom ts e) : Gram flt fold .unary ts e := Gram.postTo (.postOne h)

/-- An expression without folding. -/
theorem Gram.toExpr {ts : List TextItem} {e : Node} (h : Gram flt some (.bin 0) ts e) : Gram flt some .expr ts e := .expr (.ternOne h) rfl
end

/-! ## C86: the language -/

/-- C86: a text is accepted as the program `ss` if and only if its items can be derived from the grammar as `ss` (`cfg.fold`: with every expression folded). -/
theorem C86_grammar (cfg : ParseCfg) (src : List Byte) (ss : List Node) :
    parseSource cfg src = some (.accepted ss) ↔ ∃ ts, TextItems src ts ∧ Gram cfg.strtod cfg.fold .stmts ts ss := parseSource_iff src ss

/-- C86: a text without `#` is accepted as the program `ss` if and only if there is no error in its tokens, and they can be derived from the grammar as `ss`. -/
theorem C86_plain_text (cfg : ParseCfg) (src : List Byte) (hs : ch '#' ∉ src) (ss : List Node) :
    parseSource cfg src = some (.accepted ss) ↔ (tokensOf src).2.type = .eof ∧ Gram cfg.strtod cfg.fold .stmts (tokensOf src).1 ss := by
  rw [C86_grammar]
  constructor
  · rintro ⟨ts, h1, h2⟩
    obtain ⟨rfl, h3⟩ := (textItems_plain hs (FirstPlain.gram h2)).1 h1
    exact ⟨h3, h2⟩
  · rintro ⟨h1, h2⟩
    exact ⟨_, (textItems_plain hs (FirstPlain.gram h2)).2 ⟨rfl, h1⟩, h2⟩

theorem readTokens_stop (g : Nat → Lex) (hg : ∀ k, g (k + 1) = gettok (g k)) (k : Nat) (hu : (g k).type = .unknown) (hb : ∀ i < k, (g i).type ≠ .eof) :
    ∀ (n j : Nat), j ≤ k → (readTokens n (g j)).2.type ≠ .eof := by
  intro n
  induction n with
  | zero =>
    intro j hj
    unfold readTokens
    rcases Nat.lt_or_eq_of_le hj with h | rfl
    · exact hb j h
    · dsimp only; rw [hu]; decide
  | succ n ih =>
    intro j hj
    unfold readTokens
    rcases Nat.lt_or_eq_of_le hj with h | rfl
    · by_cases h1 : (g j).type = .unknown
      · rw [if_pos (.inl h1)]; dsimp only; rw [h1]; decide
      · rw [if_neg (by simp [h1, hb j h])]
        dsimp only
        rw [← hg]
        exact ih (j + 1) (by omega)
    · rw [if_pos (.inl hu)]; dsimp only; rw [hu]; decide

/-- C86: a text without `#` in which a token is in error is never accepted, wherever the token is. -/
theorem C86_bad_token (cfg : ParseCfg) (src : List Byte) (hs : ch '#' ∉ src) (n : Nat) (hn : (lexNth src (n + 1)).type = .unknown)
    (hb : ∀ i < n, (lexNth src (i + 1)).type ≠ .eof) (ss : List Node) : parseSource cfg src ≠ some (.accepted ss) := by
  intro h
  have h1 := ((C86_plain_text cfg src hs ss).1 h).1
  exact readTokens_stop (fun k => lexNth src (k + 1)) (fun _ => rfl) n hn hb _ 0 (by omega) h1

/-- a program, its tokens and its tree -/
def demoText : List Byte := word "let x = 2 + y * 3\nif x < 7 { echo -x ** 2; }\n"

theorem demoText_tokens : (tokensOf demoText).1 = [.op .let_, .word .id (word "x"), .op .eq, .word .int (word "2"), .op .plus, .word .id (word "y"), .op .star,
      .word .int (word "3"), .sep .semi true, .op .if_, .word .id (word "x"), .op .lt, .word .int (word "7"), .op .lbrc, .op .echo, .op .minus, .word .id (word "x"),
      .op .dstar, .word .int (word "2"), .sep .semi false, .op .rbrc, .sep .semi true] ∧ (tokensOf demoText).2.type = .eof := by
  decide +kernel

def demoTree : List Node :=
  [.decl [.let_ (word "x") none] [.bin .plus (.int 2) (.bin .star (.var (word "y")) (.int 3))],
   .if_ (.bin .lt (.var (word "x")) (.int 7)) (.block [.echo (.un .minus (.bin .dstar (.var (word "x")) (.int 2)))]) none]

example : parseSource asWritten demoText = some (.accepted demoTree) := by
  rw [C86_plain_text asWritten demoText (by decide +kernel)]
  refine ⟨demoText_tokens.2, ?_⟩
  rw [demoText_tokens.1]
  have hv : ∀ (v : Name), Gram asWritten.strtod asWritten.fold .unary [.word .id v] (.var v) := fun v => Gram.var.atomTo
  have hi : ∀ (v : List Byte) (i : BitVec 64), getInt v = i → Gram asWritten.strtod asWritten.fold .unary [.word .int v] (.int i) := by
    rintro v i rfl; exact Gram.int.atomTo
  have e1 : Gram asWritten.strtod asWritten.fold .expr [.word .int (word "2"), .op .plus, .word .id (word "y"), .op .star, .word .int (word "3")]
      (.bin .plus (.int 2) (.bin .star (.var (word "y")) (.int 3))) := by
    refine Gram.toExpr (Gram.down (k := 10) ?_ (by omega) (by omega))
    exact Gram.binLeft (tl := [.word .int (word "2")]) ⟨_, rfl, by decide⟩ ((hi _ _ (by decide +kernel)).unaryTo 10 (by omega))
      (Gram.binLeft (tl := [.word .id (word "y")]) ⟨_, rfl, by decide⟩ ((hv _).unaryTo 11 (by omega)) ((hi _ _ (by decide +kernel)).unaryTo 12 (by omega)))
  have e2 : Gram asWritten.strtod asWritten.fold .expr [.word .id (word "x"), .op .lt, .word .int (word "7")] (.bin .lt (.var (word "x")) (.int 7)) :=
    Gram.toExpr (Gram.down (k := 4) (Gram.binLeft (tl := [.word .id (word "x")]) ⟨_, rfl, by decide⟩ ((hv _).unaryTo 4 (by omega)) ((hi _ _ (by decide +kernel)).unaryTo 5 (by omega)))
      (by omega) (by omega))
  have e3 : Gram asWritten.strtod asWritten.fold .expr [.op .minus, .word .id (word "x"), .op .dstar, .word .int (word "2")]
      (.un .minus (.bin .dstar (.var (word "x")) (.int 2))) :=
    Gram.toExpr (Gram.unaryTo (.unary (by decide) (.unaryOne (.power (tl := [.word .id (word "x")]) (.postOne .var) (hi _ _ (by decide +kernel))))) 0 (by omega))
  exact .stmts (ts := [.op .let_, .word .id (word "x"), .op .eq, .word .int (word "2"), .op .plus, .word .id (word "y"), .op .star, .word .int (word "3")])
    (.declLet (tl := []) (tm := []) .lvalsEnd e1 .moreEnd (by simp))
    (.stmts (ts := [.op .if_, .word .id (word "x"), .op .lt, .word .int (word "7"), .op .lbrc, .op .echo, .op .minus, .word .id (word "x"),
      .op .dstar, .word .int (word "2"), .sep .semi false, .op .rbrc])
      (.if_ (.ifEnd (tc := [.word .id (word "x"), .op .lt, .word .int (word "7")]) e2
        (.body (ts := [.op .echo, .op .minus, .word .id (word "x"), .op .dstar, .word .int (word "2"), .sep .semi false])
          (.stmts (ts := [.op .echo, .op .minus, .word .id (word "x"), .op .dstar, .word .int (word "2")]) (.echo e3) .stmtsEnd)))) .stmtsEnd)

/-! ## C87: no ambiguity -/

/-- C87: a text has at most one meaning: whatever way its items are split off and derived from the grammar, the tree is the same. -/
theorem C87_unambiguous (flt : List Byte → BitVec 64) (fold : Node → Option Node) (src : List Byte) (ts ts' : List TextItem) (ss ss' : List Node) (h : TextItems src ts)
    (h' : TextItems src ts') (hg : Gram flt fold .stmts ts ss) (hg' : Gram flt fold .stmts ts' ss') : ss = ss' := by
  have h1 := (C86_grammar ⟨flt, fold⟩ src ss).2 ⟨ts, h, hg⟩
  have h2 := (C86_grammar ⟨flt, fold⟩ src ss').2 ⟨ts', h', hg'⟩
  rw [h1] at h2
  simpa using h2

/-! ## C88: precedence and associativity -/

/-- `a o1 b o2 c` is read as `a o1 (b o2 c)`: `o2` binds tighter, or both are of one level that associates to the right. -/
def GroupsRight (k1 : Nat) (a1 : Assoc) (k2 : Nat) : Prop := k1 < k2 ∨ (k1 = k2 ∧ a1 = .right)

instance (k1 : Nat) (a1 : Assoc) (k2 : Nat) : Decidable (GroupsRight k1 a1 k2) := by unfold GroupsRight; infer_instance

/-- A statement, alone in a text. -/
theorem parse_one {cfg : ParseCfg} {src : List Byte} {ts : List TextItem} {n : Node} {nl : Bool} (h : TextItems src (ts ++ [.sep .semi nl]))
    (hg : Gram cfg.strtod cfg.fold .stmt ts n) : parseSource cfg src = some (.accepted [n]) :=
  (C86_grammar cfg src [n]).2 ⟨_, h, .stmts hg .stmtsEnd⟩

/-- C88: for any two binary operators of the table `operatorLevels` and any operands (variables, literals, calls, parentheses, unary operators, ...), the text
`echo A o1 B o2 C` is the program that groups as the levels say. -/
theorem C88_precedence (flt : List Byte → BitVec 64) (src : List Byte) (A B C : List TextItem) (a b c : Node) (hA : Gram flt some .unary A a) (hB : Gram flt some .unary B b)
    (hC : Gram flt some .unary C c) (k1 k2 : Nat) (a1 a2 : Assoc) (o1 o2 : Tok) (h1 : OpAt k1 a1 o1) (h2 : OpAt k2 a2 o2) (nl : Bool)
    (hs : TextItems src (.op .echo :: (A ++ .op o1 :: (B ++ .op o2 :: (C ++ [.sep .semi nl]))))) :
    parseSource ⟨flt, some⟩ src = some (.accepted [.echo (if GroupsRight k1 a1 k2 then .bin o1 a (.bin o2 b c) else .bin o2 (.bin o1 a b) c)]) := by
  have l1 := (opAt_free h1).1
  have l2 := (opAt_free h2).1
  have hu : ∀ {T : List TextItem} {t : Node}, Gram flt some .unary T t → ∀ j, j ≤ 12 → Gram flt some (.bin j) T t := fun h j hj => h.unaryTo j hj
  have mk : ∀ {k : Nat} {as : Assoc} {o : Tok} {L R : List TextItem} {l r : Node}, OpAt k as o → Gram flt some (.bin (if as = .left then k else k + 1)) L l →
      Gram flt some (.bin (if as = .left then k + 1 else k)) R r → Gram flt some (.bin k) (L ++ .op o :: R) (.bin o l r) := by
    intro k as o L R l r ho hl hr
    cases as with
    | left => exact .binLeft ho hl hr
    | right => exact .binRight ho hl hr
  refine parse_one (ts := .op .echo :: (A ++ .op o1 :: (B ++ .op o2 :: C))) (nl := nl) (by simpa using hs) (.echo (Gram.toExpr ?_))
  split
  · rename_i hg
    refine (mk h1 (hu hA _ (by split <;> omega)) ?_).down (by omega) (by omega)
    have hin := mk h2 (hu hB (if a2 = .left then k2 else k2 + 1) (by split <;> omega)) (hu hC (if a2 = .left then k2 + 1 else k2) (by split <;> omega))
    refine hin.down ?_ (by omega)
    rcases hg with hg | ⟨rfl, rfl⟩
    · split <;> omega
    · simp
  · rename_i hg
    have hin := mk h1 (hu hA (if a1 = .left then k1 else k1 + 1) (by split <;> omega)) (hu hB (if a1 = .left then k1 + 1 else k1) (by split <;> omega))
    have hle : k2 ≤ k1 ∧ (k1 = k2 → a1 = .left) := by
      unfold GroupsRight at hg
      push Not at hg
      exact ⟨hg.1, fun e => by have := hg.2 e; cases a1 <;> simp_all⟩
    have ha2 : k1 = k2 → a2 = .left := by
      intro e
      obtain ⟨t1, e1, -⟩ := h1
      obtain ⟨t2, e2, -⟩ := h2
      rw [e, e2] at e1
      simp only [Option.some.injEq, Prod.mk.injEq] at e1
      rw [e1.1]; exact hle.2 e
    have := mk h2 (hin.down (j := if a2 = .left then k2 else k2 + 1) (by
      split
      · exact hle.1
      · rename_i h3
        have : k1 ≠ k2 := fun e => h3 (ha2 e)
        omega) (by omega)) (hu hC _ (by split <;> omega))
    have := this.down (j := 0) (by omega) (by omega)
    simpa using this

/-- C88: `**` binds tighter than a unary operator on its left and looser than one on its right, and associates to the right:
`u a ** b` is `u (a ** b)` for any `b` with unary operators and `**`. -/
theorem C88_power (flt : List Byte → BitVec 64) (src : List Byte) (A B : List TextItem) (a b : Node) (u : Tok) (hu : u ∈ unaryOps) (hA : Gram flt some .post A a)
    (hB : Gram flt some .unary B b) (nl : Bool) (hs : TextItems src (.op .echo :: .op u :: (A ++ .op .dstar :: (B ++ [.sep .semi nl])))) :
    parseSource ⟨flt, some⟩ src = some (.accepted [.echo (.un u (.bin .dstar a b))]) :=
  parse_one (ts := .op .echo :: .op u :: (A ++ .op .dstar :: B)) (nl := nl) (by simpa using hs)
    (.echo (Gram.toExpr (Gram.unaryTo (.unary hu (.unaryOne (.power hA hB))) 0 (by omega))))

/-- C88: `? :` is looser than all binary operators and associates to the right. -/
theorem C88_conditional (flt : List Byte → BitVec 64) (src : List Byte) (A B C D E : List TextItem) (a b c d e : Node) (hA : Gram flt some (.bin 0) A a)
    (hB : Gram flt some (.bin 0) B b) (hC : Gram flt some (.bin 0) C c) (hD : Gram flt some (.bin 0) D d) (hE : Gram flt some (.bin 0) E e) (nl : Bool)
    (hs : TextItems src (.op .echo :: (A ++ .op .qmark :: (B ++ .op .colon :: (C ++ .op .qmark :: (D ++ .op .colon :: (E ++ [.sep .semi nl]))))))) :
    parseSource ⟨flt, some⟩ src = some (.accepted [.echo (.tri a b (.tri c d e))]) :=
  parse_one (ts := .op .echo :: (A ++ .op .qmark :: (B ++ .op .colon :: (C ++ .op .qmark :: (D ++ .op .colon :: E))))) (nl := nl) (by simpa using hs)
    (.echo (.expr (.tern hA (.ternOne hB) (.tern hC (.ternOne hD) (.ternOne hE))) rfl))

theorem var_unary (flt : List Byte → BitVec 64) (v : Name) : Gram flt some .unary [.word .id v] (.var v) := Gram.var.atomTo

/-- `a ~ b - c` and `a - b ~ c`, `a - b - c`, `a ~ b ~ c` -/
example : parseSource ⟨fun _ => 0, some⟩ (word "echo a ~ b - c;") =
      some (.accepted [.echo (.bin .tilde (.var (word "a")) (.bin .minus (.var (word "b")) (.var (word "c"))))]) ∧
    parseSource ⟨fun _ => 0, some⟩ (word "echo a - b ~ c;") =
      some (.accepted [.echo (.bin .tilde (.bin .minus (.var (word "a")) (.var (word "b"))) (.var (word "c")))]) ∧
    parseSource ⟨fun _ => 0, some⟩ (word "echo a - b - c;") =
      some (.accepted [.echo (.bin .minus (.bin .minus (.var (word "a")) (.var (word "b"))) (.var (word "c")))]) ∧
    parseSource ⟨fun _ => 0, some⟩ (word "echo a ~ b ~ c;") =
      some (.accepted [.echo (.bin .tilde (.var (word "a")) (.bin .tilde (.var (word "b")) (.var (word "c"))))]) := by
  have t : OpAt 5 .right .tilde := ⟨_, rfl, by decide⟩
  have m : OpAt 10 .left .minus := ⟨_, rfl, by decide⟩
  have key := fun (src : List Byte) (k1 k2 : Nat) (a1 a2 : Assoc) (o1 o2 : Tok) (h1 : OpAt k1 a1 o1) (h2 : OpAt k2 a2 o2)
    (hs : TextItems src [.op .echo, .word .id (word "a"), .op o1, .word .id (word "b"), .op o2, .word .id (word "c"), .sep .semi false]) =>
    C88_precedence (fun _ => 0) src _ _ _ _ _ _ (var_unary _ (word "a")) (var_unary _ (word "b")) (var_unary _ (word "c")) k1 k2 a1 a2 o1 o2 h1 h2 false hs
  have it : ∀ (src : List Byte) (ts : List TextItem), (tokensOf src).1 = ts ∧ (tokensOf src).2.type = .eof → TextItems src ts := by
    rintro src ts ⟨rfl, h⟩; exact ⟨_, reads_readTokens _ _, h⟩
  exact ⟨key _ _ _ _ _ _ _ t m (it _ _ (by decide +kernel)), key _ _ _ _ _ _ _ m t (it _ _ (by decide +kernel)),
    key _ _ _ _ _ _ _ m m (it _ _ (by decide +kernel)), key _ _ _ _ _ _ _ t t (it _ _ (by decide +kernel))⟩

end Yasl
