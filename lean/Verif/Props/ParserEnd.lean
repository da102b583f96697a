import Verif.Props.Parser
set_option autoImplicit false
/-!
# C85 — reading a text comes to an end

`parseSource cfg src` is `none` if `compile` does not return at all and `some .hang` if it is caught in a loop that reads on past the end of the text.
-/
namespace Yasl

section
variable {E : Lex} {cfg : ParseCfg} {s : PSt} {α β : Type} {us : List TextItem} {w : Stop}

theorem Goes.then {m : P α} {f : α → P β} {a : α} (h : Goes E m s a us) (hf : ∀ s', Ready E s' us → f a s' = some (.stop w)) : (m >>= f) s = some (.stop w) := by
  obtain ⟨s', h1, h2⟩ := h
  rw [P.bind_eq]; unfold P.bind; rw [h1]; exact hf s' h2

theorem Goes.eatThen {t : Tok} {f : Unit → P β} (h : Ready E s (.op t :: us)) (hf : ∀ s', Ready E s' us → f () s' = some (.stop w)) :
    (eattok t >>= f) s = some (.stop w) := by
  obtain ⟨-, h2, h3, h4⟩ := h.cons rfl
  exact Goes.then ⟨_, eattok_goes h2, h4⟩ hf

theorem curtok_bind {f : Tok → P β} : (curtok >>= f) s = f s.lex.type s := rfl

theorem stop_bind {m : P α} {f : α → P β} (h : m s = some (.stop w)) : (m >>= f) s = some (.stop w) := by
  rw [P.bind_eq]; unfold P.bind; rw [h]

/-- Where a `match` meets a string with interpolation as a pattern, and the text has no `"` any more. -/
theorem pattern_hangs (ht : s.lex.type = .str) (hi : s.lex.interp = true) (hc : s.lex.c ≠ some (ch '"')) (hr : ch '"' ∉ s.lex.rest) :
    parsePattern cfg s = some (.stop .hang) := by
  rw [parsePattern]
  refine stop_bind ?_
  rw [parsePatternSingle]
  show (match s.lex.type with | .star => _ | .undef => _ | .let_ => _ | .const => _ | .lbrc => _ | .lsqb => _ | .lpar => _ | _ => parsePrimitivePattern cfg) s = _
  rw [ht]
  show parsePrimitivePattern cfg s = _
  unfold parsePrimitivePattern
  show (match s.lex.type with | .int => _ | .float => _ | .bool => _ | .minus => _ | .str => _ | .dot => _ | .id => _ | _ => handleError) s = _
  rw [ht]
  show (if s.lex.interp = true then (if s.lex.c = some (ch '"') ∨ ch '"' ∈ s.lex.rest then handleError else parseHang) else _) s = _
  rw [if_pos hi, if_neg (by simp [hc, hr])]
  rfl
end

/-- C85: `match e { "v#` where no `"` follows: `compile` never returns (finding: the loop `while (lex.c != '"') lex_getchar(lex)` does not look for the end of the text). -/
theorem C85_match_hangs (cfg : ParseCfg) (src : List Byte) (te : List TextItem) (e : Node) (l : Lex) (hg : Gram cfg.strtod cfg.fold .expr te e)
    (hr : Reads (gettok (Lex.new src)) (.op .match_ :: (te ++ [.op .lbrc])) l) (ht : l.type = .str) (hi : l.interp = true) (hc : l.c ≠ some (ch '"'))
    (hq : ch '"' ∉ l.rest) : parseSource cfg src = some .hang := by
  have hk : (gettok (Lex.new src)).type ≠ .unknown := hr.known (by rw [ht]; decide)
  have hR : Ready l ⟨gettok (Lex.new src), false⟩ (.op .match_ :: (te ++ [.op .lbrc])) :=
    ⟨rfl, ((gettok_scan (Lex.new src) (Lex.new src) rfl rfl).err hk).trans rfl, gettok_good _, hr, by rw [ht]; decide⟩
  have : parseAll cfg [] ⟨gettok (Lex.new src), false⟩ = some (.stop .hang) := by
    rw [parseAll]
    show (if (gettok (Lex.new src)).type ≠ .eof then _ else _ : P (Option (List Node))) _ = _
    rw [if_pos (by rw [hR.op]; decide)]
    refine stop_bind ?_
    rw [program_at hR.op]
    simp only [programAt]
    rw [parseMatch]
    refine Goes.eatThen hR fun s1 h1 => Goes.then (gram_goes hg s1 _ h1 (by decide : ExprEnd .lbrc)) fun s2 h2 => Goes.eatThen h2 fun s3 h3 => stop_bind ?_
    obtain ⟨e1, e2, e3, e4, e5⟩ : SameScan s3.lex l := by cases h3.reads; assumption
    rw [parseClauses]
    show (if s3.lex.type ≠ .rbrc ∧ s3.lex.type ≠ .eof then _ else _ : P Node) _ = _
    rw [if_pos (by rw [e3, ht]; decide)]
    exact stop_bind (pattern_hangs (by rw [e3, ht]) (by rw [e5, hi]) (by rw [e2]; exact hc) (by rw [e1]; exact hq))
  unfold parseSource
  rw [this]

theorem demo_hang : parseSource asWritten (word "match x { \"a#{y}b") = some .hang := by
  refine C85_match_hangs _ _ [.word .id (word "x")] (.var (word "x")) (readTokens 3 (gettok (Lex.new (word "match x { \"a#{y}b")))).2
    (Gram.toExpr (Gram.unaryTo Gram.var.atomTo 0 (by omega))) ?_ (by decide +kernel) (by decide +kernel) (by decide +kernel) (by decide +kernel)
  have h : (readTokens 3 (gettok (Lex.new (word "match x { \"a#{y}b")))).1 = (.op .match_ :: ([.word .id (word "x")] ++ [.op .lbrc])) := by decide +kernel
  rw [← h]
  exact reads_readTokens _ _

/-- C85: that every text is read to an end is false. -/
theorem C85_false : ¬ ∀ (cfg : ParseCfg) (src : List Byte), ∃ r, parseSource cfg src = some r ∧ r ≠ .hang := by
  intro h
  obtain ⟨r, h1, h2⟩ := h asWritten (word "match x { \"a#{y}b")
  rw [demo_hang] at h1
  simp only [Option.some.injEq] at h1
  exact h2 h1.symm

/-- C85 (partial): every text is read to an end, except possibly texts that contain both `#` and `match`.  Missing: see `C85_match_hangs`. -/
theorem C85_terminates_partial (cfg : ParseCfg) (src : List Byte) : ∃ r, parseSource cfg src = some r ∧ (r = .hang → ch '#' ∈ src ∧ word "match" <:+: src) :=
  (parseSource_ends src).imp fun _ h => ⟨h.1, h.2.1⟩

example : ∃ r, parseSource asWritten (word "x = = }{ [ \"# fn match") = some r := (C85_terminates_partial _ _).imp fun _ h => h.1

/-! ## C92: reading a text accesses no memory it must not -/

section
variable {cfg : ParseCfg} {s : PSt} {w : Stop}

theorem bin_stop (h : parseUnary cfg s = some (.stop w)) : ∀ d k, k + d = 12 → parseBin cfg k s = some (.stop w) := by
  intro d
  induction d with
  | zero =>
    intro k hk
    rw [parseBin, if_neg (by omega)]
    exact h
  | succ d ih =>
    intro k hk
    rw [parseBin, if_pos (by omega)]
    exact stop_bind (ih (k + 1) (by omega))

theorem expr_stop (hu : s.lex.type ∉ unaryOps) (h : parseCall cfg s = some (.stop w)) : parseExpr cfg s = some (.stop w) := by
  rw [parseExpr]
  refine stop_bind ?_
  rw [parseTernary]
  refine stop_bind (bin_stop ?_ 12 0 rfl)
  rw [parseUnary]
  show (if s.lex.type = .plus ∨ s.lex.type = .minus ∨ s.lex.type = .bang ∨ s.lex.type = .caret ∨ s.lex.type = .len then _ else parsePower cfg) s = _
  rw [if_neg (by simpa [unaryOps] using hu), parsePower]
  exact stop_bind h
end

/-- C92: a text that starts with `echo x.(F(A))`, where `A` are fewer than two arguments, is undefined (finding: `children[0]` and `children[1]` of the arguments are
read to make an assignment of it). -/
theorem C92_dot_call_ub (cfg : ParseCfg) (src : List Byte) (x : Name) (tm : List TextItem) (f : Node) (as : List Node) (l : Lex)
    (hm : Gram cfg.strtod cfg.fold .atom tm (.call f as)) (has : as.length < 2)
    (hr : Reads (gettok (Lex.new src)) (.op .echo :: .word .id x :: .op .dot :: tm) l) (hl : l.type ≠ .unknown) : parseSource cfg src = some .ub := by
  have hk : (gettok (Lex.new src)).type ≠ .unknown := hr.known hl
  have hR : Ready l ⟨gettok (Lex.new src), false⟩ (.op .echo :: .word .id x :: .op .dot :: tm) :=
    ⟨rfl, ((gettok_scan (Lex.new src) (Lex.new src) rfl rfl).err hk).trans rfl, gettok_good _, hr, hl⟩
  have : parseAll cfg [] ⟨gettok (Lex.new src), false⟩ = some (.stop .ub) := by
    rw [parseAll]
    show (if (gettok (Lex.new src)).type ≠ .eof then _ else _ : P (Option (List Node))) _ = _
    rw [if_pos (by rw [hR.op]; decide)]
    refine stop_bind ?_
    rw [program_at hR.op]
    simp only [programAt]
    refine Goes.eatThen hR fun s1 h1 => stop_bind (expr_stop (by rw [h1.word]; decide) ?_)
    rw [parseCall]
    refine Goes.then (gram_goes Gram.var s1 (.op .dot :: tm) h1) fun s2 h2 => ?_
    rw [parseCallLoop]
    rw [curtok_bind, h2.op]
    refine Goes.eatThen h2 fun s3 h3 => Goes.then (gram_goes hm s3 [] (by simpa using h3)) fun s4 h4 => ?_
    match as, has with
    | [], _ => rfl
    | [_], _ => rfl
  unfold parseSource
  rw [this]

theorem demo_ub : parseSource asWritten (word "echo x.(f(1));") = some .ub := by
  refine C92_dot_call_ub _ _ (word "x") [.op .lpar, .word .id (word "f"), .op .lpar, .word .int (word "1"), .op .rpar, .op .rpar] (.var (word "f")) [.int 1]
    (readTokens 9 (gettok (Lex.new (word "echo x.(f(1));")))).2 ?_ (by simp) ?_ (by decide +kernel)
  · refine .paren (ts := [.word .id (word "f"), .op .lpar, .word .int (word "1"), .op .rpar]) (Gram.toExpr (Gram.unaryTo (Gram.postTo ?_) 0 (by omega)))
    refine .call (tf := [.word .id (word "f")]) (ta := [.word .int (word "1")]) (as := [.int 1]) (.postOne .var) (.argsLast (Gram.toExpr (Gram.unaryTo ?_ 0 (by omega))))
    have : getInt (word "1") = 1 := by decide +kernel
    exact this ▸ Gram.int.atomTo
  · have h : (readTokens 9 (gettok (Lex.new (word "echo x.(f(1));")))).1 = [.op .echo, .word .id (word "x"), .op .dot, .op .lpar, .word .id (word "f"), .op .lpar,
      .word .int (word "1"), .op .rpar, .op .rpar] := by decide +kernel
    rw [← h]
    exact reads_readTokens _ _

/-- C92: that reading a text is always defined is false, even when folding is. -/
theorem C92_false : ¬ ∀ (cfg : ParseCfg) (src : List Byte), (∀ e, cfg.fold e ≠ none) → parseSource cfg src ≠ some .ub := by
  intro h
  exact h asWritten _ (by simp [asWritten]) demo_ub

/-- C92 (partial): where folding is defined, reading a text without `.` is.  Missing: see `C92_dot_call_ub`. -/
theorem C92_defined_partial (cfg : ParseCfg) (src : List Byte) (hf : ∀ e, cfg.fold e ≠ none) (hd : ch '.' ∉ src) : parseSource cfg src ≠ some .ub := by
  obtain ⟨r, h1, -, h2⟩ := parseSource_ends (cfg := cfg) src
  rw [h1]
  rintro ⟨⟩
  rcases h2 rfl with h | ⟨e, h⟩
  · exact hd h
  · exact hf e h

example : parseSource asWritten (word "echo x[f(1)] + \"a#{") ≠ some .ub := C92_defined_partial _ _ (by simp [asWritten]) (by decide +kernel)

end Yasl
