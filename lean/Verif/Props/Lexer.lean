import Verif.Proofs.LexBlank
set_option autoImplicit false
/-!
# C78–C84 — reading a source text

`lexNth src n` is the lexer after reading `n` tokens of the source; `gettok` reads the next one.
-/
namespace Yasl

/-! ## C78: reading ends -/

/-- C78: every token takes at least one byte from the text, also after errors, unless the text is used up; nothing is read twice. -/
theorem C78_progress (l : Lex) : ∃ taken, l.rest = taken ++ (gettok l).rest ∧ ((gettok l).type ≠ .eof → taken ≠ []) ∧
    ((gettok l).type = .eof → (gettok l).rest = []) := by
  obtain ⟨⟨t, ht⟩, h2, -⟩ := gettok_ok l
  refine ⟨t, ht.symm, fun hn hte => ?_, fun he => ?_⟩
  · rcases h2 with ⟨h, -⟩ | ⟨-, h⟩
    · exact hn h
    · rw [hte, List.nil_append] at ht; rw [ht] at h; omega
  · rcases h2 with ⟨-, h⟩ | ⟨h, -⟩
    · exact h
    · exact absurd he h

/-- C78: for every source text of n bytes, the end is reached after at most n + 1 tokens, whatever errors there are. -/
theorem C78_terminates (src : List Byte) : ∃ n ≤ src.length + 1, (lexNth src n).type = .eof := by
  by_contra hc
  push Not at hc
  have key : ∀ n, n ≤ src.length + 1 → (lexNth src n).rest.length + n ≤ src.length := by
    intro n
    induction n with
    | zero => intro _; simp [lexNth, Lex.new]
    | succ n ih =>
      intro hn
      have := ih (by omega)
      obtain ⟨-, h2, -⟩ := gettok_ok (lexNth src n)
      rcases h2 with ⟨h, -⟩ | ⟨-, h⟩
      · exact absurd h (hc (n + 1) hn)
      · show (gettok (lexNth src n)).rest.length + (n + 1) ≤ _; omega
  have := key (src.length + 1) le_rfl
  omega

/-- a text with an error in the middle: the tokens after it are read -/
example : (lexNth (word "a @ 'b' /* c") 5).type = .eof ∧ (lexNth (word "a @ 'b' /* c") 3).seen = (.str, word "b", 1) ∧
    (lexNth (word "a @ 'b' /* c") 2).err = some .unknownChar := by decide +kernel

/-! ## C84: line numbers -/

/-- C84: as long as no token is in error, no float literal has taken a line end (`C80_exponent_swallows`) and the text has no `\x` before a line end
(`C79_hex_too_lenient`), the line of every token is one more than the number of line ends up to the end of the token.
Missing from the full property: the excluded texts, where the counts are too low. -/
theorem C84_lines_partial (src : List Byte) (hx : ¬ [ch '\\', ch 'x', ch '\n'] <:+: src) (n : Nat)
    (hok : ∀ i, 1 ≤ i → i ≤ n → (lexNth src i).type ≠ .unknown ∧ ((lexNth src i).type = .float → ch '\n' ∉ (lexNth src i).value)) :
    ∃ read, src = read ++ (lexNth src n).rest ∧ (lexNth src n).line = 1 + read.count (ch '\n') := by
  have key : (lexNth src n).rest <:+ src ∧ (lexNth src n).line + nls (lexNth src n).rest = 1 + nls src := by
    induction n with
    | zero => exact ⟨List.suffix_refl _, rfl⟩
    | succ n ih =>
      obtain ⟨i1, i2⟩ := ih (fun i h1 h2 => hok i h1 (by omega))
      obtain ⟨g1, -, g3⟩ := gettok_ok (lexNth src n)
      obtain ⟨o1, o2⟩ := hok (n + 1) (by omega) le_rfl
      refine ⟨g1.trans i1, ?_⟩
      show (gettok (lexNth src n)).line + nls (gettok (lexNth src n)).rest = _
      rw [g3 o1 o2 (fun hi => hx (hi.trans i1.isInfix)), i2]
  obtain ⟨⟨t, ht⟩, h2⟩ := key
  refine ⟨t, ht.symm, ?_⟩
  have : nls src = nls t + nls (lexNth src n).rest := by rw [← nls_append, ht]
  have e : t.count (ch '\n') = nls t := rfl
  omega

/-- a text with line ends in comments and in a raw string -/
example : (lexNth (word "let x /*\n\n*/ = `\n` # c\n\n +") 7).seen = (.plus, [], 6) ∧
    (∀ i, 1 ≤ i → i ≤ 7 → (lexNth (word "let x /*\n\n*/ = `\n` # c\n\n +") i).type ≠ .unknown) := by
  refine ⟨by decide +kernel, fun i h1 h2 => ?_⟩
  have : ∀ j : Fin 8, (lexNth (word "let x /*\n\n*/ = `\n` # c\n\n +") j).type ≠ .unknown ∨ j.val = 0 := by decide +kernel
  rcases this ⟨i, by omega⟩ with h | h
  · exact h
  · simp at h; omega

/-- C84 fails: after the float literal `1.5e` at the end of a line, and after a string with `\x` at the end of a line, every line number is one too low. -/
theorem C84_wrong_line : (lexNth (word "1.5e\nx") 2).seen = (.id, word "x", 1) ∧ (lexNth (word "'\\x\n1' x") 2).seen = (.id, word "x", 1) := by
  decide +kernel

/-! ## C82: layout -/

/-- C82: layout without line ends, or after a token that cannot end a statement, has no effect except on line numbers. -/
theorem C82_blank (l : Lex) (w r : List Byte) (hw : Blank w) (hl : l.rest = w ++ r) (h : ¬ EndsStatement l.type ∨ w.count (ch '\n') = 0) :
    gettok l = gettok { l with rest := r, line := l.line + w.count (ch '\n') } := by
  have h' : l.type.potentialEnd = false ∨ nls w = 0 := by
    rcases h with h | h
    · left; rw [← potentialEnd_iff] at h; simpa using h
    · exact .inr h
  rw [gettok_eq, gettok_eq, hl, skip_blank hw r l.line h']
  have e : w.count (ch '\n') = nls w := rfl
  rw [e]
  dsimp only
  rcases skipLayout l.type.potentialEnd r (l.line + nls w) with ⟨c, r', n⟩ | n | n | ⟨cs, n⟩
  · rfl
  · rfl
  · rfl
  · dsimp only
    rw [lexTok_congr { l with line := n } cs (w ++ r) l.value l.c, lexTok_congr { l with line := n } cs r l.value l.c]

/-- C82: after a token that can end a statement, layout with a line end is the token `;`, and has no further effect except on line numbers. -/
theorem C82_newline (l : Lex) (w r : List Byte) (hw : Blank w) (hl : l.rest = w ++ r) (he : EndsStatement l.type) (hn : w.count (ch '\n') ≠ 0) :
    (gettok l).type = .semi ∧ gettok (gettok l) = gettok { l with type := .semi, rest := r, line := l.line + w.count (ch '\n') } := by
  have hp : l.type.potentialEnd = true := (potentialEnd_iff _).2 he
  obtain ⟨c, w', n, h1, h2, h3⟩ := skip_blank_semi hw r l.line hn
  have e : gettok l = { l with type := .semi, value := [], c := some c, rest := w' ++ r, line := n } := by
    rw [gettok_eq, hp, hl, h1, ← hl]
  refine ⟨by rw [e], ?_⟩
  rw [e, C82_blank _ w' r h2 rfl (.inl (by simp [EndsStatement]))]
  have := gettok_congr { l with type := .semi, rest := r, line := l.line + w.count (ch '\n') } [] (some c)
  rw [← this]
  congr 1
  simp only [Lex.mk.injEq, true_and, and_true]
  exact h3

theorem dropWhile_all {p : Byte → Bool} {c : List Byte} (h : ∀ b ∈ c, p b = true) : c.dropWhile p = [] := by
  induction c with
  | nil => rfl
  | cons b c ih => rw [List.dropWhile_cons, if_pos (h b (by simp))]; exact ih (fun x hx => h x (by simp [hx]))

/-- C82: a comment from `#` on that is not followed by a line end goes to the end of the text. -/
theorem C82_comment_at_end (l : Lex) (c : List Byte) (hc : ∀ b ∈ c, b ≠ ch '\n') (hl : l.rest = ch '#' :: c) :
    (gettok l).type = .eof ∧ (gettok l).rest = [] := by
  have : skipLayout l.type.potentialEnd (ch '#' :: c) l.line = .none [] l.line := by
    rw [skip_round (by decide)]
    have : layoutRound l.type.potentialEnd (ch '#' :: c) l.line = .inl (.none [] l.line) := by
      unfold layoutRound
      rw [eatWs, if_neg (by decide)]
      dsimp only
      have hd : c.dropWhile (· != ch '\n') = [] := dropWhile_all (fun x hx => by simpa using hc x hx)
      rw [eatInline, if_pos rfl, hd]
    rw [this]
  rw [gettok_eq, hl, this]
  exact ⟨rfl, rfl⟩

theorem eatBlock_open : ∀ (cs : List Byte) (line : Nat) (semi : Bool), ¬ [ch '*', ch '/'] <:+: cs → (eatBlock cs line semi).1 = none := by
  intro cs
  induction cs with
  | nil => intro line semi _; rfl
  | cons a cs ih =>
    intro line semi h
    cases cs with
    | nil => rfl
    | cons b cs =>
      rw [eatBlock, if_neg (by rintro ⟨rfl, rfl⟩; exact h ⟨[], cs, rfl⟩)]
      exact ih _ _ (fun hi => h (hi.trans (List.suffix_cons _ _).isInfix))

/-- C82: a comment that is not closed is an error. -/
theorem C82_open_comment (l : Lex) (c : List Byte) (hc : ¬ [ch '*', ch '/'] <:+: c) (hl : l.rest = ch '/' :: ch '*' :: c) :
    (gettok l).type = .unknown ∧ (gettok l).err = some .unclosedComment := by
  rcases hb : eatBlock c l.line false with ⟨o, n, s⟩
  have ho : o = none := by have := eatBlock_open c l.line false hc; rw [hb] at this; exact this
  have : skipLayout l.type.potentialEnd (ch '/' :: ch '*' :: c) l.line = .error n := by
    rw [skip_round (by decide)]
    have : layoutRound l.type.potentialEnd (ch '/' :: ch '*' :: c) l.line = .inl (.error n) := by
      unfold layoutRound
      rw [eatWs, if_neg (by decide)]
      dsimp only
      rw [eatInline, if_neg (by decide)]
      dsimp only
      rw [if_pos rfl, if_pos rfl, hb, ho]
    rw [this]
  rw [gettok_eq, hl, this]
  exact ⟨rfl, rfl⟩

/-- layout of every kind -/
example : Blank (word " \t/* a * b / */# c\n ") :=
  .space (.tab (.block (c := word " a * b / ") (w := word "# c\n ") (by decide) (.line (c := word " c") (by decide) (.space .nil))))
example : (lexNth (word "x /* \n */ y") 2).type = .semi ∧ (lexNth (word "x = /* \n */ y") 3).seen = (.id, word "y", 2) := by decide +kernel

/-! ## C81: operators -/

theorem spell_mem : ∀ p ∈ operatorSpellings,
    (∃ q ∈ oneChar, word p.1 = [ch q.1] ∧ p.2 = q.2) ∨ (∃ q ∈ twoChars, word p.1 = [ch q.1, ch q.2.1] ∧ p.2 = q.2.2) ∨
      (∃ q ∈ threeChars, word p.1 = [ch q.1, ch q.2.1, ch q.2.2.1] ∧ p.2 = q.2.2.2) := by decide +kernel
theorem one_spell : ∀ q ∈ oneChar, ∃ p ∈ operatorSpellings, word p.1 = [ch q.1] ∧ p.2 = q.2 ∧ p.1.length = 1 := by decide +kernel
theorem two_spell : ∀ q ∈ twoChars, ∃ p ∈ operatorSpellings, word p.1 = [ch q.1, ch q.2.1] ∧ p.2 = q.2.2 ∧ p.1.length = 2 := by decide +kernel
theorem three_spell : ∀ q ∈ threeChars, ∃ p ∈ operatorSpellings, word p.1 = [ch q.1, ch q.2.1, ch q.2.2.1] ∧ p.2 = q.2.2.2 ∧ p.1.length = 3 := by
  decide +kernel
theorem one_tok : ∀ q ∈ oneChar, tok1 (ch q.1) = some q.2 := by decide +kernel
theorem two_tok : ∀ q ∈ twoChars, tok2 (ch q.1) (ch q.2.1) = some q.2.2 := by decide +kernel
theorem three_tok : ∀ q ∈ threeChars, tok3 (ch q.1) (ch q.2.1) (ch q.2.2.1) = some q.2.2.2 := by decide +kernel

theorem word_length (s : String) : (word s).length = s.length := by
  rw [word, List.length_map]; exact String.length_toList

/-- the operator read is the longest that the text begins with -/
theorem eatOp_longest {p : String × Tok} (hp : p ∈ operatorSpellings) {r : List Byte}
    (hmax : ∀ q ∈ operatorSpellings, word q.1 <+: word p.1 ++ r → q.1.length ≤ p.1.length) : eatOp (word p.1 ++ r) = some (p.2, r) := by
  have no2 : ∀ a b t rest, word p.1 ++ r = a :: b :: rest → p.1.length < 2 → tok2 a b = some t → False := by
    intro a b t rest h hlen ht
    obtain ⟨q, hq, rfl, rfl, -⟩ := tok2_mem ht
    obtain ⟨q', hq', h1, -, h2⟩ := two_spell q hq
    have := hmax q' hq' (by rw [h1, h]; exact ⟨rest, rfl⟩)
    omega
  have no3 : ∀ a b c t rest, word p.1 ++ r = a :: b :: c :: rest → p.1.length < 3 → tok3 a b c = some t → False := by
    intro a b c t rest h hlen ht
    obtain ⟨q, hq, rfl, rfl, rfl, -⟩ := tok3_mem ht
    obtain ⟨q', hq', h1, -, h2⟩ := three_spell q hq
    have := hmax q' hq' (by rw [h1, h]; exact ⟨rest, rfl⟩)
    omega
  rcases spell_mem p hp with ⟨q, hq, h1, h2⟩ | ⟨q, hq, h1, h2⟩ | ⟨q, hq, h1, h2⟩
  · have hl : p.1.length = 1 := by rw [← word_length, h1]; rfl
    have t1 := one_tok q hq
    rw [h1] at no2 no3 ⊢
    match r with
    | [] => show eatOp [_] = _; rw [eatOp, t1, h2]; rfl
    | [b] =>
      show eatOp [_, b] = _
      rw [eatOp]
      cases ht : tok2 (ch q.1) b with
      | none => dsimp only; rw [t1, h2]; rfl
      | some t => exact (no2 _ _ _ _ rfl (by omega) ht).elim
    | b :: c :: rest =>
      show eatOp (_ :: b :: c :: rest) = _
      rw [eatOp]
      cases ht3 : tok3 (ch q.1) b c with
      | some t => exact (no3 _ _ _ _ _ rfl (by omega) ht3).elim
      | none =>
        cases ht : tok2 (ch q.1) b with
        | none => dsimp only; rw [t1, h2]; rfl
        | some t => exact (no2 _ _ _ _ rfl (by omega) ht).elim
  · have hl : p.1.length = 2 := by rw [← word_length, h1]; rfl
    have t2 := two_tok q hq
    rw [h1] at no3 ⊢
    match r with
    | [] => show eatOp [_, _] = _; rw [eatOp, t2, h2]
    | c :: rest =>
      show eatOp (_ :: _ :: c :: rest) = _
      rw [eatOp]
      cases ht3 : tok3 (ch q.1) (ch q.2.1) c with
      | some t => exact (no3 _ _ _ _ _ rfl (by omega) ht3).elim
      | none => dsimp only; rw [t2, h2]
  · have t3 := three_tok q hq
    rw [h1]
    show eatOp (_ :: _ :: _ :: r) = _
    rw [eatOp, t3, h2]

/-- a byte that begins neither a word, a number, a string nor layout -/
def OpStart (b : Byte) : Prop :=
  isDigit b = false ∧ isIdStart b = false ∧ b ≠ ch '\'' ∧ b ≠ ch '`' ∧ b ≠ ch '"' ∧ isBlankB b = false ∧ b ≠ ch '#'

instance (b : Byte) : Decidable (OpStart b) := inferInstanceAs (Decidable (_ ∧ _))

theorem spell_start : ∀ p ∈ operatorSpellings, ∃ b, (word p.1).head? = some b ∧ OpStart b := by decide +kernel

theorem lexTok_op {l : Lex} {b : Byte} {cs : List Byte} (h : OpStart b) :
    lexTok l (b :: cs) = match eatOp (b :: cs) with
      | some (t, r) => { l with type := t, value := [], c := some b, rest := r }
      | none => l.error .unknownChar (b :: cs) := by
  obtain ⟨h1, h2, h3, h4, h5, -, -⟩ := h
  have e1 : eatNumber l (b :: cs) = none := by rw [eatNumber, if_neg (by rw [h1]; simp)]
  have e2 : eatId l (b :: cs) = none := by rw [eatId, if_neg (by rw [h2]; simp)]
  rw [lexTok, e1, e2]
  dsimp only
  rw [if_neg h3, if_neg h4, if_neg h5]
  rfl

/-- C81: an operator is read as the longest operator the text begins with (unless it begins a comment `/*`); the rest of the text is left. -/
theorem C81_longest (l : Lex) (p : String × Tok) (hp : p ∈ operatorSpellings) (r : List Byte) (hl : l.rest = word p.1 ++ r)
    (hmax : ∀ q ∈ operatorSpellings, word q.1 <+: word p.1 ++ r → q.1.length ≤ p.1.length) (hc : ¬ word "/*" <+: word p.1 ++ r) :
    (gettok l).seen = (p.2, [], l.line) ∧ (gettok l).rest = r ∧ (gettok l).err = l.err := by
  obtain ⟨b, hb, hs⟩ := spell_start p hp
  obtain ⟨cs, e⟩ : ∃ cs, word p.1 ++ r = b :: cs := by
    cases hw : word p.1 with
    | nil => rw [hw] at hb; cases hb
    | cons x xs => rw [hw] at hb; cases hb; exact ⟨xs ++ r, rfl⟩
  have ho := eatOp_longest hp hmax
  rw [e] at hl hc ho
  by_cases hsl : cs = [] ∧ b = ch '/'
  · obtain ⟨rfl, rfl⟩ := hsl
    have : skipLayout l.type.potentialEnd [ch '/'] l.line = .slash l.line := by
      rw [skip_round (by decide)]
      have : layoutRound l.type.potentialEnd [ch '/'] l.line = .inl (.slash l.line) := by
        unfold layoutRound
        rw [eatWs, if_neg (by decide)]
        rfl
      rw [this]
    have ho' : eatOp [ch '/'] = some (.slash, []) := by decide
    rw [ho'] at ho
    simp only [Option.some.injEq, Prod.mk.injEq] at ho
    rw [gettok_eq, hl, this]
    exact ⟨by rw [← ho.1]; rfl, ho.2, rfl⟩
  · have hn : NoLayout (b :: cs) := by
      intro x t hx
      cases hx
      refine ⟨hs.2.2.2.2.2.1, hs.2.2.2.2.2.2, ?_⟩
      rintro rfl
      cases cs with
      | nil => exact absurd ⟨rfl, rfl⟩ hsl
      | cons y ys => exact ⟨y, ys, rfl, by rintro rfl; exact hc ⟨ys, rfl⟩⟩
    rw [gettok_tok hl hn, lexTok_op hs, ho]
    exact ⟨rfl, rfl, rfl⟩

/-- C81: a byte that begins nothing is an error, and only that byte is skipped. -/
theorem C81_unknown (l : Lex) (b : Byte) (r : List Byte) (hl : l.rest = b :: r) (h1 : ¬ IdentPart b) (h2 : b ∉ [ch ' ', ch '\t', ch '\n', ch '#', ch '\'', ch '`', ch '"'])
    (h3 : ∀ q ∈ operatorSpellings, ¬ word q.1 <+: b :: r) :
    (gettok l).type = .unknown ∧ (gettok l).err = some .unknownChar ∧ (gettok l).rest = r := by
  simp only [List.mem_cons, List.not_mem_nil, or_false, not_or] at h2
  obtain ⟨n1, n2, n3, n4, n5, n6, n7⟩ := h2
  have hs : OpStart b := by
    refine ⟨?_, ?_, n5, n6, n7, ?_, n4⟩
    · rw [Bool.eq_false_iff]
      intro hd
      exact h1 (.inr (by simpa [isDigit, DecDigit] using hd))
    · rw [Bool.eq_false_iff]
      intro hd
      refine h1 (.inl ?_)
      simpa [isIdStart, isAlphaB, IdentStart, Letter, or_assoc] using hd
    · simp only [isBlankB, Bool.or_eq_false_iff, beq_eq_false_iff_ne, ne_eq]
      exact ⟨⟨n1, n3⟩, n2⟩
  have he : eatOp (b :: r) = none := by
    rcases ho : eatOp (b :: r) with _ | ⟨t, r'⟩
    · rfl
    · exfalso
      rcases eatOp_cases ho with ⟨a, h, ht⟩ | ⟨a, c, h, ht⟩ | ⟨a, c, d, h, ht⟩
      · obtain ⟨q, hq, rfl, -⟩ := tok1_mem ht
        obtain ⟨q', hq', e, -⟩ := one_spell q hq
        exact h3 q' hq' (by rw [e, h]; exact ⟨r', rfl⟩)
      · obtain ⟨q, hq, rfl, rfl, -⟩ := tok2_mem ht
        obtain ⟨q', hq', e, -⟩ := two_spell q hq
        exact h3 q' hq' (by rw [e, h]; exact ⟨r', rfl⟩)
      · obtain ⟨q, hq, rfl, rfl, rfl, -⟩ := tok3_mem ht
        obtain ⟨q', hq', e, -⟩ := three_spell q hq
        exact h3 q' hq' (by rw [e, h]; exact ⟨r', rfl⟩)
  have hn : NoLayout (b :: r) := by
    intro x t hx
    cases hx
    refine ⟨hs.2.2.2.2.2.1, n4, ?_⟩
    rintro rfl
    exact absurd ⟨r, rfl⟩ (h3 ("/", .slash) (by decide))
  rw [gettok_tok hl hn, lexTok_op hs, he]
  exact ⟨rfl, rfl, rfl⟩

/-- the hypotheses are met: `>>=` before `=`, and `..` which is no operator -/
example : ∀ q ∈ operatorSpellings, word q.1 <+: word ">>=" ++ word "= 1" → q.1.length ≤ ">>=".length := by decide +kernel
example : ((lexNth (word "..x") 1).type, (lexNth (word "..x") 2).type, (lexNth (word "a///b") 2).type, (lexNth (word "a///b") 3).type) =
    (.dot, .dot, .dslash, .slash) := by decide +kernel

/-! ## C83: words -/

theorem isDigit_iff (b : Byte) : isDigit b = true ↔ DecDigit b := by simp [isDigit, DecDigit]
theorem isXDigit_iff (b : Byte) : isXDigit b = true ↔ HexDigit b := by simp [isXDigit, HexDigit, isDigit_iff, or_assoc]
theorem isBDigit_iff (b : Byte) : isBDigit b = true ↔ BinDigit b := by simp [isBDigit, BinDigit]
theorem isIdStart_iff (b : Byte) : isIdStart b = true ↔ IdentStart b := by simp [isIdStart, isAlphaB, IdentStart, Letter, or_assoc]
theorem isIdChar_iff (b : Byte) : isIdChar b = true ↔ IdentPart b := by
  simp only [isIdChar, isAlphaB, IdentPart, IdentStart, Letter, Bool.or_eq_true, Bool.and_eq_true, decide_eq_true_eq, beq_iff_eq, isDigit_iff]
  tauto

theorem takeWhile_all {p : Byte → Bool} {c r : List Byte} (h : ∀ b ∈ c, p b = true) (hr : ∀ b t, r = b :: t → p b = false) :
    (c ++ r).takeWhile p = c ∧ (c ++ r).dropWhile p = r := by
  induction c with
  | nil =>
    cases r with
    | nil => exact ⟨rfl, rfl⟩
    | cons b t => simp [hr b t rfl]
  | cons b c ih =>
    obtain ⟨i1, i2⟩ := ih (fun x hx => h x (by simp [hx]))
    rw [List.cons_append, List.takeWhile_cons, List.dropWhile_cons, if_pos (h b (by simp)), if_pos (h b (by simp)), i1, i2]
    exact ⟨rfl, rfl⟩

/-- a byte that starts a word starts nothing else -/
theorem identStart_facts {b : Byte} (h : isIdStart b = true) : isDigit b = false ∧ isBlankB b = false ∧ b ≠ ch '#' ∧ b ≠ ch '/' := by
  have : ∀ b : Byte, isIdStart b = true → isDigit b = false ∧ isBlankB b = false ∧ b ≠ ch '#' ∧ b ≠ ch '/' := by decide +kernel
  exact this b h

theorem noLayout_of {b : Byte} {cs : List Byte} (h1 : isBlankB b = false) (h2 : b ≠ ch '#') (h3 : b ≠ ch '/') : NoLayout (b :: cs) := by
  intro x t e
  cases e
  exact ⟨h1, h2, fun h => absurd h h3⟩

theorem gettok_word {l : Lex} {w r : List Byte} (hw : IdentWord w) (hr : NotNext IdentPart r) (hl : l.rest = w ++ r) :
    gettok l = if l.type = .dot ∨ l.type = .rightArr then { l with type := .id, value := w, c := r.head?, rest := r }
      else { lexKeyword l w r with c := r.head?, rest := r } := by
  cases w with
  | nil => exact hw.elim
  | cons b bs =>
    obtain ⟨h1, h2⟩ := hw
    have hb := (isIdStart_iff b).2 h1
    obtain ⟨f1, f2, f3, f4⟩ := identStart_facts hb
    obtain ⟨t1, t2⟩ := takeWhile_all (p := isIdChar) (c := bs) (r := r) (fun x hx => (isIdChar_iff x).2 (h2 x hx))
      (fun x t e => by have := hr x t e; rw [← isIdChar_iff] at this; simpa using this)
    rw [gettok_tok hl (noLayout_of f2 f3 f4)]
    have e1 : eatNumber l (b :: (bs ++ r)) = none := by rw [eatNumber, if_neg (by rw [f1]; simp)]
    show lexTok l (b :: (bs ++ r)) = _
    rw [lexTok, e1, eatId, if_pos hb, t1, t2]
    dsimp only
    by_cases ht : l.type = .dot ∨ l.type = .rightArr
    · rw [if_pos ht, if_pos ht]
    · rw [if_neg ht, if_neg ht]

/-- The words that are not names. -/
def SpecialWord (w : List Byte) : Prop :=
  w ∈ keywordSpellings.map (fun k => word k.1) ∨ w ∈ reservedSpellings.map word ∨ w = word "true" ∨ w = word "false"

theorem reserved_eq : reservedWords = reservedSpellings := by decide
theorem keywords_iff : (∀ k ∈ keywords, k ∈ keywordSpellings) ∧ (∀ k ∈ keywordSpellings, k ∈ keywords) := by decide +kernel
theorem keyword_facts : ∀ k ∈ keywordSpellings, reservedWords.any (fun r => word r == word k.1) = false ∧
    keywords.find? (fun k' => word k'.1 == word k.1) = some k := by decide +kernel
theorem keyword_ident : ∀ k ∈ keywordSpellings.map (·.1) ++ reservedSpellings ++ ["true", "false"],
    (word k).head?.any isIdStart = true ∧ (word k).tail.all isIdChar = true := by decide +kernel

theorem special_ident {s : String} (h : s ∈ keywordSpellings.map (·.1) ++ reservedSpellings ++ ["true", "false"]) : IdentWord (word s) := by
  obtain ⟨h1, h2⟩ := keyword_ident s h
  cases e : word s with
  | nil => rw [e] at h1; cases h1
  | cons b bs =>
    rw [e] at h1 h2
    exact ⟨(isIdStart_iff b).1 h1, fun x hx => (isIdChar_iff x).1 (List.all_eq_true.1 h2 x hx)⟩

/-- C83: a word is taken as long as possible, and is a name unless it is a keyword, a reserved word, `true` or `false`. -/
theorem C83_name (l : Lex) (w r : List Byte) (hw : IdentWord w) (hr : NotNext IdentPart r) (hl : l.rest = w ++ r) (hs : ¬ SpecialWord w) :
    (gettok l).seen = (.id, w, l.line) ∧ (gettok l).rest = r ∧ (gettok l).err = l.err := by
  simp only [SpecialWord, not_or] at hs
  obtain ⟨s1, s2, s3, s4⟩ := hs
  have hk : lexKeyword l w r = { l with type := .id, value := w, c := r.head?, rest := r } := by
    have e1 : reservedWords.any (fun x => word x == w) = false := by
      rw [Bool.eq_false_iff]
      intro h
      obtain ⟨x, hx, hx2⟩ := List.any_eq_true.1 h
      rw [reserved_eq] at hx
      exact s2 (List.mem_map.2 ⟨x, hx, by simpa using hx2⟩)
    have e2 : keywords.find? (fun k => word k.1 == w) = none := by
      rw [List.find?_eq_none]
      intro k hk hk2
      exact s1 (List.mem_map.2 ⟨k, keywords_iff.1 k hk, by simpa using hk2⟩)
    rw [lexKeyword, e1, e2]
    simp [s3, s4]
  rw [gettok_word hw hr hl, hk]
  split <;> exact ⟨rfl, rfl, rfl⟩

/-- C83: after `.` and `->` every word is a name. -/
theorem C83_field (l : Lex) (w r : List Byte) (hw : IdentWord w) (hr : NotNext IdentPart r) (hl : l.rest = w ++ r) (ht : l.type = .dot ∨ l.type = .rightArr) :
    (gettok l).seen = (.id, w, l.line) ∧ (gettok l).rest = r ∧ (gettok l).err = l.err := by
  rw [gettok_word hw hr hl, if_pos ht]
  exact ⟨rfl, rfl, rfl⟩

/-- C83: keywords. -/
theorem C83_keyword (l : Lex) (k : String × Tok) (hk : k ∈ keywordSpellings) (r : List Byte) (hr : NotNext IdentPart r) (hl : l.rest = word k.1 ++ r)
    (ht : l.type ≠ .dot ∧ l.type ≠ .rightArr) : (gettok l).seen = (k.2, [], l.line) ∧ (gettok l).rest = r ∧ (gettok l).err = l.err := by
  obtain ⟨e1, e2⟩ := keyword_facts k hk
  have hw : IdentWord (word k.1) := special_ident (by simp only [List.mem_append]; exact .inl (.inl (List.mem_map_of_mem hk)))
  rw [gettok_word hw hr hl, if_neg (by simp [ht.1, ht.2]), lexKeyword, e1, e2]
  exact ⟨rfl, rfl, rfl⟩

/-- C83: `true` and `false`. -/
theorem C83_bool (l : Lex) (s : String) (hs : s = "true" ∨ s = "false") (r : List Byte) (hr : NotNext IdentPart r) (hl : l.rest = word s ++ r)
    (ht : l.type ≠ .dot ∧ l.type ≠ .rightArr) : (gettok l).seen = (.bool, word s, l.line) ∧ (gettok l).rest = r ∧ (gettok l).err = l.err := by
  have hw : IdentWord (word s) := special_ident (by rcases hs with rfl | rfl <;> simp)
  have e : lexKeyword l (word s) r = { l with type := .bool, value := word s, c := r.head?, rest := r } := by
    have : reservedWords.any (fun x => word x == word s) = false ∧ keywords.find? (fun k => word k.1 == word s) = none ∧
        (word s = word "true" ∨ word s = word "false") := by rcases hs with rfl | rfl <;> decide +kernel
    rw [lexKeyword, this.1, this.2.1]
    simp [this.2.2]
  rw [gettok_word hw hr hl, if_neg (by simp [ht.1, ht.2]), e]
  exact ⟨rfl, rfl, rfl⟩

/-- C83: reserved words are refused; reading goes on after the word. -/
theorem C83_reserved (l : Lex) (s : String) (hs : s ∈ reservedSpellings) (r : List Byte) (hr : NotNext IdentPart r) (hl : l.rest = word s ++ r)
    (ht : l.type ≠ .dot ∧ l.type ≠ .rightArr) : (gettok l).type = .unknown ∧ (gettok l).err = some .reserved ∧ (gettok l).rest = r := by
  have hw : IdentWord (word s) := special_ident (by simp [hs])
  have e : reservedWords.any (fun x => word x == word s) = true := by
    rw [reserved_eq]; exact List.any_eq_true.2 ⟨s, hs, by simp⟩
  rw [gettok_word hw hr hl, if_neg (by simp [ht.1, ht.2]), lexKeyword, e]
  exact ⟨rfl, rfl, rfl⟩

/-- words next to each other and beside keywords -/
example : IdentWord (word "$if_1") ∧ ¬ SpecialWord (word "iff") ∧ NotNext IdentPart (word "+x") := by
  refine ⟨⟨.inr (.inr rfl), ?_⟩, ?_, ?_⟩
  · intro x hx
    rw [← isIdChar_iff]
    revert x
    decide
  · unfold SpecialWord; decide +kernel
  · intro b t h
    cases h
    rw [← isIdChar_iff]; decide

/-! ## C79: strings -/

theorem hexVal_eq {b : Byte} (h : HexDigit b) : hexVal b = hexDigitVal b := by
  have : ∀ b : Byte, isXDigit b = true → hexVal b = hexDigitVal b := by decide +kernel
  exact this b ((isXDigit_iff b).2 h)

theorem escape_find : ∀ p ∈ escapeTable, (simpleEscapes.find? fun q => ch q.1 == ch p.1).map (·.2) = some (BitVec.ofNat 8 p.2) := by decide +kernel

/-- the text of a string up to the byte that ends it -/
theorem strBody_escaped {stop : Byte → Bool} {q : Byte → Prop} (hq : ∀ b, stop b = true → q b) (hbs : stop (ch '\\') = false) (delim : Byte) {t v : List Byte}
    (h : Escaped q t v) : ∀ (d : Byte) (r acc : List Byte), stop d = true → strBody stop delim (t ++ d :: r) acc = (.inr (acc ++ v, d), r) := by
  induction h with
  | nil =>
    intro d r acc hd
    rw [List.nil_append, strBody.eq_def]
    dsimp only
    rw [if_pos hd, List.append_nil]
  | @plain b t v h1 h2 h3 _ ih =>
    intro d r acc hd
    rw [List.cons_append, strBody.eq_def]
    dsimp only
    rw [if_neg (fun hs => h1 (hq b hs)), if_neg h3, if_neg h2, ih d r _ hd]
    simp
  | @simple c n t v hm _ ih =>
    intro d r acc hd
    have hf := escape_find (c, n) hm
    obtain ⟨p, hp1, hp2⟩ := Option.map_eq_some_iff.1 hf
    rw [List.cons_append, List.cons_append, strBody.eq_def]
    dsimp only at hp1 ⊢
    rw [if_neg (by rw [hbs]; simp), if_neg (by decide), if_pos rfl, hp1]
    dsimp only
    rw [ih d r _ hd, hp2]
    simp
  | @hex a b t v ha hb _ ih =>
    intro d r acc hd
    have hf : (simpleEscapes.find? fun q => ch q.1 == ch 'x') = none := by decide
    have hs : strtol2 a b = some (BitVec.ofNat 8 (16 * hexDigitVal a + hexDigitVal b)) := by
      rw [strtol2, if_pos ((isXDigit_iff b).2 hb), if_pos ((isXDigit_iff a).2 ha), hexVal_eq ha, hexVal_eq hb]
    show strBody stop delim (ch '\\' :: ch 'x' :: a :: b :: (t ++ d :: r)) acc = _
    rw [strBody.eq_def]
    dsimp only
    rw [if_neg (by rw [hbs]; simp), if_neg (by decide), if_pos rfl, hf]
    dsimp only
    rw [if_pos rfl, hs]
    dsimp only
    rw [ih d r _ hd]
    simp

theorem lexTok_quote {l : Lex} {b : Byte} {cs : List Byte} (h : b ∈ [ch '\'', ch '`', ch '"']) :
    lexTok l (b :: cs) = if b = ch '\'' then eatString l cs else if b = ch '`' then eatRaw l cs else eatInterpBody l cs := by
  have hd : isDigit b = false ∧ isIdStart b = false ∧ (b = ch '\'' ∨ b = ch '`' ∨ b = ch '"') := by
    simp only [List.mem_cons, List.not_mem_nil, or_false] at h
    exact ⟨by rcases h with rfl | rfl | rfl <;> decide, by rcases h with rfl | rfl | rfl <;> decide, h⟩
  have e1 : eatNumber l (b :: cs) = none := by rw [eatNumber, if_neg (by rw [hd.1]; simp)]
  have e2 : eatId l (b :: cs) = none := by rw [eatId, if_neg (by rw [hd.2.1]; simp)]
  rw [lexTok, e1, e2]
  dsimp only
  rcases hd.2.2 with rfl | rfl | rfl <;> rfl

theorem quote_noLayout {b : Byte} {cs : List Byte} (h : b ∈ [ch '\'', ch '`', ch '"']) : NoLayout (b :: cs) := by
  simp only [List.mem_cons, List.not_mem_nil, or_false] at h
  rcases h with rfl | rfl | rfl <;> exact noLayout_of (by decide) (by decide) (by decide)

/-- C79: a text between single quotes is the string it stands for. -/
theorem C79_single (l : Lex) (t v r : List Byte) (h : Escaped (· = ch '\'') t v) (hl : l.rest = ch '\'' :: t ++ ch '\'' :: r) :
    (gettok l).seen = (.str, v, l.line) ∧ (gettok l).rest = r ∧ (gettok l).err = l.err := by
  rw [List.cons_append] at hl
  rw [gettok_tok hl (quote_noLayout (by simp)), lexTok_quote (by simp), if_pos rfl, eatString,
    strBody_escaped (q := (· = ch '\'')) (fun b hb => by simpa using hb) (by decide) _ h _ _ _ (by simp)]
  exact ⟨rfl, rfl, rfl⟩

/-- C79: every string can be written: some text stands for it. -/
theorem C79_every_string (q : Byte → Prop) (v : List Byte) : ∃ t, Escaped q t v := by
  induction v with
  | nil => exact ⟨[], .nil⟩
  | cons b v ih =>
    obtain ⟨t, ht⟩ := ih
    have : ∀ b : Byte, ∃ i j : Fin 16, isXDigit (BitVec.ofNat 8 (if i.val < 10 then 48 + i else 87 + i)) = true ∧
        isXDigit (BitVec.ofNat 8 (if j.val < 10 then 48 + j else 87 + j)) = true ∧
        BitVec.ofNat 8 (16 * hexDigitVal (BitVec.ofNat 8 (if i.val < 10 then 48 + i else 87 + i)) +
          hexDigitVal (BitVec.ofNat 8 (if j.val < 10 then 48 + j else 87 + j))) = b := by
      intro b
      refine ⟨⟨b.toNat / 16, by have := b.isLt; omega⟩, ⟨b.toNat % 16, by omega⟩, ?_⟩
      revert b
      decide +kernel
    obtain ⟨i, j, h1, h2, h3⟩ := this b
    have := Escaped.hex ((isXDigit_iff _).1 h1) ((isXDigit_iff _).1 h2) ht
    rw [h3] at this
    exact ⟨_, this⟩

/-- C79: between backquotes every byte stands for itself, line ends included. -/
theorem C79_raw (l : Lex) (v r : List Byte) (h : ∀ b ∈ v, b ≠ ch '`') (hl : l.rest = ch '`' :: v ++ ch '`' :: r) :
    (gettok l).seen = (.str, v, l.line + v.count (ch '\n')) ∧ (gettok l).rest = r ∧ (gettok l).err = l.err := by
  obtain ⟨t1, t2⟩ := takeWhile_all (p := (· != ch '`')) (c := v) (r := ch '`' :: r) (fun x hx => by simpa using h x hx) (fun x t e => by cases e; simp)
  rw [List.cons_append] at hl
  rw [gettok_tok hl (quote_noLayout (by simp)), lexTok_quote (by simp), if_neg (by decide), if_pos rfl, eatRaw, t1, t2]
  exact ⟨rfl, rfl, rfl⟩

/-- C79: a text between double quotes, up to the quote or to the `#` of an interpolation; `interp` says which. -/
theorem C79_double (l : Lex) (t v r : List Byte) (d : Byte) (h : Escaped (fun b => b = ch '"' ∨ b = ch '#') t v) (hd : d = ch '"' ∨ d = ch '#')
    (hl : l.rest = ch '"' :: t ++ d :: r) :
    (gettok l).seen = (.str, v, l.line) ∧ (gettok l).rest = r ∧ ((gettok l).interp = true ↔ d = ch '#') ∧ (gettok l).err = l.err := by
  rw [List.cons_append] at hl
  rw [gettok_tok hl (quote_noLayout (by simp)), lexTok_quote (by simp), if_neg (by decide), if_neg (by decide), eatInterpBody,
    strBody_escaped (q := fun b => b = ch '"' ∨ b = ch '#') (fun b hb => by simpa using hb) (by decide) _ h _ _ _ (by simpa using hd)]
  exact ⟨rfl, rfl, by simp, rfl⟩

/-- C79: the piece of an interpolated string after the `}` of an interpolation. -/
theorem C79_interp_rest (l : Lex) (t v r : List Byte) (d : Byte) (h : Escaped (fun b => b = ch '"' ∨ b = ch '#') t v) (hd : d = ch '"' ∨ d = ch '#') :
    (eatInterpBody l (t ++ d :: r)).seen = (.str, v, l.line) ∧ (eatInterpBody l (t ++ d :: r)).rest = r ∧
      ((eatInterpBody l (t ++ d :: r)).interp = true ↔ d = ch '#') := by
  rw [eatInterpBody,
    strBody_escaped (q := fun b => b = ch '"' ∨ b = ch '#') (fun b hb => by simpa using hb) (by decide) _ h _ _ _ (by simpa using hd)]
  exact ⟨rfl, rfl, by simp⟩

/-- the text of a string that is not closed -/
theorem strBody_open {stop : Byte → Bool} {q : Byte → Prop} (hq : ∀ b, stop b = true → q b) (hbs : stop (ch '\\') = false) (hnl : stop (ch '\n') = false)
    (delim : Byte) {t v : List Byte} (h : Escaped q t v) : ∀ (r acc : List Byte), (r = [] ∨ ∃ r', r = ch '\n' :: r') →
      strBody stop delim (t ++ r) acc = (.inl .unclosedString, r) := by
  induction h with
  | nil =>
    intro r acc hr
    rcases hr with rfl | ⟨r', rfl⟩
    · rw [List.nil_append, strBody]
    · rw [List.nil_append, strBody.eq_def]
      dsimp only
      rw [if_neg (by rw [hnl]; simp), if_pos rfl]
  | @plain b t v h1 h2 h3 _ ih =>
    intro r acc hr
    rw [List.cons_append, strBody.eq_def]
    dsimp only
    rw [if_neg (fun hs => h1 (hq b hs)), if_neg h3, if_neg h2, ih r _ hr]
  | @simple c n t v hm _ ih =>
    intro r acc hr
    have hf := escape_find (c, n) hm
    obtain ⟨p, hp1, hp2⟩ := Option.map_eq_some_iff.1 hf
    rw [List.cons_append, List.cons_append, strBody.eq_def]
    dsimp only at hp1 ⊢
    rw [if_neg (by rw [hbs]; simp), if_neg (by decide), if_pos rfl, hp1]
    dsimp only
    rw [ih r _ hr]
  | @hex a b t v ha hb _ ih =>
    intro r acc hr
    have hf : (simpleEscapes.find? fun q => ch q.1 == ch 'x') = none := by decide
    have hs : strtol2 a b = some (BitVec.ofNat 8 (16 * hexDigitVal a + hexDigitVal b)) := by
      rw [strtol2, if_pos ((isXDigit_iff b).2 hb), if_pos ((isXDigit_iff a).2 ha), hexVal_eq ha, hexVal_eq hb]
    show strBody stop delim (ch '\\' :: ch 'x' :: a :: b :: (t ++ r)) acc = _
    rw [strBody.eq_def]
    dsimp only
    rw [if_neg (by rw [hbs]; simp), if_neg (by decide), if_pos rfl, hf]
    dsimp only
    rw [if_pos rfl, hs]
    dsimp only
    rw [ih r _ hr]

/-- C79: a string that is not closed on its line is an error. -/
theorem C79_unclosed (l : Lex) (t v r : List Byte) (h : Escaped (· = ch '\'') t v) (hr : r = [] ∨ ∃ r', r = ch '\n' :: r') (hl : l.rest = ch '\'' :: t ++ r) :
    (gettok l).type = .unknown ∧ (gettok l).err = some .unclosedString := by
  rw [List.cons_append] at hl
  rw [gettok_tok hl (quote_noLayout (by simp)), lexTok_quote (by simp), if_pos rfl, eatString,
    strBody_open (q := (· = ch '\'')) (fun b hb => by simpa using hb) (by decide) (by decide) _ h _ _ hr]
  exact ⟨rfl, rfl⟩

/-- a text with all kinds of escapes -/
example : Escaped (· = ch '\'') (word "a\"\\n\\x4F\\'") [97, 34, 10, 79, 39] :=
  .plain (by decide) (by decide) (by decide) (.plain (by decide) (by decide) (by decide) (.simple (c := 'n') (n := 10) (by decide)
    (.hex (a := ch '4') (b := ch 'F') (by unfold HexDigit DecDigit; decide) (by unfold HexDigit DecDigit; decide)
      (.simple (c := '\'') (n := 39) (by decide) .nil))))

/-- C79 fails in one place: `\x` accepts more than two hexadecimal digits: a sign or white space (a line end, even) and one digit. -/
theorem C79_hex_too_lenient : (lexNth (word "'\\x-1'") 1).seen = (.str, [255], 1) ∧ (lexNth (word "'\\x+5'") 1).seen = (.str, [5], 1) ∧
    (lexNth (word "'\\x\n1'") 1).seen = (.str, [1], 1) ∧ ¬ HexDigit (ch '-') := by
  refine ⟨by decide +kernel, by decide +kernel, by decide +kernel, ?_⟩
  unfold HexDigit DecDigit; decide

/-! ## C80: numbers -/

theorem fillTail_exact {ok : Byte → Bool} {t r : List Byte} (ht : ∀ b ∈ t, ok b = true ∨ b = ch '_') (hr : ∀ b t', r = b :: t' → b ≠ ch '_' ∧ ok b = false) :
    fillTail ok (t ++ r) = (t.filter (fun b => b != ch '_'), r) := by
  induction t with
  | nil =>
    cases r with
    | nil => rfl
    | cons b t' =>
      obtain ⟨h1, h2⟩ := hr b t' rfl
      rw [List.nil_append, fillTail, if_neg h1, if_neg (by rw [h2]; simp)]; rfl
  | cons b t ih =>
    have ih' := ih (fun x hx => ht x (by simp [hx]))
    rw [List.cons_append, fillTail, ih']
    by_cases hb : b = ch '_'
    · rw [if_pos hb, List.filter_cons, if_neg (by simp [hb])]
    · rw [if_neg hb, if_pos ((ht b (by simp)).resolve_right hb), List.filter_cons, if_pos (by simpa using hb)]

theorem numFill_digits {ok : Byte → Bool} {P : Byte → Prop} (hP : ∀ b, ok b = true ↔ P b) {text ds r : List Byte} (h : Digits P text ds)
    (hr : NotNext (fun b => P b ∨ b = ch '_') r) : numFill ok (text ++ r) = (ds, r) := by
  obtain ⟨d, t, rfl, h1, h2, rfl⟩ := h
  have hr' : ∀ b t', r = b :: t' → b ≠ ch '_' ∧ ok b = false := by
    intro b t' e
    have := hr b t' e
    rw [not_or, ← hP] at this
    exact ⟨this.2, by simpa using this.1⟩
  rw [List.cons_append, numFill, fillTail_exact (fun b hb => (h2 b hb).imp_left (hP b).2) hr']

theorem digit_noLayout {b : Byte} {cs : List Byte} (h : isDigit b = true) : NoLayout (b :: cs) := by
  have : ∀ b : Byte, isDigit b = true → isBlankB b = false ∧ b ≠ ch '#' ∧ b ≠ ch '/' := by decide +kernel
  obtain ⟨h1, h2, h3⟩ := this b h
  exact noLayout_of h1 h2 h3

theorem lexTok_number {l r : Lex} {b : Byte} {cs : List Byte} (h : eatNumber l (b :: cs) = some r) : lexTok l (b :: cs) = r := by
  rw [lexTok, h]

theorem gettok_number {l r : Lex} {b : Byte} {cs : List Byte} (hl : l.rest = b :: cs) (hd : isDigit b = true) (h : eatNumber l (b :: cs) = some r) :
    gettok l = r := by
  rw [gettok_tok hl (digit_noLayout hd), lexTok_number h]

theorem hexVal_digits {ds : List Byte} (h : ∀ b ∈ ds, HexDigit b) (base : Nat) : digitsVal base ds = numeralValue base ds := by
  unfold digitsVal numeralValue
  generalize 0 = n
  induction ds generalizing n with
  | nil => rfl
  | cons b ds ih =>
    rw [List.foldl_cons, List.foldl_cons, hexVal_eq (h b (by simp))]
    exact ih (fun x hx => h x (by simp [hx])) _

theorem Digits.all {P : Byte → Prop} {text ds : List Byte} (h : Digits P text ds) : ∀ b ∈ ds, P b := by
  obtain ⟨d, t, rfl, h1, h2, rfl⟩ := h
  intro b hb
  rcases List.mem_cons.1 hb with rfl | hb
  · exact h1
  · rw [List.mem_filter] at hb
    rcases h2 b hb.1 with h | h
    · exact h
    · simp [h] at hb

/-- The int a number is read as: the number, or the largest int. -/
def clampedInt (n : Nat) : BitVec 64 := BitVec.ofNat 64 (min n (2 ^ 63 - 1))

theorem lowerB_digit : ∀ b : Byte, isDigit b = true ∨ b = ch '_' → lowerB b ≠ ch 'x' ∧ lowerB b ≠ ch 'b' := by decide +kernel

theorem eatInt_none {sep : Byte} {ok : Byte → Bool} {cs : List Byte} (h : ∀ a b t, cs = a :: b :: t → a = ch '0' → lowerB b ≠ sep) :
    eatInt sep ok cs = none := by
  match cs, h with
  | [], _ => rfl
  | [_], _ => rfl
  | a :: b :: t, h => rw [eatInt, if_neg (fun hh => h a b t rfl hh.1 hh.2)]

/-- What may follow a decimal numeral that is an int: no digit or underscore, no `.` with a digit, and for `0` no letter of a base. -/
def AfterInt (r : List Byte) : Prop :=
  NotNext (fun b => DecDigit b ∨ b = ch '_' ∨ b ∈ [ch 'x', ch 'X', ch 'b', ch 'B']) r ∧ ∀ d t, r = ch '.' :: d :: t → ¬ DecDigit d

theorem lowerB_eq : ∀ b : Byte, (lowerB b = ch 'x' → b ∈ [ch 'x', ch 'X']) ∧ (lowerB b = ch 'b' → b ∈ [ch 'b', ch 'B']) ∧
    (lowerB b = ch 'e' → b ∈ [ch 'e', ch 'E']) := by decide +kernel

theorem no_base {text ds r : List Byte} (h : Digits DecDigit text ds)
    (hr : NotNext (fun b => DecDigit b ∨ b = ch '_' ∨ b ∈ [ch 'x', ch 'X', ch 'b', ch 'B']) r) :
    eatInt (ch 'x') isXDigit (text ++ r) = none ∧ eatInt (ch 'b') isBDigit (text ++ r) = none := by
  obtain ⟨d, t, rfl, h1, h2, rfl⟩ := h
  have key : ∀ a b t', d :: t ++ r = a :: b :: t' → lowerB b ≠ ch 'x' ∧ lowerB b ≠ ch 'b' := by
    intro a b t' e
    cases t with
    | nil =>
      cases e
      have := hr b t' rfl
      simp only [List.mem_cons, List.not_mem_nil, or_false, not_or] at this
      obtain ⟨-, -, n1, n2, n3, n4⟩ := this
      obtain ⟨q1, q2, -⟩ := lowerB_eq b
      constructor
      · intro hx; have := q1 hx; simp at this; tauto
      · intro hx; have := q2 hx; simp at this; tauto
    | cons y ys =>
      cases e
      exact lowerB_digit b ((h2 b (by simp)).imp_left (isDigit_iff b).2)
  exact ⟨eatInt_none (fun a b t' e _ => (key a b t' e).1), eatInt_none (fun a b t' e _ => (key a b t' e).2)⟩

/-- C80: a decimal numeral, with underscores among the digits, is the int it denotes; numerals from 2^63 on are read as 2^63 − 1 without an error. -/
theorem C80_decimal_partial (l : Lex) (text ds r : List Byte) (h : Digits DecDigit text ds) (hr : AfterInt r) (hl : l.rest = text ++ r) :
    (gettok l).type = .int ∧ getInt (gettok l).value = clampedInt (numeralValue 10 ds) ∧ (gettok l).rest = r ∧ (gettok l).err = l.err := by
  obtain ⟨e1, e2⟩ := no_base h hr.1
  have hnum : numFill isDigit (text ++ r) = (ds, r) := numFill_digits isDigit_iff h (by
    intro b t' e hb
    refine hr.1 b t' e ?_
    tauto)
  have hall := h.all
  obtain ⟨d, t, rfl, h1, h2, rfl⟩ := h
  have hd := (isDigit_iff d).2 h1
  have hv : getInt (d :: t.filter (fun b => b != ch '_')) = clampedInt (numeralValue 10 (d :: t.filter (fun b => b != ch '_'))) := by
    have e : litStrtoll 10 (d :: t.filter (fun b => b != ch '_')) = clampedInt (numeralValue 10 (d :: t.filter (fun b => b != ch '_'))) := by
      rw [litStrtoll, hexVal_digits (fun b hb => .inl (hall b hb)), clampedInt]
    rw [getInt.eq_def]
    split
    · rename_i x b ds' he
      have hb : DecDigit b := hall b (by rw [he]; simp)
      have : ∀ b : Byte, isDigit b = true → b ≠ ch 'x' ∧ b ≠ ch 'b' := by decide +kernel
      obtain ⟨n1, n2⟩ := this b ((isDigit_iff b).2 hb)
      rw [if_neg n1, if_neg n2, e]
    · exact e
  have hf : eatFloat (d :: t.filter (fun b => b != ch '_')) r = none ∨
      ∃ c, eatFloat (d :: t.filter (fun b => b != ch '_')) r = some (.int, d :: t.filter (fun b => b != ch '_'), c, r) := by
    match r, hr with
    | [], _ => exact .inl rfl
    | [b], _ =>
      rw [eatFloat.eq_def]
      dsimp only
      split
      · rename_i hb; exact .inr ⟨some (ch '.'), by rw [hb]⟩
      · exact .inl rfl
    | b :: x :: r', hr =>
      rw [eatFloat.eq_def]
      dsimp only
      split
      · rename_i hb
        have := hr.2 x r' (by rw [hb])
        rw [if_neg (by rw [isDigit_iff]; exact this)]
        exact .inr ⟨some x, by rw [hb]⟩
      · exact .inl rfl
  have hn : ∃ c, eatNumber l (d :: (t ++ r)) = some { l with type := .int, value := d :: t.filter (fun b => b != ch '_'), c := c, rest := r } := by
    rw [List.cons_append] at e1 e2 hnum
    rw [eatNumber, if_pos hd, e1, e2]
    dsimp only
    rw [hnum]
    dsimp only
    rcases hf with hf | ⟨c, hf⟩
    · rw [hf]; exact ⟨_, rfl⟩
    · rw [hf]; exact ⟨c, rfl⟩
  obtain ⟨c, hn⟩ := hn
  rw [gettok_number hl hd hn]
  exact ⟨rfl, hv, rfl, rfl⟩

/-- C80: hexadecimal and binary numerals: `0x` or `0X`, underscores, digits and underscores. -/
theorem based_numeral (l : Lex) {base : Nat} {sep x : Byte} {ok : Byte → Bool} {P : Byte → Prop} (hP : ∀ b, ok b = true ↔ P b) (us text ds r : List Byte)
    (hx : lowerB x = sep) (hus : ∀ b ∈ us, b = ch '_') (h : Digits P text ds) (h_ : ¬ P (ch '_')) (hr : NotNext (fun b => P b ∨ b = ch '_') r) :
    eatInt sep ok (ch '0' :: x :: us ++ text ++ r) = some (some (ch '0' :: sep :: ds), r) := by
  have hnum : numFill ok (text ++ r) = (ds, r) := numFill_digits hP h hr
  obtain ⟨d, t, rfl, h1, h2, rfl⟩ := h
  have hs : skipSep (us ++ (d :: t ++ r)) = d :: t ++ r := by
    have := (takeWhile_all (p := (· == ch '_')) (c := us) (r := d :: t ++ r) (fun b hb => by simpa using hus b hb) (fun b t' e => by
      cases e
      rw [beq_eq_false_iff_ne]
      rintro rfl
      exact h_ h1)).2
    exact this
  rw [List.append_assoc, List.cons_append, List.cons_append, eatInt, if_pos ⟨rfl, hx⟩, hs]
  show (if ok d = true then _ else _) = _
  rw [if_pos ((hP d).2 h1)]
  show some (some (ch '0' :: sep :: (numFill ok (d :: t ++ r)).1), (numFill ok (d :: t ++ r)).2) = _
  rw [hnum]

theorem C80_hex_partial (l : Lex) (x : Byte) (us text ds r : List Byte) (hx : x = ch 'x' ∨ x = ch 'X') (hus : ∀ b ∈ us, b = ch '_')
    (h : Digits HexDigit text ds) (hr : NotNext (fun b => HexDigit b ∨ b = ch '_') r) (hl : l.rest = ch '0' :: x :: us ++ text ++ r) :
    (gettok l).type = .int ∧ getInt (gettok l).value = clampedInt (numeralValue 16 ds) ∧ (gettok l).rest = r ∧ (gettok l).err = l.err := by
  have hb := based_numeral l (base := 16) (sep := ch 'x') (x := x) isXDigit_iff us text ds r (by rcases hx with rfl | rfl <;> decide) hus h
    (by rw [← isXDigit_iff]; decide) hr
  have hn : eatNumber l (ch '0' :: (x :: us ++ text ++ r)) = some { l with type := .int, value := ch '0' :: ch 'x' :: ds, c := r.head?, rest := r } := by
    rw [eatNumber, if_pos (by decide)]
    simp only [List.cons_append] at hb ⊢
    rw [hb]
  rw [gettok_number hl (by decide) hn]
  refine ⟨rfl, ?_, rfl, rfl⟩
  show getInt (ch '0' :: ch 'x' :: ds) = _
  rw [getInt, if_pos rfl, litStrtoll, hexVal_digits h.all, clampedInt]

theorem C80_bin_partial (l : Lex) (x : Byte) (us text ds r : List Byte) (hx : x = ch 'b' ∨ x = ch 'B') (hus : ∀ b ∈ us, b = ch '_')
    (h : Digits BinDigit text ds) (hr : NotNext (fun b => BinDigit b ∨ b = ch '_') r) (hl : l.rest = ch '0' :: x :: us ++ text ++ r) :
    (gettok l).type = .int ∧ getInt (gettok l).value = clampedInt (numeralValue 2 ds) ∧ (gettok l).rest = r ∧ (gettok l).err = l.err := by
  have hb := based_numeral l (base := 2) (sep := ch 'b') (x := x) isBDigit_iff us text ds r (by rcases hx with rfl | rfl <;> decide) hus h
    (by rw [← isBDigit_iff]; decide) hr
  have hnx : eatInt (ch 'x') isXDigit (ch '0' :: (x :: us ++ text ++ r)) = none :=
    eatInt_none (fun a b t e _ => by cases e; rcases hx with rfl | rfl <;> decide)
  have hn : eatNumber l (ch '0' :: (x :: us ++ text ++ r)) = some { l with type := .int, value := ch '0' :: ch 'b' :: ds, c := r.head?, rest := r } := by
    rw [eatNumber, if_pos (by decide), hnx]
    simp only [List.cons_append] at hb ⊢
    rw [hb]
  rw [gettok_number hl (by decide) hn]
  refine ⟨rfl, ?_, rfl, rfl⟩
  show getInt (ch '0' :: ch 'b' :: ds) = _
  rw [getInt, if_neg (by decide), if_pos rfl, litStrtoll, hexVal_digits (fun b hb => ?_), clampedInt]
  rcases h.all b hb with rfl | rfl <;> (left; unfold DecDigit; decide)

/-- C80: so a numeral below 2^63 is the int it denotes. -/
theorem C80_value (n : Nat) (h : n < 2 ^ 63) : (clampedInt n).toInt = n := by
  have e : min n (2 ^ 63 - 1) = n := by omega
  rw [clampedInt, e, BitVec.toInt_eq_toNat_cond, BitVec.toNat_ofNat, Nat.mod_eq_of_lt (by omega)]
  split <;> omega

/-- C80 fails from 2^63 on: every such numeral is 2^63 − 1, without an error. -/
theorem C80_clamped (n : Nat) (h : 2 ^ 63 ≤ n) : clampedInt n = 0x7fffffffffffffff#64 := by
  have e : min n (2 ^ 63 - 1) = 2 ^ 63 - 1 := by omega
  rw [clampedInt, e]

/-- an int and what may follow, and a numeral that is too large -/
example : Digits DecDigit (word "1_000") (word "1000") ∧ AfterInt (word ".tostr()") := by
  refine ⟨⟨ch '1', word "_000", rfl, by unfold DecDigit; decide, ?_, by decide⟩, ?_, ?_⟩
  · intro b hb
    have : ∀ b ∈ word "_000", isDigit b = true ∨ b = ch '_' := by decide
    exact (this b hb).imp_left (isDigit_iff b).1
  · intro b t e
    cases e
    simp only [← isDigit_iff]; decide
  · intro d t e
    cases e
    rw [← isDigit_iff]; decide
example : getInt (lexNth (word "0xffff_ffff_ffff_ffff") 1).value = 0x7fffffffffffffff#64 ∧ (lexNth (word "0xffff_ffff_ffff_ffff") 1).err = none := by
  decide +kernel

/-- C80: a float literal is handed to `strtod` without the underscores: integer part, dot, fraction; nothing else of the text is taken. -/
theorem C80_float_partial (l : Lex) (t1 d1 t2 d2 r : List Byte) (h1 : Digits DecDigit t1 d1) (h2 : Digits DecDigit t2 d2)
    (hr : NotNext (fun b => DecDigit b ∨ b = ch '_' ∨ b = ch 'e' ∨ b = ch 'E') r) (hl : l.rest = t1 ++ ch '.' :: (t2 ++ r)) :
    (gettok l).seen = (.float, d1 ++ ch '.' :: d2, l.line) ∧ (gettok l).rest = r ∧ (gettok l).err = l.err := by
  obtain ⟨e1, e2⟩ := no_base h1 (r := ch '.' :: (t2 ++ r)) (by intro b t e; cases e; simp only [← isDigit_iff]; decide)
  have n1 : numFill isDigit (t1 ++ ch '.' :: (t2 ++ r)) = (d1, ch '.' :: (t2 ++ r)) :=
    numFill_digits isDigit_iff h1 (by intro b t e; cases e; simp only [← isDigit_iff]; decide)
  have n2 : numFill isDigit (t2 ++ r) = (d2, r) := numFill_digits isDigit_iff h2 (by
    intro b t' e hb
    exact hr b t' e (by tauto))
  obtain ⟨y, t, rfl, g1, g2, rfl⟩ := h2
  have hf : ∃ c, eatFloat d1 (ch '.' :: (y :: t ++ r)) = some (.float, d1 ++ ch '.' :: (y :: t.filter (fun b => b != ch '_')), c, r) := by
    rw [eatFloat.eq_def]
    dsimp only [List.cons_append] at n2 ⊢
    rw [if_pos rfl, if_pos ((isDigit_iff y).2 g1), n2]
    dsimp only
    cases r with
    | nil => exact ⟨_, rfl⟩
    | cons x xs =>
      dsimp only
      rw [if_neg]
      · exact ⟨_, rfl⟩
      · intro he
        have := (lowerB_eq x).2.2 he
        have hx := hr x xs rfl
        simp at this
        tauto
  obtain ⟨c, hf⟩ := hf
  obtain ⟨d, s, rfl, k1, k2, rfl⟩ := h1
  have hd := (isDigit_iff d).2 k1
  have hn : eatNumber l (d :: (s ++ ch '.' :: (y :: t ++ r))) = some { l with
      type := .float, value := (d :: s.filter (fun b => b != ch '_')) ++ ch '.' :: (y :: t.filter (fun b => b != ch '_')), c := c, rest := r } := by
    rw [List.cons_append] at e1 e2 n1
    rw [eatNumber, if_pos hd, e1, e2]
    dsimp only
    rw [n1]
    dsimp only
    rw [hf]
  rw [gettok_number hl hd hn]
  exact ⟨rfl, rfl, rfl⟩

/-- C80: with an exponent: `e` or `E`, underscores, an optional sign, digits. -/
theorem C80_exponent_partial (l : Lex) (t1 d1 t2 d2 us sg t3 d3 r : List Byte) (x : Byte) (h1 : Digits DecDigit t1 d1) (h2 : Digits DecDigit t2 d2)
    (hx : x = ch 'e' ∨ x = ch 'E') (hus : ∀ b ∈ us, b = ch '_') (hsg : sg = [] ∨ sg = [ch '+'] ∨ sg = [ch '-']) (h3 : Digits DecDigit t3 d3)
    (hr : NotNext (fun b => DecDigit b ∨ b = ch '_') r) (hl : l.rest = t1 ++ ch '.' :: (t2 ++ x :: (us ++ (sg ++ (t3 ++ r))))) :
    (gettok l).seen = (.float, d1 ++ ch '.' :: d2 ++ ch 'e' :: (sg ++ d3), l.line) ∧ (gettok l).rest = r ∧ (gettok l).err = l.err := by
  obtain ⟨e1, e2⟩ := no_base h1 (r := ch '.' :: (t2 ++ x :: (us ++ (sg ++ (t3 ++ r))))) (by intro b t e; cases e; simp only [← isDigit_iff]; decide)
  have n1 : numFill isDigit (t1 ++ ch '.' :: (t2 ++ x :: (us ++ (sg ++ (t3 ++ r))))) = (d1, ch '.' :: (t2 ++ x :: (us ++ (sg ++ (t3 ++ r))))) :=
    numFill_digits isDigit_iff h1 (by intro b t e; cases e; simp only [← isDigit_iff]; decide)
  have n2 : numFill isDigit (t2 ++ x :: (us ++ (sg ++ (t3 ++ r)))) = (d2, x :: (us ++ (sg ++ (t3 ++ r)))) := numFill_digits isDigit_iff h2 (by
    intro b t e; cases e; simp only [← isDigit_iff]; rcases hx with rfl | rfl <;> decide)
  have n3 : numFill isDigit (skipSep (us ++ (sg ++ (t3 ++ r)))) = (sg ++ d3, r) := by
    have hs : skipSep (us ++ (sg ++ (t3 ++ r))) = sg ++ (t3 ++ r) := by
      refine (takeWhile_all (p := (· == ch '_')) (c := us) (r := sg ++ (t3 ++ r)) (fun b hb => by simpa using hus b hb) (fun b t' e => ?_)).2
      rw [beq_eq_false_iff_ne]
      rintro rfl
      rcases hsg with rfl | rfl | rfl
      · obtain ⟨d, t, rfl, g1, -, -⟩ := h3
        cases e
        exact absurd ((isDigit_iff _).2 g1) (by decide)
      · cases e
      · cases e
    rw [hs]
    have n4 : numFill isDigit (t3 ++ r) = (d3, r) := numFill_digits isDigit_iff h3 hr
    have n5 : fillTail isDigit (t3 ++ r) = (d3, r) := by
      obtain ⟨d, t, rfl, g1, g2, rfl⟩ := h3
      rw [List.cons_append, fillTail]
      have hne : d ≠ ch '_' := by rintro rfl; exact absurd ((isDigit_iff _).2 g1) (by decide)
      rw [List.cons_append, numFill, Prod.mk.injEq] at n4
      have n6 : fillTail isDigit (t ++ r) = (t.filter (fun b => b != ch '_'), r) := Prod.ext (by simpa using n4.1) n4.2
      rw [if_neg hne, if_pos ((isDigit_iff d).2 g1), n6]
    rcases hsg with rfl | rfl | rfl
    · exact n4
    · rw [show [ch '+'] ++ (t3 ++ r) = ch '+' :: (t3 ++ r) from rfl, numFill, n5]; rfl
    · rw [show [ch '-'] ++ (t3 ++ r) = ch '-' :: (t3 ++ r) from rfl, numFill, n5]; rfl
  obtain ⟨y, t, rfl, g1, g2, rfl⟩ := h2
  have hf : ∃ c, eatFloat d1 (ch '.' :: (y :: t ++ x :: (us ++ (sg ++ (t3 ++ r))))) =
      some (.float, d1 ++ ch '.' :: (y :: t.filter (fun b => b != ch '_')) ++ ch 'e' :: (sg ++ d3), c, r) := by
    rw [eatFloat.eq_def]
    dsimp only [List.cons_append] at n2 ⊢
    rw [if_pos rfl, if_pos ((isDigit_iff y).2 g1), n2]
    dsimp only
    rw [if_pos (by rcases hx with rfl | rfl <;> decide), n3]
    exact ⟨_, rfl⟩
  obtain ⟨c, hf⟩ := hf
  obtain ⟨d, s, rfl, k1, k2, rfl⟩ := h1
  have hd := (isDigit_iff d).2 k1
  have hn : eatNumber l (d :: (s ++ ch '.' :: (y :: t ++ x :: (us ++ (sg ++ (t3 ++ r)))))) = some { l with
      type := .float, value := (d :: s.filter (fun b => b != ch '_')) ++ ch '.' :: (y :: t.filter (fun b => b != ch '_')) ++ ch 'e' :: (sg ++ d3),
      c := c, rest := r } := by
    rw [List.cons_append] at e1 e2 n1
    rw [eatNumber, if_pos hd, e1, e2]
    dsimp only
    rw [n1]
    dsimp only
    rw [hf]
  rw [gettok_number hl hd hn]
  exact ⟨rfl, rfl, rfl⟩

example : (lexNth (word "12_3.4_5e_-6_7)") 1).seen = (.float, word "123.45e-67", 1) := by decide +kernel

/-- C80 fails for an exponent without digits: the byte after the `e` is taken, whatever it is — here the `)`. -/
theorem C80_exponent_swallows (l : Lex) (t1 d1 t2 d2 : List Byte) (b : Byte) (r : List Byte) (h1 : Digits DecDigit t1 d1) (h2 : Digits DecDigit t2 d2)
    (hb : b ≠ ch '_') (hr : NotNext (fun b => DecDigit b ∨ b = ch '_') r) (hl : l.rest = t1 ++ ch '.' :: (t2 ++ ch 'e' :: b :: r)) :
    (gettok l).seen = (.float, d1 ++ ch '.' :: d2 ++ ch 'e' :: [b], l.line) ∧ (gettok l).rest = r ∧ (gettok l).err = l.err := by
  obtain ⟨e1, e2⟩ := no_base h1 (r := ch '.' :: (t2 ++ ch 'e' :: b :: r)) (by intro b t e; cases e; simp only [← isDigit_iff]; decide)
  have n1 : numFill isDigit (t1 ++ ch '.' :: (t2 ++ ch 'e' :: b :: r)) = (d1, ch '.' :: (t2 ++ ch 'e' :: b :: r)) :=
    numFill_digits isDigit_iff h1 (by intro b t e; cases e; simp only [← isDigit_iff]; decide)
  have n2 : numFill isDigit (t2 ++ ch 'e' :: b :: r) = (d2, ch 'e' :: b :: r) := numFill_digits isDigit_iff h2 (by
    intro b t e; cases e; simp only [← isDigit_iff]; decide)
  have n3 : numFill isDigit (skipSep (b :: r)) = ([b], r) := by
    have hs : skipSep (b :: r) = b :: r := by rw [skipSep, List.dropWhile_cons, if_neg (by simpa using hb)]
    have hf := fillTail_exact (ok := isDigit) (t := []) (r := r) (by simp) (fun x t' e => by
      have := hr x t' e
      rw [not_or, ← isDigit_iff] at this
      exact ⟨this.2, by simpa using this.1⟩)
    rw [List.nil_append] at hf
    rw [hs, numFill, hf]; rfl
  obtain ⟨y, t, rfl, g1, g2, rfl⟩ := h2
  have hf : ∃ c, eatFloat d1 (ch '.' :: (y :: t ++ ch 'e' :: b :: r)) =
      some (.float, d1 ++ ch '.' :: (y :: t.filter (fun b => b != ch '_')) ++ ch 'e' :: [b], c, r) := by
    rw [eatFloat.eq_def]
    dsimp only [List.cons_append] at n2 ⊢
    rw [if_pos rfl, if_pos ((isDigit_iff y).2 g1), n2]
    dsimp only
    rw [if_pos (by decide), n3]
    exact ⟨_, rfl⟩
  obtain ⟨c, hf⟩ := hf
  obtain ⟨d, s, rfl, k1, k2, rfl⟩ := h1
  have hd := (isDigit_iff d).2 k1
  have hn : eatNumber l (d :: (s ++ ch '.' :: (y :: t ++ ch 'e' :: b :: r))) = some { l with
      type := .float, value := (d :: s.filter (fun b => b != ch '_')) ++ ch '.' :: (y :: t.filter (fun b => b != ch '_')) ++ ch 'e' :: [b],
      c := c, rest := r } := by
    rw [List.cons_append] at e1 e2 n1
    rw [eatNumber, if_pos hd, e1, e2]
    dsimp only
    rw [n1]
    dsimp only
    rw [hf]
  rw [gettok_number hl hd hn]
  exact ⟨rfl, rfl, rfl⟩

example : (lexNth (word "f(1.5e)") 3).seen = (.float, word "1.5e)", 1) ∧ (lexNth (word "f(1.5e)") 4).type = .eof := by decide +kernel

end Yasl
