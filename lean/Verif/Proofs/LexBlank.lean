import Verif.Proofs.LexTok
import Verif.Spec.Lexer
set_option autoImplicit false
/-! # Proofs about the lexer: layout -/
namespace Yasl

/-- `eatLayout` with a bound that is enough. -/
def skipLayout (pe : Bool) (cs : List Byte) (line : Nat) : Layout := eatLayout pe (cs.length + 1) cs line

theorem eatLayout_skip {pe : Bool} {f : Nat} {cs : List Byte} {line : Nat} (h : cs.length < f) : eatLayout pe f cs line = skipLayout pe cs line :=
  eatLayout_enough pe _ _ cs line h (by omega)

/-- Layout starts with the byte. -/
def startsLayout (b : Byte) : Bool := isBlankB b || b == ch '#' || b == ch '/'

theorem skip_nil (pe : Bool) (line : Nat) : skipLayout pe [] line = .none [] line := rfl

theorem skip_other {pe : Bool} {b : Byte} {cs : List Byte} {line : Nat} (h : startsLayout b = false) :
    skipLayout pe (b :: cs) line = .none (b :: cs) line := by
  rw [skipLayout, eatLayout, if_neg (by rw [← startsLayout, h]; simp)]

theorem skip_round {pe : Bool} {b : Byte} {cs : List Byte} {line : Nat} (h : startsLayout b = true) :
    skipLayout pe (b :: cs) line = match layoutRound pe (b :: cs) line with
      | .inl r => r
      | .inr (r, n) => skipLayout pe r n := by
  have hr := layoutRound_ok pe b cs line h
  rw [skipLayout, eatLayout, if_pos (show (isBlankB b || b == ch '#' || b == ch '/') = true from h)]
  rcases hx : layoutRound pe (b :: cs) line with res | ⟨r, n⟩
  · rfl
  · rw [hx] at hr
    exact eatLayout_skip hr.2.1

theorem skip_ws {pe : Bool} {b : Byte} {cs : List Byte} {line : Nat} (h : isBlankB b = true) (hp : b = ch '\n' → pe = false) :
    skipLayout pe (b :: cs) line = skipLayout pe cs (line + if b = ch '\n' then 1 else 0) := by
  have hs : startsLayout b = true := by simp [startsLayout, h]
  have e : eatWs pe (b :: cs) line = eatWs pe cs (line + if b = ch '\n' then 1 else 0) := by
    rw [eatWs, if_pos h]
    split
    · rename_i hb; rw [hp hb]; rfl
    · rfl
  rw [skip_round hs]
  cases cs with
  | nil =>
    have : layoutRound pe [b] line = .inl (.none [] (line + if b = ch '\n' then 1 else 0)) := by
      unfold layoutRound; rw [e]; rfl
    rw [this, skip_nil]
  | cons x cs =>
    by_cases hx : startsLayout x = true
    · rw [skip_round hx]
      have : layoutRound pe (b :: x :: cs) line = layoutRound pe (x :: cs) (line + if b = ch '\n' then 1 else 0) := by
        unfold layoutRound; rw [e]
      rw [this]
    · have hx' : startsLayout x = false := by simpa using hx
      have hx2 := hx'
      simp only [startsLayout, Bool.or_eq_false_iff, beq_eq_false_iff_ne, ne_eq] at hx2
      have : layoutRound pe (b :: x :: cs) line = .inr (x :: cs, line + if b = ch '\n' then 1 else 0) := by
        unfold layoutRound
        rw [e, eatWs, if_neg (by rw [hx2.1.1]; simp)]
        dsimp only
        rw [eatInline, if_neg hx2.1.2]
        dsimp only
        rw [if_neg hx2.2]
      rw [this]

theorem skip_newline {cs : List Byte} {line : Nat} : skipLayout true (ch '\n' :: cs) line = .semi (ch '\n') cs (line + 1) := by
  rw [skip_round (by decide)]
  have : layoutRound true (ch '\n' :: cs) line = .inl (.semi (ch '\n') cs (line + 1)) := by
    unfold layoutRound
    rw [eatWs, if_pos isBlankB_nl, if_pos rfl, if_pos rfl]
    rfl
  rw [this]

theorem dropWhile_line {c w : List Byte} (h : ∀ b ∈ c, b ≠ ch '\n') : (c ++ ch '\n' :: w).dropWhile (· != ch '\n') = ch '\n' :: w := by
  induction c with
  | nil => simp
  | cons b c ih =>
    rw [List.cons_append, List.dropWhile_cons, if_pos (by simpa using h b (by simp))]
    exact ih (fun x hx => h x (by simp [hx]))

theorem skip_line {pe : Bool} {c w : List Byte} {line : Nat} (h : ∀ b ∈ c, b ≠ ch '\n') :
    skipLayout pe (ch '#' :: (c ++ ch '\n' :: w)) line = skipLayout pe (ch '\n' :: w) line := by
  rw [skip_round (by decide)]
  have : layoutRound pe (ch '#' :: (c ++ ch '\n' :: w)) line = .inr (ch '\n' :: w, line) := by
    unfold layoutRound
    rw [eatWs, if_neg (by decide)]
    dsimp only
    rw [eatInline, if_pos rfl, dropWhile_line h]
    dsimp only
    rw [if_neg (by decide)]
  rw [this]

theorem eatBlock_body : ∀ (c w : List Byte) (line : Nat) (semi : Bool), ¬ [ch '*', ch '/'] <:+: c ++ [ch '*'] →
    eatBlock (c ++ ch '*' :: ch '/' :: w) line semi = (some w, line + nls c, semi || c.contains (ch '\n')) := by
  intro c
  induction c with
  | nil => intro w line semi _; simp [eatBlock]
  | cons c1 c ih =>
    intro w line semi h
    have h' : ¬ [ch '*', ch '/'] <:+: c ++ [ch '*'] := fun hi => h (hi.trans (List.suffix_cons _ _).isInfix)
    have ih' := ih w (if c1 = ch '\n' then line + 1 else line)
    cases c with
    | nil =>
      show eatBlock (c1 :: ch '*' :: ch '/' :: w) line semi = _
      rw [eatBlock, if_neg (by rintro ⟨-, h2⟩; exact absurd h2 (by decide))]
      rw [show ch '*' :: ch '/' :: w = [] ++ ch '*' :: ch '/' :: w from rfl, ih' _ h', nls_cons]
      by_cases hc : c1 = ch '\n'
      · simp [hc]
      · have hc' : ch '\n' ≠ c1 := fun e => hc e.symm
        have h1 : (c1 == ch '\n') = false := by simpa using hc
        have h2 : ([c1].contains (ch '\n')) = false := by simpa using hc'
        have h3 : (ch '*' == ch '\n') = false := by decide
        rw [if_neg hc, if_neg hc, h1, h2, h3]; simp
    | cons c2 c =>
      show eatBlock (c1 :: c2 :: (c ++ ch '*' :: ch '/' :: w)) line semi = _
      rw [eatBlock, if_neg (by rintro ⟨rfl, rfl⟩; exact h ⟨[], c ++ [ch '*'], rfl⟩)]
      rw [show c2 :: (c ++ ch '*' :: ch '/' :: w) = (c2 :: c) ++ ch '*' :: ch '/' :: w from rfl, ih' _ h', nls_cons c1]
      congr 1
      congr 1
      · split <;> omega
      · rw [List.contains_cons, List.contains_cons, List.contains_cons, Bool.beq_comm (a := c1), Bool.beq_comm (a := c2)]
        cases (ch '\n' == c1) <;> cases (ch '\n' == c2) <;> cases semi <;> rfl

theorem contains_nls (c : List Byte) : c.contains (ch '\n') = (nls c != 0) := by
  rw [Bool.eq_iff_iff]
  simp [nls, List.count_eq_zero]

theorem skip_block {pe : Bool} {c w : List Byte} {line : Nat} (h : ¬ [ch '*', ch '/'] <:+: c ++ [ch '*']) :
    skipLayout pe (ch '/' :: ch '*' :: (c ++ ch '*' :: ch '/' :: w)) line =
      if pe = true ∧ nls c ≠ 0 then .semi (ch ' ') w (line + nls c) else skipLayout pe w (line + nls c) := by
  rw [skip_round (by decide)]
  have : layoutRound pe (ch '/' :: ch '*' :: (c ++ ch '*' :: ch '/' :: w)) line =
      if pe = true ∧ nls c ≠ 0 then .inl (.semi (ch ' ') w (line + nls c)) else .inr (ch ' ' :: w, line + nls c) := by
    unfold layoutRound
    rw [eatWs, if_neg (by decide)]
    dsimp only
    rw [eatInline, if_neg (by decide)]
    dsimp only
    rw [if_pos rfl, if_pos rfl, eatBlock_body c w line false h, contains_nls]
    by_cases h1 : pe = true <;> by_cases h2 : nls c = 0 <;> simp [h1, h2]
  rw [this]
  by_cases hh : pe = true ∧ nls c ≠ 0
  · rw [if_pos hh, if_pos hh]
  · rw [if_neg hh, if_neg hh]
    dsimp only
    rw [skip_ws (by decide) (fun h => absurd h (by decide)), if_neg (by decide), Nat.add_zero]

theorem line_append (c w r : List Byte) : (ch '#' :: c ++ ch '\n' :: w) ++ r = ch '#' :: (c ++ ch '\n' :: (w ++ r)) := by simp

theorem block_append (c w r : List Byte) : (ch '/' :: ch '*' :: c ++ ch '*' :: ch '/' :: w) ++ r = ch '/' :: ch '*' :: (c ++ ch '*' :: ch '/' :: (w ++ r)) := by
  simp

/-- Layout without a line end, or not at the end of a statement. -/
theorem skip_blank {pe : Bool} {w : List Byte} (hw : Blank w) : ∀ (r : List Byte) (line : Nat), (pe = false ∨ nls w = 0) →
    skipLayout pe (w ++ r) line = skipLayout pe r (line + nls w) := by
  induction hw with
  | nil => intro r line _; simp
  | @space w _ ih =>
    intro r line h
    have e : nls (ch ' ' :: w) = nls w := by rw [nls_cons, if_neg (by decide)]; rfl
    rw [e] at h ⊢
    rw [List.cons_append, skip_ws (by decide) (fun h => absurd h (by decide)), if_neg (by decide), Nat.add_zero, ih r line h]
  | @tab w _ ih =>
    intro r line h
    have e : nls (ch '\t' :: w) = nls w := by rw [nls_cons, if_neg (by decide)]; rfl
    rw [e] at h ⊢
    rw [List.cons_append, skip_ws (by decide) (fun h => absurd h (by decide)), if_neg (by decide), Nat.add_zero, ih r line h]
  | @newline w _ ih =>
    intro r line h
    have e : nls (ch '\n' :: w) = nls w + 1 := by rw [nls_cons, if_pos rfl]
    rw [e] at h ⊢
    have hp : pe = false := by rcases h with h | h; exact h; omega
    rw [List.cons_append, skip_ws isBlankB_nl (fun _ => hp), if_pos rfl, ih r _ (.inl hp)]
    congr 1; omega
  | @line c w hc _ ih =>
    intro r line h
    have e : nls (ch '#' :: c ++ ch '\n' :: w) = nls w + 1 := by
      rw [List.cons_append, nls_cons, if_neg (by decide), nls_append, nls_cons, if_pos rfl]
      have : nls c = 0 := List.count_eq_zero.2 (fun hm => hc _ hm rfl)
      omega
    rw [e] at h ⊢
    have hp : pe = false := by rcases h with h | h; exact h; omega
    rw [line_append, skip_line hc, skip_ws isBlankB_nl (fun _ => hp), if_pos rfl, ih r _ (.inl hp)]
    congr 1; omega
  | @block c w hc _ ih =>
    intro r line h
    have e : nls (ch '/' :: ch '*' :: c ++ ch '*' :: ch '/' :: w) = nls c + nls w := by
      rw [List.cons_append, List.cons_append, nls_cons, nls_cons, if_neg (by decide), if_neg (by decide), nls_append, nls_cons, nls_cons, if_neg (by decide),
        if_neg (by decide)]; rfl
    rw [e] at h ⊢
    rw [block_append, skip_block hc, if_neg, ih r _ (by rcases h with h | h; exact .inl h; exact .inr (by omega))]
    · congr 1; omega
    · rintro ⟨h1, h2⟩
      rcases h with h | h
      · rw [h] at h1; cases h1
      · omega

/-- Layout with a line end where a statement can end: the token `;`, and the rest of the layout is left. -/
theorem skip_blank_semi {w : List Byte} (hw : Blank w) : ∀ (r : List Byte) (line : Nat), nls w ≠ 0 →
    ∃ c w' n, skipLayout true (w ++ r) line = .semi c (w' ++ r) n ∧ Blank w' ∧ n + nls w' = line + nls w := by
  induction hw with
  | nil => intro r line h; exact absurd rfl h
  | @space w _ ih =>
    intro r line h
    have e : nls (ch ' ' :: w) = nls w := by rw [nls_cons, if_neg (by decide)]; rfl
    rw [e] at h ⊢
    rw [List.cons_append, skip_ws (by decide) (fun h => absurd h (by decide)), if_neg (by decide), Nat.add_zero]
    exact ih r line h
  | @tab w _ ih =>
    intro r line h
    have e : nls (ch '\t' :: w) = nls w := by rw [nls_cons, if_neg (by decide)]; rfl
    rw [e] at h ⊢
    rw [List.cons_append, skip_ws (by decide) (fun h => absurd h (by decide)), if_neg (by decide), Nat.add_zero]
    exact ih r line h
  | @newline w hb ih =>
    intro r line h
    exact ⟨ch '\n', w, line + 1, by rw [List.cons_append, skip_newline], hb, by rw [nls_cons, if_pos rfl]; omega⟩
  | @line c w hc hb ih =>
    intro r line h
    refine ⟨ch '\n', w, line + 1, by rw [line_append, skip_line hc, skip_newline], hb, ?_⟩
    rw [List.cons_append, nls_cons, if_neg (by decide), nls_append, nls_cons, if_pos rfl]
    have : nls c = 0 := List.count_eq_zero.2 (fun hm => hc _ hm rfl)
    omega
  | @block c w hc hb ih =>
    intro r line h
    have e : nls (ch '/' :: ch '*' :: c ++ ch '*' :: ch '/' :: w) = nls c + nls w := by
      rw [List.cons_append, List.cons_append, nls_cons, nls_cons, if_neg (by decide), if_neg (by decide), nls_append, nls_cons, nls_cons, if_neg (by decide),
        if_neg (by decide)]; rfl
    rw [e] at h ⊢
    rw [block_append, skip_block hc]
    by_cases hn : nls c = 0
    · rw [if_neg (by simp [hn]), hn, Nat.add_zero, Nat.zero_add]
      exact ih r line (by omega)
    · rw [if_pos ⟨rfl, hn⟩]
      exact ⟨ch ' ', w, line + nls c, rfl, hb, by omega⟩

/-- Where no layout starts, the token is read there. -/
theorem skip_noLayout {pe : Bool} {b : Byte} {cs : List Byte} {line : Nat} (h : NoLayout (b :: cs)) : skipLayout pe (b :: cs) line = .none (b :: cs) line := by
  obtain ⟨h1, h2, h3⟩ := h b cs rfl
  by_cases hb : b = ch '/'
  · obtain ⟨b2, t, rfl, hb2⟩ := h3 hb
    rw [skip_round (by simp [startsLayout, hb])]
    have : layoutRound pe (b :: b2 :: t) line = .inl (.none (b :: b2 :: t) line) := by
      unfold layoutRound
      rw [eatWs, if_neg (by rw [h1]; simp)]
      dsimp only
      rw [eatInline, if_neg h2]
      dsimp only
      rw [if_pos hb, if_neg hb2]
    rw [this]
  · exact skip_other (by simp [startsLayout, h1, h2, hb])

theorem gettok_eq (l : Lex) : gettok l = match skipLayout l.type.potentialEnd l.rest l.line with
  | .semi c r line => { l with type := .semi, value := [], c := some c, rest := r, line := line }
  | .slash line => { l with type := .slash, value := [], c := none, rest := [], line := line }
  | .error line => { ({ l with line := line } : Lex).error .unclosedComment [] with c := some (ch ' ') }
  | .none cs line => lexTok { l with line := line } cs := rfl

theorem gettok_tok {l : Lex} {b : Byte} {cs : List Byte} (hl : l.rest = b :: cs) (h : NoLayout (b :: cs)) : gettok l = lexTok l (b :: cs) := by
  rw [gettok_eq, hl, skip_noLayout h, ← hl]

/-- `lexTok` does not look at the position before. -/
theorem eatNumber_congr (l : Lex) (cs rest v : List Byte) (c : Option Byte) :
    eatNumber { l with rest := rest, c := c, value := v } cs = eatNumber l cs := by
  cases cs with
  | nil => rfl
  | cons b cs => simp only [eatNumber, Lex.error]

theorem lexKeyword_congr (l : Lex) (w cs rest v : List Byte) (c : Option Byte) :
    lexKeyword { l with rest := rest, c := c, value := v } w cs = lexKeyword l w cs := by
  simp only [lexKeyword, Lex.error]

theorem eatId_congr (l : Lex) (cs rest v : List Byte) (c : Option Byte) : eatId { l with rest := rest, c := c, value := v } cs = eatId l cs := by
  cases cs with
  | nil => rfl
  | cons b cs => simp only [eatId, lexKeyword_congr]

theorem lexTok_congr (l : Lex) (cs rest v : List Byte) (c : Option Byte) : lexTok { l with rest := rest, c := c, value := v } cs = lexTok l cs := by
  cases cs with
  | nil => rfl
  | cons b cs => simp only [lexTok, eatNumber_congr, eatId_congr, eatString, eatRaw, eatInterpBody, Lex.error]

theorem gettok_congr (l : Lex) (v : List Byte) (c : Option Byte) : gettok { l with c := c, value := v } = gettok l := by
  rw [gettok_eq, gettok_eq]
  dsimp only
  split
  · rfl
  · rfl
  · rfl
  · rename_i cs line _
    exact lexTok_congr { l with line := line } cs l.rest v c

theorem potentialEnd_iff (t : Tok) : t.potentialEnd = true ↔ EndsStatement t := by
  cases t <;> simp [Tok.potentialEnd, EndsStatement]

end Yasl
