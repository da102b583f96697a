import Verif.Proofs.Lexer
set_option autoImplicit false
/-! # Proofs about the lexer: every token takes something from the input, and line ends are counted -/
namespace Yasl

theorem fillTail_spec (ok : Byte → Bool) : ∀ cs : List Byte, ∃ u, cs = u ++ (fillTail ok cs).2 ∧ (∀ b ∈ u, b = ch '_' ∨ ok b = true) ∧
    (fillTail ok cs).1 = u.filter (· != ch '_') ∧ (∀ b t, (fillTail ok cs).2 = b :: t → b ≠ ch '_' ∧ ok b = false) := by
  intro cs
  induction cs with
  | nil => exact ⟨[], rfl, by simp, rfl, by simp [fillTail]⟩
  | cons b cs ih =>
    obtain ⟨u, h1, h2, h3, h4⟩ := ih
    rw [fillTail]
    split
    · rename_i hb
      refine ⟨b :: u, by rw [List.cons_append, ← h1], ?_, ?_, h4⟩
      · intro x hx
        rcases List.mem_cons.1 hx with rfl | hx
        · exact .inl hb
        · exact h2 x hx
      · rw [h3, List.filter_cons, if_neg (by simp [hb])]
    · rename_i hb
      split
      · rename_i ho
        refine ⟨b :: u, by rw [List.cons_append, ← h1], ?_, ?_, h4⟩
        · intro x hx
          rcases List.mem_cons.1 hx with rfl | hx
          · exact .inr ho
          · exact h2 x hx
        · rw [h3, List.filter_cons, if_pos (by simpa using hb)]
      · rename_i ho
        refine ⟨[], rfl, by simp, rfl, ?_⟩
        intro x t hx
        cases hx
        exact ⟨hb, by simpa using ho⟩

/-- A predicate on bytes that excludes the line end. -/
def NoNl (ok : Byte → Bool) : Prop := ok (ch '\n') = false

theorem fillTail_lines {ok : Byte → Bool} (h : NoNl ok) (cs : List Byte) : (fillTail ok cs).2 <:+ cs ∧ nls (fillTail ok cs).2 = nls cs := by
  obtain ⟨u, h1, h2, -, -⟩ := fillTail_spec ok cs
  refine ⟨⟨u, h1.symm⟩, ?_⟩
  have : nls u = 0 := by
    rw [nls, List.count_eq_zero]
    intro hm
    rcases h2 _ hm with hb | hb
    · exact absurd hb (by decide)
    · rw [h] at hb; cases hb
  conv => rhs; rw [h1]
  rw [nls_append, this]; omega

theorem skipSep_lines (cs : List Byte) : skipSep cs <:+ cs ∧ nls (skipSep cs) = nls cs := by
  refine ⟨List.dropWhile_suffix _, ?_⟩
  unfold skipSep
  induction cs with
  | nil => rfl
  | cons b cs ih =>
    rw [List.dropWhile_cons]
    split
    · rename_i hb
      rw [ih, nls_cons, if_neg]; · rfl
      have : b = ch '_' := by simpa using hb
      rw [this]; decide
    · rfl

/-- The result of a scanner that was given `cs`. -/
def Took (cs : List Byte) (l r : Lex) : Prop := r.rest <:+ cs ∧ r.rest.length < cs.length ∧ r.type ≠ .eof ∧
  (r.type ≠ .unknown → (r.type = .float → ch '\n' ∉ r.value) → ¬ [ch '\\', ch 'x', ch '\n'] <:+: cs → r.line + nls r.rest = l.line + nls cs)

theorem Took.error {cs cs' : List Byte} (l : Lex) (e : LexErr) (n : Nat) (h : cs' <:+ cs) (hc : cs ≠ []) : Took cs l ({ l with line := n }.error e cs') := by
  have : 0 < cs.length := List.length_pos_iff.2 hc
  have hl := h.length_le
  refine ⟨(List.tail_suffix _).trans h, ?_, by simp [Lex.error], fun hn => absurd rfl hn⟩
  show cs'.tail.length < cs.length
  rw [List.length_tail]; omega

theorem Took.error' {cs cs' : List Byte} (l : Lex) (e : LexErr) (h : cs' <:+ cs) (hc : cs ≠ []) : Took cs l (l.error e cs') :=
  Took.error l e l.line h hc

theorem noNl_digit : NoNl isDigit := by unfold NoNl; decide
theorem noNl_xdigit : NoNl isXDigit := by unfold NoNl; decide
theorem noNl_bdigit : NoNl isBDigit := by unfold NoNl; decide

theorem numFill_lines {ok : Byte → Bool} (h : NoNl ok) {b : Byte} (cs : List Byte) (hb : b ≠ ch '\n') :
    (numFill ok (b :: cs)).2 <:+ cs ∧ nls (numFill ok (b :: cs)).2 = nls (b :: cs) := by
  obtain ⟨h1, h2⟩ := fillTail_lines h cs
  exact ⟨h1, by rw [nls_cons, if_neg hb]; exact h2⟩

theorem ne_nl_of {ok : Byte → Bool} (h : NoNl ok) {b : Byte} (hb : ok b = true) : b ≠ ch '\n' := by
  rintro rfl; rw [h] at hb; cases hb

theorem lower_ne_nl {a b : Byte} (h : lowerB a = b) (hb : b ≠ ch '\n') : a ≠ ch '\n' := by
  rintro rfl; exact hb (by rw [← h]; decide)

theorem eatInt_ok {sep : Byte} {ok : Byte → Bool} (h : NoNl ok) (hs : sep ≠ ch '\n') {cs : List Byte} {v : Option (List Byte)} {r : List Byte}
    (e : eatInt sep ok cs = some (v, r)) : r <:+ cs ∧ r.length < cs.length ∧ (v ≠ none → nls r = nls cs) := by
  match cs, e with
  | [], e => simp [eatInt] at e
  | [_], e => simp [eatInt] at e
  | a :: b :: cs, e =>
    rw [eatInt] at e
    split at e
    · rename_i hh
      obtain ⟨s1, s2⟩ := skipSep_lines cs
      have hb : b ≠ ch '\n' := lower_ne_nl hh.2 hs
      have hn : nls (a :: b :: cs) = nls cs := by
        rw [nls_cons, nls_cons, if_neg hb, if_neg (by rw [hh.1]; decide)]; rfl
      have hl := s1.length_le
      split at e
      · cases e; exact ⟨List.nil_suffix, by simp, fun hv => absurd rfl hv⟩
      · rename_i d ds hd
        rw [hd] at s1 s2 hl
        have s1' : d :: ds <:+ a :: b :: cs := s1.trans ((List.suffix_cons _ _).trans (List.suffix_cons _ _))
        split at e
        · rename_i hok
          cases e
          obtain ⟨g1, g2⟩ := numFill_lines h ds (ne_nl_of h hok)
          have := g1.length_le
          refine ⟨g1.trans ((List.suffix_cons _ _).trans s1'), by simp only [List.length_cons] at hl ⊢; omega, fun _ => ?_⟩
          rw [g2, s2, hn]
        · cases e
          exact ⟨s1', by simp only [List.length_cons] at hl ⊢; omega, fun hv => absurd rfl hv⟩
    · cases e

theorem eatFloat_ok {ds cs : List Byte} {t : Tok} {v : List Byte} {c : Option Byte} {r : List Byte} (e : eatFloat ds cs = some (t, v, c, r)) :
    r <:+ cs ∧ (t = .int ∨ t = .float) ∧ (t = .float → ch '\n' ∉ v → nls r = nls cs) ∧ (t = .int → r = cs ∧ v = ds) := by
  cases cs with
  | nil => simp [eatFloat] at e
  | cons b cs =>
    rw [eatFloat.eq_def] at e
    dsimp only at e
    split at e
    · rename_i hb
      subst hb
      cases cs with
      | nil =>
        simp only [Option.some.injEq, Prod.mk.injEq] at e
        obtain ⟨rfl, rfl, rfl, rfl⟩ := e
        exact ⟨List.suffix_refl _, .inl rfl, by simp, fun _ => ⟨rfl, rfl⟩⟩
      | cons d cs =>
        dsimp only at e
        split at e
        · rename_i hd
          have hdn := ne_nl_of noNl_digit hd
          obtain ⟨g1, g2⟩ := numFill_lines noNl_digit cs hdn
          have hn : nls (ch '.' :: d :: cs) = nls (d :: cs) := by rw [nls_cons (ch '.'), if_neg (by decide)]; rfl
          have s0 : cs <:+ ch '.' :: d :: cs := (List.suffix_cons _ _).trans (List.suffix_cons _ _)
          split at e
          · rename_i hf
            simp only [Option.some.injEq, Prod.mk.injEq] at e
            obtain ⟨rfl, rfl, rfl, rfl⟩ := e
            rw [hf] at g2
            exact ⟨List.nil_suffix, .inr rfl, fun _ _ => by rw [hn]; exact g2, by simp⟩
          · rename_i x r' hf
            rw [hf] at g1 g2
            split at e
            · rename_i hx
              simp only [Option.some.injEq, Prod.mk.injEq] at e
              obtain ⟨rfl, rfl, rfl, rfl⟩ := e
              obtain ⟨s1, s2⟩ := skipSep_lines r'
              have hxn : x ≠ ch '\n' := lower_ne_nl hx (by decide)
              have h0 : nls (x :: r') = nls r' := by rw [nls_cons, if_neg hxn]; rfl
              have sr : r' <:+ ch '.' :: d :: cs := ((List.suffix_cons _ _).trans g1).trans s0
              cases hs : skipSep r' with
              | nil =>
                rw [hs] at s2
                refine ⟨List.nil_suffix, .inr rfl, fun _ _ => ?_, by simp⟩
                show nls [] = _
                rw [hn, ← g2, h0, ← s2]
              | cons y ys =>
                rw [hs] at s1 s2
                have q : (numFill isDigit (y :: ys)).2 <:+ ys := (fillTail_lines noNl_digit ys).1
                refine ⟨(q.trans (List.suffix_cons _ _)).trans (s1.trans sr), .inr rfl, fun _ hv => ?_, by simp⟩
                have hy : y ≠ ch '\n' := by
                  rintro rfl
                  exact hv (by simp [numFill])
                rw [(numFill_lines noNl_digit ys hy).2, hn, ← g2, h0, s2]
            · simp only [Option.some.injEq, Prod.mk.injEq] at e
              obtain ⟨rfl, rfl, rfl, rfl⟩ := e
              exact ⟨g1.trans s0, .inr rfl, fun _ _ => by rw [hn, ← g2], by simp⟩
        · simp only [Option.some.injEq, Prod.mk.injEq] at e
          obtain ⟨rfl, rfl, rfl, rfl⟩ := e
          exact ⟨List.suffix_refl _, .inl rfl, by simp, fun _ => ⟨rfl, rfl⟩⟩
    · cases e

theorem eatNumber_took {l : Lex} {cs : List Byte} {r : Lex} (e : eatNumber l cs = some r) : Took cs l r := by
  cases cs with
  | nil => simp [eatNumber] at e
  | cons b cs =>
    rw [eatNumber] at e
    split at e
    · rename_i hb
      have hbn := ne_nl_of noNl_digit hb
      split at e
      · rename_i v r' hi
        cases e
        obtain ⟨h1, h2, h3⟩ := eatInt_ok noNl_xdigit (by decide) hi
        exact ⟨h1, h2, by simp, fun _ _ _ => by show l.line + nls r' = _; rw [h3 (by simp)]⟩
      · rename_i r' hi
        cases e
        obtain ⟨h1, h2, h3⟩ := eatInt_ok noNl_xdigit (by decide) hi
        exact Took.error' l _ h1 (by simp)
      · split at e
        · rename_i v r' hi
          cases e
          obtain ⟨h1, h2, h3⟩ := eatInt_ok noNl_bdigit (by decide) hi
          exact ⟨h1, h2, by simp, fun _ _ _ => by show l.line + nls r' = _; rw [h3 (by simp)]⟩
        · rename_i r' hi
          cases e
          obtain ⟨h1, h2, h3⟩ := eatInt_ok noNl_bdigit (by decide) hi
          exact Took.error' l _ h1 (by simp)
        · obtain ⟨g1, g2⟩ := numFill_lines noNl_digit cs hbn
          have hl := g1.length_le
          dsimp only at e
          split at e
          · rename_i t v c rest hf
            cases e
            obtain ⟨h1, h2, h3, h4⟩ := eatFloat_ok hf
            have hl' := h1.length_le
            refine ⟨h1.trans (g1.trans (List.suffix_cons _ _)), by simp only [List.length_cons]; omega, ?_, ?_⟩
            · rcases h2 with rfl | rfl <;> simp
            · intro _ hv _
              show l.line + nls rest = _
              rcases h2 with rfl | rfl
              · rw [(h4 rfl).1, g2]
              · rw [h3 rfl (hv rfl), g2]
          · cases e
            exact ⟨g1.trans (List.suffix_cons _ _), by simp only [List.length_cons]; omega, by simp, fun _ _ _ => by
              show l.line + nls _ = _; rw [g2]⟩
    · cases e

theorem dropId_lines (cs : List Byte) : nls (cs.dropWhile isIdChar) = nls cs := by
  induction cs with
  | nil => rfl
  | cons b cs ih =>
    rw [List.dropWhile_cons]
    split
    · rename_i hb
      rw [ih, nls_cons, if_neg (ne_nl_of (by unfold NoNl; decide : NoNl isIdChar) hb)]; rfl
    · rfl

theorem keywords_type : ∀ k ∈ keywords, k.2 ≠ .eof ∧ k.2 ≠ .float := by decide

theorem lexKeyword_facts (l : Lex) (w cs : List Byte) : (lexKeyword l w cs).type ≠ .eof ∧ (lexKeyword l w cs).line = l.line := by
  unfold lexKeyword
  split
  · simp [Lex.error]
  · split
    · rename_i k hk
      exact ⟨(keywords_type k (List.mem_of_find?_eq_some hk)).1, rfl⟩
    · split <;> simp

theorem eatId_took {l : Lex} {cs : List Byte} {r : Lex} (e : eatId l cs = some r) : Took cs l r := by
  cases cs with
  | nil => simp [eatId] at e
  | cons b cs =>
    rw [eatId] at e
    split at e
    · rename_i hb
      have hbn := ne_nl_of (by unfold NoNl; decide : NoNl isIdStart) hb
      have hs : cs.dropWhile isIdChar <:+ b :: cs := (List.dropWhile_suffix _).trans (List.suffix_cons _ _)
      have hl : (cs.dropWhile isIdChar).length ≤ cs.length := (List.dropWhile_suffix _).length_le
      have hn : nls (cs.dropWhile isIdChar) = nls (b :: cs) := by rw [dropId_lines, nls_cons, if_neg hbn]; rfl
      dsimp only at e
      split at e
      · cases e
        exact ⟨hs, by simp only [List.length_cons]; omega, by simp, fun _ _ _ => by show l.line + nls _ = _; rw [hn]⟩
      · cases e
        obtain ⟨f1, f2⟩ := lexKeyword_facts l (b :: cs.takeWhile isIdChar) (cs.dropWhile isIdChar)
        exact ⟨hs, by simp only [List.length_cons]; omega, f1, fun _ _ _ => by
          show (lexKeyword _ _ _).line + nls _ = _; rw [f2, hn]⟩
    · cases e

theorem skipBad_suffix (d : Byte) (cs : List Byte) : skipBadString d cs <:+ cs := List.dropWhile_suffix _

theorem simpleEscapes_ne : ∀ p ∈ simpleEscapes, ch p.1 ≠ ch '\n' := by decide

theorem strtol2_second {a b : Byte} {v : Byte} (h : strtol2 a b = some v) : b ≠ ch '\n' := by
  rw [strtol2] at h
  split at h
  · rename_i hb; exact ne_nl_of noNl_xdigit hb
  · cases h

theorem strBody_suffix (stop : Byte → Bool) (delim : Byte) : ∀ (n : Nat) (cs acc : List Byte), cs.length ≤ n →
    (strBody stop delim cs acc).2 <:+ cs ∧
    (∀ v b, (strBody stop delim cs acc).1 = .inr (v, b) → stop b = true ∧
      (stop (ch '\n') = false → ¬ [ch '\\', ch 'x', ch '\n'] <:+: cs → nls (strBody stop delim cs acc).2 = nls cs)) := by
  intro n
  induction n with
  | zero =>
    intro cs acc h
    rw [List.length_eq_zero_iff.1 (Nat.le_zero.1 h), strBody]
    exact ⟨List.suffix_refl _, by simp⟩
  | succ n ih =>
    intro cs acc hl
    cases cs with
    | nil => rw [strBody]; exact ⟨List.suffix_refl _, by simp⟩
    | cons b cs =>
      rw [strBody.eq_def]
      dsimp only
      have hl' : cs.length ≤ n := by simp only [List.length_cons] at hl; omega
      split
      · rename_i hs
        refine ⟨List.suffix_cons _ _, ?_⟩
        intro v b' e
        simp only [Sum.inr.injEq, Prod.mk.injEq] at e
        obtain ⟨rfl, rfl⟩ := e
        refine ⟨hs, fun hn _ => ?_⟩
        rw [nls_cons, if_neg (by rintro rfl; rw [hn] at hs; cases hs)]; rfl
      · split
        · exact ⟨List.suffix_refl _, by simp⟩
        · rename_i hbn
          split
          · rename_i hbs
            cases cs with
            | nil => exact ⟨List.nil_suffix, by simp⟩
            | cons e cs =>
              dsimp only
              have hl2 : cs.length ≤ n := by simp only [List.length_cons] at hl'; omega
              have s2 : cs <:+ b :: e :: cs := (List.suffix_cons _ _).trans (List.suffix_cons _ _)
              split
              · rename_i p hp
                obtain ⟨g1, g2⟩ := ih cs (acc ++ [p.2]) hl2
                refine ⟨g1.trans s2, fun v b' h => ?_⟩
                obtain ⟨q1, q2⟩ := g2 v b' h
                refine ⟨q1, fun hn hx => ?_⟩
                have he : e ≠ ch '\n' := by
                  have m := List.mem_of_find?_eq_some hp
                  have := List.find?_some hp
                  have hpe : ch p.1 = e := by simpa using this
                  rw [← hpe]; exact simpleEscapes_ne p m
                rw [q2 hn (fun hi => hx (hi.trans s2.isInfix)), nls_cons, nls_cons, if_neg hbn, if_neg he]; rfl
              · split
                · rename_i hex
                  match cs, hl2, s2 with
                  | [], _, _ => exact ⟨List.nil_suffix, by simp⟩
                  | [_], _, _ => exact ⟨List.nil_suffix, by simp⟩
                  | h1 :: h2 :: cs, hl2, s2 =>
                    dsimp only
                    split
                    · rename_i v0 hv
                      have hl3 : cs.length ≤ n := by simp only [List.length_cons] at hl2; omega
                      have s4 : cs <:+ b :: e :: h1 :: h2 :: cs := ((List.suffix_cons _ _).trans (List.suffix_cons _ _)).trans s2
                      obtain ⟨g1, g2⟩ := ih cs (acc ++ [v0]) hl3
                      refine ⟨g1.trans s4, fun v b' h => ?_⟩
                      obtain ⟨q1, q2⟩ := g2 v b' h
                      refine ⟨q1, fun hn hx => ?_⟩
                      have hh1 : h1 ≠ ch '\n' := by
                        rintro rfl
                        exact hx ⟨[], h2 :: cs, by rw [hbs, hex]; rfl⟩
                      rw [q2 hn (fun hi => hx (hi.trans s4.isInfix)), nls_cons, nls_cons, nls_cons, nls_cons, if_neg hbn, if_neg hh1,
                        if_neg (strtol2_second hv), if_neg (by rw [hex]; decide)]; rfl
                    · exact ⟨((skipBad_suffix _ _).trans (List.suffix_cons _ _)).trans s2, by simp⟩
                · exact ⟨(skipBad_suffix _ _).trans (List.suffix_cons _ _), by simp⟩
          · obtain ⟨g1, g2⟩ := ih cs (acc ++ [b]) hl'
            refine ⟨g1.trans (List.suffix_cons _ _), fun v b' h => ?_⟩
            obtain ⟨q1, q2⟩ := g2 v b' h
            refine ⟨q1, fun hn hx => ?_⟩
            rw [q2 hn (fun hi => hx (hi.trans (List.suffix_cons _ _).isInfix)), nls_cons, if_neg hbn]; rfl

theorem eatString_took {l : Lex} {b : Byte} {cs : List Byte} (hb : b ≠ ch '\n') : Took (b :: cs) l (eatString l cs) := by
  obtain ⟨g1, g2⟩ := strBody_suffix (· == ch '\'') (ch '\'') cs.length cs [] le_rfl
  rw [eatString]
  rcases hs : strBody (· == ch '\'') (ch '\'') cs [] with ⟨e | ⟨v, d⟩, r⟩
  · rw [hs] at g1
    exact Took.error' l _ (g1.trans (List.suffix_cons _ _)) (by simp)
  · rw [hs] at g1 g2
    have hl := g1.length_le
    refine ⟨g1.trans (List.suffix_cons _ _), by simp only [List.length_cons] at hl ⊢; omega, by simp, fun _ _ hx => ?_⟩
    show l.line + nls r = _
    rw [(g2 v d rfl).2 (by decide) (fun hi => hx (hi.trans (List.suffix_cons _ _).isInfix)), nls_cons, if_neg hb]; rfl

theorem eatInterp_took {l : Lex} {b : Byte} {cs : List Byte} (hb : b ≠ ch '\n') : Took (b :: cs) l (eatInterpBody l cs) := by
  obtain ⟨g1, g2⟩ := strBody_suffix (fun b => b == ch '"' || b == ch '#') (ch '"') cs.length cs [] le_rfl
  rw [eatInterpBody]
  rcases hs : strBody (fun b => b == ch '"' || b == ch '#') (ch '"') cs [] with ⟨e | ⟨v, d⟩, r⟩
  · rw [hs] at g1
    split
    · rename_i h
      cases h
      exact ⟨List.nil_suffix, by simp [Lex.error], by simp [Lex.error], fun hn => absurd rfl hn⟩
    · rename_i h
      cases h
      exact Took.error' l _ (g1.trans (List.suffix_cons _ _)) (by simp)
    · rename_i h; cases h
  · rw [hs] at g1 g2
    have hl := g1.length_le
    refine ⟨g1.trans (List.suffix_cons _ _), by simp only [List.length_cons] at hl ⊢; omega, by simp, fun _ _ hx => ?_⟩
    show l.line + nls r = _
    rw [(g2 v d rfl).2 (by decide) (fun hi => hx (hi.trans (List.suffix_cons _ _).isInfix)), nls_cons, if_neg hb]; rfl

theorem eatRaw_took {l : Lex} {b : Byte} {cs : List Byte} (hb : b ≠ ch '\n') : Took (b :: cs) l (eatRaw l cs) := by
  rw [eatRaw]
  have hsplit : cs.takeWhile (· != ch '`') ++ cs.dropWhile (· != ch '`') = cs := List.takeWhile_append_dropWhile
  split
  · exact Took.error l _ _ List.nil_suffix (by simp)
  · rename_i d r hd
    have hsuf : d :: r <:+ cs := ⟨_, by rw [← hd]; exact hsplit⟩
    have hl := hsuf.length_le
    refine ⟨((List.suffix_cons _ _).trans hsuf).trans (List.suffix_cons _ _), by simp only [List.length_cons] at hl ⊢; omega, by simp, fun _ _ _ => ?_⟩
    show l.line + nls _ + nls r = _
    have hdn : d ≠ ch '\n' := by
      have := List.head?_dropWhile_not (p := (· != ch '`')) cs
      rw [hd] at this
      have : d = ch '`' := by simpa using this
      rw [this]; decide
    have : nls cs = nls (cs.takeWhile (· != ch '`')) + nls r := by
      conv => lhs; rw [← hsplit, hd]
      rw [nls_append, nls_cons, if_neg hdn]; rfl
    rw [nls_cons, if_neg hb, this]; omega

theorem tok_tables : (∀ p ∈ threeChars, (ch p.1 ≠ ch '\n' ∧ ch p.2.1 ≠ ch '\n' ∧ ch p.2.2.1 ≠ ch '\n') ∧ p.2.2.2 ≠ .eof ∧ p.2.2.2 ≠ .float) ∧
    (∀ p ∈ twoChars, (ch p.1 ≠ ch '\n' ∧ ch p.2.1 ≠ ch '\n') ∧ p.2.2 ≠ .eof ∧ p.2.2 ≠ .float) ∧
    (∀ p ∈ oneChar, ch p.1 ≠ ch '\n' ∧ p.2 ≠ .eof ∧ p.2 ≠ .float) := by decide

theorem tok3_mem {a b c : Byte} {t : Tok} (h : tok3 a b c = some t) : ∃ p ∈ threeChars, a = ch p.1 ∧ b = ch p.2.1 ∧ c = ch p.2.2.1 ∧ t = p.2.2.2 := by
  rw [tok3, Option.map_eq_some_iff] at h
  obtain ⟨p, h1, h2⟩ := h
  have h3 := List.find?_some h1
  simp only [Bool.and_eq_true, beq_iff_eq] at h3
  exact ⟨p, List.mem_of_find?_eq_some h1, h3.1.1.symm, h3.1.2.symm, h3.2.symm, h2.symm⟩

theorem tok2_mem {a b : Byte} {t : Tok} (h : tok2 a b = some t) : ∃ p ∈ twoChars, a = ch p.1 ∧ b = ch p.2.1 ∧ t = p.2.2 := by
  rw [tok2, Option.map_eq_some_iff] at h
  obtain ⟨p, h1, h2⟩ := h
  have h3 := List.find?_some h1
  simp only [Bool.and_eq_true, beq_iff_eq] at h3
  exact ⟨p, List.mem_of_find?_eq_some h1, h3.1.symm, h3.2.symm, h2.symm⟩

theorem tok1_mem {a : Byte} {t : Tok} (h : tok1 a = some t) : ∃ p ∈ oneChar, a = ch p.1 ∧ t = p.2 := by
  rw [tok1, Option.map_eq_some_iff] at h
  obtain ⟨p, h1, h2⟩ := h
  have h3 := List.find?_some h1
  simp only [beq_iff_eq] at h3
  exact ⟨p, List.mem_of_find?_eq_some h1, h3.symm, h2.symm⟩

/-- What an operator takes: one to three bytes that are in the tables. -/
theorem eatOp_cases {cs : List Byte} {t : Tok} {r : List Byte} (e : eatOp cs = some (t, r)) :
    (∃ a, cs = a :: r ∧ tok1 a = some t) ∨ (∃ a b, cs = a :: b :: r ∧ tok2 a b = some t) ∨ (∃ a b c, cs = a :: b :: c :: r ∧ tok3 a b c = some t) := by
  match cs, e with
  | [], e => simp [eatOp] at e
  | [a], e =>
    simp only [eatOp, Option.map_eq_some_iff] at e
    obtain ⟨x, h1, h2⟩ := e; cases h2; exact .inl ⟨a, rfl, h1⟩
  | [a, b], e =>
    rw [eatOp] at e
    split at e
    · rename_i x h; cases e; exact .inr (.inl ⟨a, b, rfl, h⟩)
    · obtain ⟨x, h1, h2⟩ := Option.map_eq_some_iff.1 e; cases h2; exact .inl ⟨a, rfl, h1⟩
  | a :: b :: c :: cs, e =>
    rw [eatOp] at e
    split at e
    · rename_i x h; cases e; exact .inr (.inr ⟨a, b, c, rfl, h⟩)
    · split at e
      · rename_i x h; cases e; exact .inr (.inl ⟨a, b, rfl, h⟩)
      · obtain ⟨x, h1, h2⟩ := Option.map_eq_some_iff.1 e; cases h2; exact .inl ⟨a, rfl, h1⟩

theorem eatOp_ok {cs : List Byte} {t : Tok} {r : List Byte} (e : eatOp cs = some (t, r)) :
    r <:+ cs ∧ r.length < cs.length ∧ nls r = nls cs ∧ t ≠ .eof := by
  rcases eatOp_cases e with ⟨a, rfl, h⟩ | ⟨a, b, rfl, h⟩ | ⟨a, b, c, rfl, h⟩
  · obtain ⟨p, hp, rfl, rfl⟩ := tok1_mem h
    obtain ⟨q1, q2, -⟩ := tok_tables.2.2 p hp
    exact ⟨List.suffix_cons _ _, by simp, by rw [nls_cons, if_neg q1]; rfl, q2⟩
  · obtain ⟨p, hp, rfl, rfl, rfl⟩ := tok2_mem h
    obtain ⟨⟨q1, q2⟩, q3, -⟩ := tok_tables.2.1 p hp
    exact ⟨⟨[_, _], rfl⟩, by simp only [List.length_cons]; omega, by rw [nls_cons, nls_cons, if_neg q1, if_neg q2]; rfl, q3⟩
  · obtain ⟨p, hp, rfl, rfl, rfl, rfl⟩ := tok3_mem h
    obtain ⟨⟨q1, q2, q4⟩, q3, -⟩ := tok_tables.1 p hp
    exact ⟨⟨[_, _, _], rfl⟩, by simp only [List.length_cons]; omega, by rw [nls_cons, nls_cons, nls_cons, if_neg q1, if_neg q2, if_neg q4]; rfl, q3⟩

theorem lexTok_took (l : Lex) {b : Byte} {bs : List Byte} (hb : b ≠ ch '\n') : Took (b :: bs) l (lexTok l (b :: bs)) := by
  rw [lexTok]
  split
  · rename_i r h; exact eatNumber_took h
  · split
    · rename_i r h; exact eatId_took h
    · split
      · exact eatString_took hb
      · split
        · exact eatRaw_took hb
        · split
          · exact eatInterp_took hb
          · split
            · rename_i t r h
              obtain ⟨h1, h2, h3, h4⟩ := eatOp_ok h
              exact ⟨h1, h2, h4, fun _ _ _ => by show l.line + nls r = _; rw [h3]⟩
            · exact Took.error' l _ (List.suffix_refl _) (by simp)

/-- Every token takes at least one byte of the input, or is the end of the input; line ends are counted. -/
theorem gettok_ok (l : Lex) :
    (gettok l).rest <:+ l.rest ∧ ((gettok l).type = .eof ∧ (gettok l).rest = [] ∨ (gettok l).type ≠ .eof ∧ (gettok l).rest.length < l.rest.length) ∧
    ((gettok l).type ≠ .unknown → ((gettok l).type = .float → ch '\n' ∉ (gettok l).value) → ¬ [ch '\\', ch 'x', ch '\n'] <:+: l.rest →
      (gettok l).line + nls (gettok l).rest = l.line + nls l.rest) := by
  rw [gettok]
  have hk := eatLayout_ok l.type.potentialEnd (l.rest.length + 1) l.rest l.line (by omega)
  rcases hr : eatLayout l.type.potentialEnd (l.rest.length + 1) l.rest l.line with ⟨c, r, n⟩ | n | n | ⟨cs, n⟩
  · rw [hr] at hk
    obtain ⟨h1, h2, h3, -⟩ := hk
    exact ⟨h1, .inr ⟨by simp, h2⟩, fun _ _ _ => h3⟩
  · rw [hr] at hk
    exact ⟨List.nil_suffix, .inr ⟨by simp, hk.1⟩, fun _ _ _ => hk.2⟩
  · rw [hr] at hk
    exact ⟨List.nil_suffix, .inr ⟨by simp [Lex.error], hk⟩, fun h => absurd rfl h⟩
  · rw [hr] at hk
    obtain ⟨h1, h2, h3⟩ := hk
    dsimp only
    cases cs with
    | nil =>
      rw [lexTok]
      exact ⟨List.nil_suffix, .inl ⟨rfl, rfl⟩, fun _ _ _ => h2⟩
    | cons b bs =>
      have hb : b ≠ ch '\n' := by
        rintro rfl
        have := (h3 _ bs rfl).1
        rw [isBlankB_nl] at this; cases this
      obtain ⟨t1, t2, t3, t4⟩ := lexTok_took { l with line := n } (bs := bs) hb
      refine ⟨t1.trans h1, .inr ⟨t3, Nat.lt_of_lt_of_le t2 h1.length_le⟩, fun a1 a2 a3 => ?_⟩
      rw [t4 a1 a2 (fun hi => a3 (hi.trans h1.isInfix))]
      exact h2

end Yasl
