import Verif.Proofs.LexInput
set_option autoImplicit false
/-! # Proofs for C110: whole tokens -/
namespace Yasl

/-- The tokens whose value is followed by a byte 0. -/
def Tok.hasText : Tok → Bool
  | .id | .int | .float | .bool => true
  | _ => false

/-- The same, for the lexer as it is written and the lexer on lists. -/
structure LexRel (src : List Byte) (t : CLex) (l : Lex) : Prop where
  inp : InOk src t.inp l.rest
  c : t.c = l.c.getD 255
  type : t.type = l.type
  value : t.value = l.value ++ if l.type.hasText then [0] else []
  line : t.line = l.line
  interp : t.interp = l.interp
  err : t.err = l.err

/-- The fields that are not about the token. -/
structure LexBase (t : CLex) (l : Lex) : Prop where
  type : t.type = l.type
  line : t.line = l.line
  interp : t.interp = l.interp
  err : t.err = l.err

theorem LexRel.error {src r : List Byte} {i : Input} {c : Byte} {t : CLex} {l : Lex} {e : LexErr} (h : LexBase t l) (hc : Cur src i c r) :
    LexRel src { t with inp := i, c := c, type := .unknown, value := [], err := some e } (l.error e r) :=
  ⟨hc.inp, hc.c, rfl, rfl, h.line, h.interp, rfl⟩

theorem eatNumber_in {src cs : List Byte} {t : CLex} {l : Lex} (h : Cur src t.inp t.c cs) (hb : LexBase t l) :
    match Yasl.eatNumber l cs with
    | some l' => ∃ t', t.eatNumber = some (true, t') ∧ LexRel src t' l'
    | none => t.eatNumber = some (false, t) := by
  obtain ⟨inp, x, type, value, line, interp, err⟩ := t
  obtain ⟨hb1, hb2, hb3, hb4⟩ := hb
  dsimp only at h hb1 hb2 hb3 hb4
  cases cs with
  | nil =>
    have hx : x = 255 := h.nil.2
    subst hx
    rfl
  | cons b cs =>
    have hc : x = b := h.cons.2
    subst hc
    rw [Yasl.eatNumber]
    by_cases hd : isDigit x = true
    · rw [if_pos hd]
      have h1 := eatInt_in (t := ⟨inp, x, type, [], line, interp, err⟩) (sep := ch 'x') (a := x) (ok := isXDigit) h.inp rfl rfl (by decide) (by decide)
      rw [List.tail_cons] at h1
      rcases hx : Yasl.eatInt (ch 'x') isXDigit (x :: cs) with _ | ⟨_ | v, r⟩
      · rw [hx] at h1
        obtain ⟨i1, e1, g1⟩ := h1
        dsimp only at e1 ⊢
        have h2 := eatInt_in (t := ⟨i1, x, type, [], line, interp, err⟩) (sep := ch 'b') (a := x) (ok := isBDigit) g1 rfl rfl (by decide) (by decide)
        rcases hy : Yasl.eatInt (ch 'b') isBDigit (x :: cs) with _ | ⟨_ | v, r⟩
        · rw [hy] at h2
          obtain ⟨i2, e2, g2⟩ := h2
          dsimp only at e2 ⊢
          obtain ⟨i3, c3, w3, e3, g3, s3⟩ := numFill_in' (ok := isDigit) _ cs ⟨i2, x, type, [], line, interp, err⟩ (Nat.lt_succ_self _) g2
          have g3 : Cur src i3 c3 (numFill isDigit (x :: cs)).2 := g3
          have s3 : Saved src w3 i3 (numFill isDigit (x :: cs)).2 := s3
          have e3 : CLex.numFill isDigit ⟨i2, x, type, [], line, interp, err⟩ = some (w3, ⟨i3, c3, type, (numFill isDigit (x :: cs)).1, line, interp, err⟩) := e3
          have h4 := eatFloat_in (t := ⟨i3, c3, .int, (numFill isDigit (x :: cs)).1 ++ [0], line, interp, err⟩) g3 s3 rfl rfl
          have run : ∀ y, CLex.eatFloat ⟨i3, c3, .int, (numFill isDigit (x :: cs)).1 ++ [0], line, interp, err⟩ = some y →
              CLex.eatNumber ⟨inp, x, type, value, line, interp, err⟩ = if y.1 then some (true, y.2) else some (true, if !y.2.eof then y.2.seek w3 else y.2) := by
            intro y hy
            unfold CLex.eatNumber
            rw [if_pos (by exact hd), e1]
            simp only [Option.bind_eq_bind, Option.bind_some, Bool.false_eq_true, if_false]
            rw [e2]
            simp only [Option.bind_some, Bool.false_eq_true, if_false]
            rw [e3]
            simp only [Option.bind_some, CLex.append]
            rw [hy]
            rfl
          rcases hf : Yasl.eatFloat (numFill isDigit (x :: cs)).1 (numFill isDigit (x :: cs)).2 with _ | ⟨k, v, c, r⟩
          · rw [hf] at h4
            dsimp only at h4 ⊢
            rw [run _ h4]
            refine ⟨_, rfl, ?_⟩
            rw [seekIf_eq]
            exact ⟨g3.finish s3, g3.c, rfl, rfl, hb2, hb3, hb4⟩
          · rw [hf] at h4
            obtain ⟨i4, e4, g4⟩ := h4
            dsimp only
            rw [run _ e4]
            refine ⟨_, rfl, ⟨g4, rfl, rfl, ?_, hb2, hb3, hb4⟩⟩
            have : k.hasText = true := by
              have hk : k = .int ∨ k = .float := by
                unfold Yasl.eatFloat at hf
                split at hf
                · cases hf
                · split at hf
                  · split at hf
                    · cases hf; exact .inl rfl
                    · split at hf
                      · dsimp only at hf
                        split at hf
                        · cases hf; exact .inr rfl
                        · split at hf <;> · cases hf; exact .inr rfl
                      · cases hf; exact .inl rfl
                  · cases hf
              rcases hk with rfl | rfl <;> rfl
            show _ = v ++ if k.hasText then [0] else []
            rw [this]; rfl
        · rw [hy] at h2
          obtain ⟨i2, c2, e2, g2⟩ := h2
          refine ⟨_, ?_, LexRel.error (t := ⟨inp, x, type, value, line, interp, err⟩) ⟨hb1, hb2, hb3, hb4⟩ g2⟩
          unfold CLex.eatNumber
          rw [if_pos (by exact hd), e1]
          simp only [Option.bind_eq_bind, Option.bind_some, Bool.false_eq_true, if_false]
          rw [e2]
          rfl
        · rw [hy] at h2
          obtain ⟨i2, e2, g2⟩ := h2
          refine ⟨⟨i2, r.head?.getD 255, .int, v ++ [0], line, interp, err⟩, ?_, ⟨g2, rfl, rfl, rfl, hb2, hb3, hb4⟩⟩
          unfold CLex.eatNumber
          rw [if_pos (by exact hd), e1]
          simp only [Option.bind_eq_bind, Option.bind_some, Bool.false_eq_true, if_false]
          rw [e2]
          rfl
      · rw [hx] at h1
        obtain ⟨i1, c1, e1, g1⟩ := h1
        refine ⟨_, ?_, LexRel.error (t := ⟨inp, x, type, value, line, interp, err⟩) ⟨hb1, hb2, hb3, hb4⟩ g1⟩
        unfold CLex.eatNumber
        rw [if_pos (by exact hd), e1]
        rfl
      · rw [hx] at h1
        obtain ⟨i1, e1, g1⟩ := h1
        refine ⟨⟨i1, r.head?.getD 255, .int, v ++ [0], line, interp, err⟩, ?_, ⟨g1, rfl, rfl, rfl, hb2, hb3, hb4⟩⟩
        unfold CLex.eatNumber
        rw [if_pos (by exact hd), e1]
        rfl
    · rw [if_neg hd]
      unfold CLex.eatNumber
      rw [if_neg (by exact hd)]
      rfl

/-! ## Words -/

theorem idLoop_in {src : List Byte} : ∀ (r : List Byte) (t : CLex), InOk src t.inp r → ∃ i c w,
    t.idLoop = some (w, { t with inp := i, c := c, value := t.value ++ t.c :: r.takeWhile isIdChar }) ∧ Cur src i c (r.dropWhile isIdChar) ∧
      Saved src w i (r.dropWhile isIdChar) := by
  intro r
  induction r with
  | nil =>
    intro t h
    have hg := InOk.getchar (t := t.append t.c) h
    rw [CLex.idLoop]
    rw [if_neg (by show ¬ (!(t.append t.c).getchar.inp.eof && _) = true; rw [hg.nil.1]; simp)]
    exact ⟨_, _, _, rfl, hg, InOk.saved (t := t.append t.c) h⟩
  | cons b r ih =>
    intro t h
    have hg := InOk.getchar (t := t.append t.c) h
    rw [CLex.idLoop]
    by_cases hb : isIdChar b = true
    · rw [if_pos (by show (!(t.append t.c).getchar.inp.eof && _) = true; rw [hg.cons.1, hg.cons.2, hb]; rfl)]
      obtain ⟨i, c, w, e1, e2, e3⟩ := ih (t.append t.c).getchar hg.inp
      rw [List.takeWhile_cons_of_pos hb, List.dropWhile_cons_of_pos hb]
      refine ⟨i, c, w, ?_, e2, e3⟩
      rw [e1, hg.cons.2]
      simp [CLex.append, CLex.getchar]
    · rw [if_neg (by show ¬ (!(t.append t.c).getchar.inp.eof && _) = true; rw [hg.cons.1, hg.cons.2]; simpa using hb), List.takeWhile_cons_of_neg hb, List.dropWhile_cons_of_neg hb]
      exact ⟨_, _, _, rfl, hg, InOk.saved (t := t.append t.c) h⟩

theorem isIdChar_ne {b : Byte} (h : isIdChar b = true ∨ isIdStart b = true) : b ≠ 0 := by
  rintro rfl
  revert h; decide

theorem cText_word {w : List Byte} (h : ∀ b ∈ w, b ≠ 0) : cText (w ++ [0]) = w := by
  unfold cText
  induction w with
  | nil => rfl
  | cons b w ih =>
    rw [List.cons_append, List.takeWhile_cons_of_pos (by simpa using h b (by simp)), ih fun x hx => h x (by simp [hx])]

theorem keywords_text : ∀ k ∈ keywords, k.2.hasText = false := by decide

theorem keyword_in {src r w : List Byte} {t : CLex} {l : Lex} (hi : InOk src t.inp r) (hc : t.c = r.head?.getD 255) (ht : t.type = .id) (hv : t.value = w ++ [0])
    (hw : ∀ b ∈ w, b ≠ 0) (h2 : t.line = l.line) (h3 : t.interp = l.interp) (h4 : t.err = l.err) :
    LexRel src t.keyword { lexKeyword l w r with c := r.head?, rest := r } := by
  unfold CLex.keyword lexKeyword
  rw [hv, cText_word hw]
  by_cases hr : reservedWords.any (fun x => word x == w) = true
  · rw [if_pos hr, if_pos hr]
    exact ⟨hi, hc, rfl, rfl, h2, h3, rfl⟩
  · rw [if_neg hr, if_neg hr]
    generalize hk : List.find? _ keywords = o
    rcases o with _ | k
    · dsimp only
      by_cases hb : w = word "true" ∨ w = word "false"
      · rw [if_pos hb, if_pos hb]
        exact ⟨hi, hc, rfl, rfl, h2, h3, h4⟩
      · rw [if_neg hb, if_neg hb]
        exact ⟨hi, hc, ht, hv, h2, h3, h4⟩
    · dsimp only
      refine ⟨hi, hc, rfl, ?_, h2, h3, h4⟩
      show [] = [] ++ if k.2.hasText then [0] else []
      rw [keywords_text k (List.mem_of_find?_eq_some hk)]
      rfl

theorem eatId_in {src cs : List Byte} {t : CLex} {l : Lex} (h : Cur src t.inp t.c cs) (hb : LexBase t l) :
    match Yasl.eatId l cs with
    | some l' => ∃ t', t.eatId = some (true, t') ∧ LexRel src t' l'
    | none => t.eatId = some (false, t) := by
  unfold CLex.eatId
  cases cs with
  | nil =>
    rw [if_neg (by rw [h.nil.2]; decide)]
    rfl
  | cons b cs =>
    have hc := h.cons.2
    rw [Yasl.eatId]
    by_cases hd : isIdStart b = true
    · rw [hc, if_pos hd, if_pos hd]
      dsimp only
      obtain ⟨i, c, w, e1, e2, e3⟩ := idLoop_in cs ⟨t.inp, b, t.type, [], t.line, t.interp, t.err⟩ h.inp
      rw [e1]
      simp only [Option.bind_eq_bind, Option.bind_some]
      have hw : ∀ x ∈ b :: cs.takeWhile isIdChar, x ≠ 0 := by
        intro x hx
        rcases List.mem_cons.1 hx with rfl | hx
        · exact isIdChar_ne (.inr hd)
        · exact isIdChar_ne (.inl (List.all_eq_true.1 List.all_takeWhile x hx))
      rw [seekIf_eq]
      by_cases hk : l.type = .dot ∨ l.type = .rightArr
      · simp only [if_pos hk]
        exact ⟨⟨_, c, .id, b :: cs.takeWhile isIdChar ++ [0], t.line, t.interp, t.err⟩, (if_pos (by rw [← hb.type] at hk; exact hk)).trans rfl, ⟨e2.finish e3, e2.c, rfl, rfl, hb.line, hb.interp, hb.err⟩⟩
      · simp only [if_neg hk]
        exact ⟨_, (if_neg (by rw [← hb.type] at hk; exact hk)).trans rfl, keyword_in (t := ⟨_, c, .id, b :: cs.takeWhile isIdChar ++ [0], t.line, t.interp, t.err⟩) (e2.finish e3) e2.c rfl rfl hw hb.line hb.interp hb.err⟩
    · rw [hc, if_neg hd, if_neg hd]
      rfl

/-! ## Strings -/

theorem skipBad_in {src : List Byte} (delim : Byte) : ∀ (cs : List Byte) (t : CLex), Cur src t.inp t.c cs → ∃ i c,
    t.skipBad delim = some { t with inp := i, c := c } ∧ Cur src i c (skipBadString delim cs) := by
  intro cs
  induction cs with
  | nil =>
    intro t h
    refine ⟨t.inp, t.c, ?_, h⟩
    rw [CLex.skipBad, if_neg (by rw [show t.eof = true from h.nil.1]; simp)]
  | cons b cs ih =>
    intro t h
    rw [CLex.skipBad, show t.eof = false from h.cons.1, h.cons.2]
    by_cases hb : b ≠ ch '\n' ∧ b ≠ delim
    · rw [if_pos ⟨hb.1, hb.2, rfl⟩, skipBadString, List.dropWhile_cons_of_pos (by simpa using hb)]
      exact ih t.getchar h.getchar
    · rw [if_neg (fun q => hb ⟨q.1, q.2.1⟩), skipBadString, List.dropWhile_cons_of_neg (by simpa using hb)]
      exact ⟨t.inp, t.c, rfl, h⟩

theorem strtol2_end (a : Byte) : strtol2 a 255 = none := by
  unfold strtol2
  rw [if_neg (by decide)]

theorem strtol2_end' (b : Byte) : strtol2 255 b = none := by
  unfold strtol2
  by_cases h : isXDigit b = true
  · rw [if_pos h, if_neg (by decide), if_neg (by decide), if_neg (by decide)]
  · rw [if_neg h]

/-- What the loop over a string leaves. -/
def StrIn (src : List Byte) (t : CLex) (stop : Byte → Bool) (res : Option (Bool × CLex)) : (LexErr ⊕ (List Byte × Byte)) × List Byte → Prop
  | (.inl e, r) =>
    (∃ i c, res = some (true, { t with inp := i, c := c, type := .unknown, value := [], err := some e }) ∧ Cur src i c r ∧ ¬ (e = .unclosedString ∧ r = [])) ∨
    (∃ i v, res = some (false, { t with inp := i, c := 255, value := v }) ∧ Cur src i 255 [] ∧ e = .unclosedString ∧ r = [])
  | (.inr (v, b), r) => ∃ i, res = some (false, { t with inp := i, c := b, value := v }) ∧ Cur src i b (b :: r) ∧ stop b = true

theorem StrIn.move {src : List Byte} {stop : Byte → Bool} {t t' : CLex} {r : Option (Bool × CLex)} {y : (LexErr ⊕ (List Byte × Byte)) × List Byte} (h : StrIn src t stop r y)
    (h1 : t.type = t'.type) (h2 : t.line = t'.line) (h3 : t.interp = t'.interp) (h4 : t.err = t'.err) : StrIn src t' stop r y := by
  obtain ⟨_, _, _, _, _, _, _⟩ := t
  obtain ⟨_, _, _, _, _, _, _⟩ := t'
  cases h1; cases h2; cases h3; cases h4
  obtain ⟨y | y, z⟩ := y <;> exact h

theorem strLoop_in {src : List Byte} (stop : Byte → Bool) (delim : Byte) : ∀ (n : Nat) (cs : List Byte) (t : CLex), cs.length < n → Cur src t.inp t.c cs →
    StrIn src t stop (t.strLoop stop delim) (strBody stop delim cs t.value) := by
  intro n
  induction n with
  | zero => intro cs t hl; omega
  | succ n ih =>
    intro cs t hl h
    rw [CLex.strLoop]
    cases cs with
    | nil =>
      rw [if_neg (by rw [show t.eof = true from h.nil.1]; simp), strBody]
      refine .inr ⟨t.inp, t.value, ?_, ?_, rfl, rfl⟩
      · rw [← h.nil.2]
      · rw [← h.nil.2]; exact h
    | cons b cs =>
      have hc := h.cons.2
      have he : t.eof = false := h.cons.1
      have go : ∀ (t' : CLex) (r : List Byte) , t'.type = t.type → t'.line = t.line → t'.interp = t.interp → t'.err = t.err → InOk src t'.inp r → r.length < n →
          StrIn src t stop (CLex.strLoop stop delim t'.getchar) (strBody stop delim r t'.value) := by
        intro t' r q1 q2 q3 q4 hi hr
        exact (ih r t'.getchar hr hi.getchar).move q1 q2 q3 q4
      rw [he, hc, strBody.eq_def]
      dsimp only
      by_cases hs : stop b = true
      · rw [if_neg (by rw [hs]; simp), if_pos hs]
        exact ⟨t.inp, by rw [← hc], hc ▸ h, hs⟩
      · rw [if_pos (by simpa using hs), if_neg hs]
        by_cases hn : b = ch '\n'
        · rw [if_pos hn, if_pos hn]
          exact .inl ⟨t.inp, t.c, rfl, h, by simp⟩
        · rw [if_neg hn, if_neg hn, CLex.nextchar, hc]
          by_cases hk : b = ch '\\'
          · rw [if_pos hk, if_pos hk]
            have hg : Cur src t.getchar.inp t.getchar.c cs := h.getchar
            have bad : ∀ (t' : CLex) (cs' : List Byte) (e : LexErr), t'.type = t.type → t'.line = t.line → t'.interp = t.interp → t'.err = t.err → Cur src t'.inp t'.c cs' →
                e ≠ .unclosedString → StrIn src t stop (do
                  let r ← (do
                    let t ← t'.skipBad delim
                    pure (true, t.error e) : Option (Bool × CLex))
                  if r.1 = true then pure (true, r.2) else CLex.strLoop stop delim r.2.getchar) (.inl e, skipBadString delim cs') := by
              intro t' cs' e q1 q2 q3 q4 hq hne
              obtain ⟨i, c, e1, e2⟩ := skipBad_in delim cs' t' hq
              rw [e1]
              refine .inl ⟨i, c, ?_, e2, fun q => hne q.1⟩
              simp [CLex.error, q2, q3]
            cases cs with
            | nil =>
              dsimp only
              unfold CLex.escape
              rw [hg.nil.2, show (simpleEscapes.find? fun p => ch p.1 == 255) = none by decide]
              dsimp only
              rw [if_neg (by decide)]
              have := bad t.getchar [] .badEscape rfl rfl rfl rfl hg (by decide)
              exact this
            | cons e cs =>
              dsimp only
              unfold CLex.escape
              rw [hg.cons.2]
              generalize hf : List.find? _ simpleEscapes = o
              rcases o with _ | p
              · dsimp only
                by_cases hx : e = ch 'x'
                · rw [if_pos hx, if_pos hx]
                  have h1 := hg.getchar
                  have h2 := h1.getchar
                  rw [List.tail_cons] at h1 h2
                  rcases cs with _ | ⟨a, _ | ⟨a2, cs⟩⟩
                  · rw [h1.nil.2, strtol2_end']
                    exact bad _ [] .badHexEscape rfl rfl rfl rfl h2 (by decide)
                  · rw [h2.nil.2, strtol2_end]
                    exact bad _ [] .badHexEscape rfl rfl rfl rfl h2 (by decide)
                  · rw [h1.cons.2, h2.cons.2]
                    dsimp only
                    rcases hv : strtol2 a a2 with _ | v
                    · exact bad _ (a2 :: cs) .badHexEscape rfl rfl rfl rfl h2 (by decide)
                    · exact go (t.getchar.getchar.getchar.append v) cs rfl rfl rfl rfl h2.inp (by simp only [List.length_cons] at hl; omega)
                · rw [if_neg hx, if_neg hx]
                  exact bad _ (e :: cs) .badEscape rfl rfl rfl rfl hg (by decide)
              · exact go (t.getchar.append p.2) cs rfl rfl rfl rfl hg.inp (by simp only [List.length_cons] at hl; omega)
          · rw [if_neg hk, if_neg hk]
            exact go (t.append b) cs rfl rfl rfl rfl h.inp (by simp only [List.length_cons] at hl; omega)

theorem CLex.eof_of {t : CLex} {src cs : List Byte} {i : Input} {c : Byte} (h : Cur src i c cs) (hi : t.inp = i) : t.eof = cs.isEmpty := by
  rw [CLex.eof, hi]; exact h.eof

theorem eatString_in {src cs : List Byte} {t : CLex} {l : Lex} (h : InOk src t.inp cs) (hb : LexBase t l) : ∃ t', t.eatString = some t' ∧ LexRel src t' (Yasl.eatString l cs) := by
  unfold CLex.eatString Yasl.eatString
  have := strLoop_in (· == ch '\'') (ch '\'') _ cs (CLex.getchar { t with value := [], type := .str }) (Nat.lt_succ_self _) (InOk.getchar h)
  change StrIn src _ _ _ (strBody (· == ch '\'') (ch '\'') cs []) at this
  generalize strBody (· == ch '\'') (ch '\'') cs [] = y at this ⊢
  rcases y with ⟨e | ⟨v, b⟩, r⟩
  · rcases this with ⟨i, c, e1, e2, _⟩ | ⟨i, v, e1, e2, rfl, rfl⟩
    · rw [e1]
      exact ⟨_, rfl, ⟨e2.inp, e2.c, rfl, rfl, hb.line, hb.interp, rfl⟩⟩
    · rw [e1]
      refine ⟨_, rfl, ?_⟩
      rw [if_pos (by exact e2.nil.1)]
      exact ⟨e2.inp, rfl, rfl, rfl, hb.line, hb.interp, rfl⟩
  · obtain ⟨i, e1, e2, _⟩ := this
    rw [e1]
    refine ⟨_, rfl, ?_⟩
    rw [if_neg (fun q => by have := e2.cons.1.symm.trans q; cases this)]
    exact ⟨e2.inp, rfl, rfl, by simp [Tok.hasText], hb.line, hb.interp, hb.err⟩

theorem interpBody_in {src cs : List Byte} {t : CLex} {l : Lex} (h : Cur src t.inp t.c cs) (h1 : t.line = l.line) (h2 : t.interp = l.interp) (h3 : t.err = l.err) :
    ∃ t', t.interpBody = some t' ∧ LexRel src t' (eatInterpBody l cs) := by
  unfold CLex.interpBody eatInterpBody
  have := strLoop_in (fun b => b == ch '"' || b == ch '#') (ch '"') _ cs ({ t with value := [], type := .str }) (Nat.lt_succ_self _) h
  change StrIn src _ _ _ (strBody (fun b => b == ch '"' || b == ch '#') (ch '"') cs []) at this
  generalize strBody (fun b => b == ch '"' || b == ch '#') (ch '"') cs [] = y at this ⊢
  rcases y with ⟨e | ⟨v, b⟩, r⟩
  · rcases this with ⟨i, c, e1, e2, e3⟩ | ⟨i, v, e1, e2, rfl, rfl⟩
    · rw [e1]
      refine ⟨_, rfl, ?_⟩
      have : LexRel src ⟨i, c, .unknown, [], t.line, t.interp, some e⟩ (l.error e r) := ⟨e2.inp, e2.c, rfl, rfl, h1, h2, rfl⟩
      split
      · rename_i q; cases q; exact absurd ⟨rfl, rfl⟩ e3
      · rename_i q; cases q; exact this
      · rename_i q; cases q
    · rw [e1]
      refine ⟨_, rfl, ?_⟩
      rw [if_pos (by exact e2.nil.1)]
      exact ⟨e2.inp, rfl, rfl, rfl, h1, rfl, rfl⟩
  · obtain ⟨i, e1, e2, _⟩ := this
    rw [e1]
    refine ⟨_, rfl, ?_⟩
    rw [if_neg (fun q => by have := e2.cons.1.symm.trans q; cases this)]
    exact ⟨e2.inp, rfl, rfl, by simp [Tok.hasText], h1, rfl, h3⟩

theorem rawLoop_in {src : List Byte} : ∀ (cs : List Byte) (t : CLex), Cur src t.inp t.c cs → ∃ i c,
    t.rawLoop = some { t with inp := i, c := c, value := t.value ++ cs.takeWhile (· != ch '`'), line := t.line + (cs.takeWhile (· != ch '`')).count (ch '\n') } ∧
    Cur src i c (cs.dropWhile (· != ch '`')) := by
  intro cs
  induction cs with
  | nil =>
    intro t h
    refine ⟨t.inp, t.c, ?_, h⟩
    rw [CLex.rawLoop, if_neg (by rw [show t.eof = true from h.nil.1]; simp)]
    simp
  | cons b cs ih =>
    intro t h
    rw [CLex.rawLoop, show t.eof = false from h.cons.1, h.cons.2]
    by_cases hb : b = ch '`'
    · rw [if_neg (fun q => q.1 hb), List.takeWhile_cons_of_neg (by simp [hb]), List.dropWhile_cons_of_neg (by simp [hb])]
      exact ⟨t.inp, t.c, by simp, h⟩
    · rw [if_pos ⟨hb, rfl⟩, List.takeWhile_cons_of_pos (by simpa using hb), List.dropWhile_cons_of_pos (by simpa using hb)]
      obtain ⟨i, c, e1, e2⟩ := ih (CLex.getchar (CLex.append { t with c := b, line := if b = ch '\n' then t.line + 1 else t.line } b)) h.inp.getchar
      refine ⟨i, c, ?_, e2⟩
      refine Eq.trans e1 ?_
      by_cases hn : b = ch '\n'
      · simp [hn, CLex.append, CLex.getchar]; omega
      · simp [hn, CLex.append, CLex.getchar, List.count_cons]

theorem eatRaw_in {src cs : List Byte} {t : CLex} {l : Lex} (h : InOk src t.inp cs) (hb : LexBase t l) : ∃ t', t.eatRaw = some t' ∧ LexRel src t' (Yasl.eatRaw l cs) := by
  unfold CLex.eatRaw Yasl.eatRaw
  obtain ⟨i, c, e1, e2⟩ := rawLoop_in cs (CLex.getchar { t with value := [], type := .str }) (InOk.getchar h)
  rw [e1]
  dsimp only
  rcases hd : cs.dropWhile (· != ch '`') with _ | ⟨b, r⟩
  · rw [hd] at e2
    refine ⟨_, rfl, ?_⟩
    rw [if_pos (by exact e2.nil.1)]
    exact ⟨e2.inp, e2.c, rfl, rfl, by show t.line + _ = _; rw [hb.line]; rfl, hb.interp, rfl⟩
  · rw [hd] at e2
    refine ⟨_, rfl, ?_⟩
    rw [if_neg (fun q => by have := e2.cons.1.symm.trans q; cases this)]
    exact ⟨e2.inp, e2.c, rfl, by simp [Tok.hasText, CLex.getchar], by show t.line + _ = _; rw [hb.line], hb.interp, hb.err⟩

/-! ## Tokens -/

theorem ops_text : (∀ p ∈ threeChars, p.2.2.2.hasText = false) ∧ (∀ p ∈ twoChars, p.2.2.hasText = false) ∧ (∀ p ∈ oneChar, p.2.hasText = false) := by decide

theorem tok_text {a b c : Byte} {k : Tok} : (tok3 a b c = some k → k.hasText = false) ∧ (tok2 a b = some k → k.hasText = false) ∧ (tok1 a = some k → k.hasText = false) := by
  refine ⟨fun h => ?_, fun h => ?_, fun h => ?_⟩
  · obtain ⟨p, hp, rfl⟩ := Option.map_eq_some_iff.1 h
    exact ops_text.1 p (List.mem_of_find?_eq_some hp)
  · obtain ⟨p, hp, rfl⟩ := Option.map_eq_some_iff.1 h
    exact ops_text.2.1 p (List.mem_of_find?_eq_some hp)
  · obtain ⟨p, hp, rfl⟩ := Option.map_eq_some_iff.1 h
    exact ops_text.2.2 p (List.mem_of_find?_eq_some hp)

theorem eatOp_text {cs r : List Byte} {k : Tok} (h : Yasl.eatOp cs = some (k, r)) : k.hasText = false := by
  unfold Yasl.eatOp at h
  split at h
  · cases h
  · obtain ⟨q, hq, e⟩ := Option.map_eq_some_iff.1 h
    cases e; exact (tok_text (b := 0) (c := 0)).2.2 hq
  · split at h
    · rename_i hq; cases h; exact (tok_text (c := 0)).2.1 hq
    · obtain ⟨q, hq, e⟩ := Option.map_eq_some_iff.1 h
      cases e; exact (tok_text (b := 0) (c := 0)).2.2 hq
  · split at h
    · rename_i hq; cases h; exact tok_text.1 hq
    · split at h
      · rename_i hq; cases h; exact (tok_text (c := 0)).2.1 hq
      · obtain ⟨q, hq, e⟩ := Option.map_eq_some_iff.1 h
        cases e; exact (tok_text (b := 0) (c := 0)).2.2 hq

theorem token_in {src cs : List Byte} {t : CLex} {l : Lex} (h : Cur src t.inp t.c cs) (hb : LexBase t l) : ∃ t', t.token = some t' ∧ LexRel src t' (lexTok l cs) := by
  unfold CLex.token lexTok
  cases cs with
  | nil =>
    rw [if_pos (by exact h.nil.1)]
    exact ⟨_, rfl, ⟨h.inp, h.c, rfl, rfl, hb.line, hb.interp, hb.err⟩⟩
  | cons b cs =>
    rw [if_neg (fun q => by have := h.cons.1.symm.trans q; cases this)]
    dsimp only
    have h1 := eatNumber_in h hb
    rcases hn : Yasl.eatNumber l (b :: cs) with _ | l1
    · rw [hn] at h1
      dsimp only at h1 ⊢
      rw [h1]
      simp only [Option.bind_eq_bind, Option.bind_some, Bool.false_eq_true, if_false]
      have h2 := eatId_in h hb
      rcases hi : Yasl.eatId l (b :: cs) with _ | l2
      · rw [hi] at h2
        dsimp only at h2 ⊢
        rw [h2]
        simp only [Option.bind_some, Bool.false_eq_true, if_false]
        rw [h.cons.2]
        by_cases b1 : b = ch '\''
        · rw [if_pos b1, if_pos b1]
          exact eatString_in h.inp hb
        · rw [if_neg b1, if_neg b1]
          by_cases b2 : b = ch '`'
          · rw [if_pos b2, if_pos b2]
            exact eatRaw_in h.inp hb
          · rw [if_neg b2, if_neg b2]
            by_cases b3 : b = ch '"'
            · rw [if_pos b3, if_pos b3]
              exact interpBody_in h.getchar hb.line hb.interp hb.err
            · rw [if_neg b3, if_neg b3]
              have h3 := eatOp_in h.inp h.cons.2
              rw [List.tail_cons] at h3
              rcases ho : Yasl.eatOp (b :: cs) with _ | ⟨k, r⟩
              · rw [ho] at h3
                obtain ⟨i, e1, e2⟩ := h3
                rw [e2]
                exact ⟨_, rfl, ⟨e1, h.cons.2, rfl, rfl, hb.line, hb.interp, rfl⟩⟩
              · rw [ho] at h3
                obtain ⟨i, e1, e2⟩ := h3
                rw [e2]
                refine ⟨_, rfl, ⟨e1, h.cons.2, rfl, ?_, hb.line, hb.interp, hb.err⟩⟩
                show [] = [] ++ if k.hasText then [0] else []
                rw [eatOp_text ho]
                rfl
      · rw [hi] at h2
        obtain ⟨t', e1, e2⟩ := h2
        rw [e1]
        exact ⟨t', rfl, e2⟩
    · rw [hn] at h1
      obtain ⟨t', e1, e2⟩ := h1
      rw [e1]
      exact ⟨t', rfl, e2⟩

/-- `gettok` as it is written gives the token of the lexer on lists. -/
theorem gettok_in {src : List Byte} {t : CLex} {l : Lex} (h : LexRel src t l) : ∃ t', t.gettok = some t' ∧ LexRel src t' (Yasl.gettok l) := by
  unfold CLex.gettok Yasl.gettok
  have h1 := eatLayout_in (l.rest.length + 1) l.rest (CLex.getchar { t with value := [] }) (Nat.lt_succ_self _) (InOk.getchar h.inp)
  rw [show (CLex.getchar { t with value := [] }).type = l.type from h.type, show (CLex.getchar { t with value := [] }).line = l.line from h.line] at h1
  generalize Yasl.eatLayout l.type.potentialEnd (l.rest.length + 1) l.rest l.line = y at h1 ⊢
  rcases y with ⟨c, r, n⟩ | ⟨n⟩ | ⟨n⟩ | ⟨cs, n⟩
  · obtain ⟨i, e1, e2⟩ := h1
    rw [e1]
    exact ⟨_, rfl, ⟨e2, rfl, rfl, rfl, rfl, h.interp, h.err⟩⟩
  · obtain ⟨i, e1, e2⟩ := h1
    rw [e1]
    exact ⟨_, rfl, ⟨e2, rfl, rfl, rfl, rfl, h.interp, h.err⟩⟩
  · obtain ⟨i, e1, e2⟩ := h1
    rw [e1]
    exact ⟨_, rfl, ⟨e2, rfl, rfl, rfl, rfl, h.interp, rfl⟩⟩
  · obtain ⟨i, c, e1, e2⟩ := h1
    rw [e1]
    exact token_in e2 ⟨h.type, rfl, h.interp, h.err⟩

end Yasl
