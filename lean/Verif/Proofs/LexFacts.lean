import Verif.Proofs.Gram
set_option autoImplicit false
/-! # Proofs about the lexer: facts on the next token that the parser needs -/
namespace Yasl

/-- Facts on a token `g` read from the state `l` with the input `cs`. -/
structure TokFacts (cs : List Byte) (l g : Lex) : Prop where
  unknown : g.type = .unknown → g.err.isSome
  eof : g.type = .eof → g.c = none
  interp : g.interp = true → l.interp = true ∨ ch '#' ∈ cs
  kwMatch : g.type = .match_ → word "match" <:+: cs
  closer : g.type = .comma ∨ g.type = .rsqb ∨ g.type = .rbrc → g.c ≠ some (ch '\n')
  dot : g.type = .dot → ch '.' ∈ cs

theorem TokFacts.mono {cs cs' : List Byte} {l g : Lex} (h : TokFacts cs l g) (hs : cs <:+ cs') : TokFacts cs' l g :=
  ⟨h.unknown, h.eof, fun hi => (h.interp hi).imp_right (fun hm => hs.subset hm), fun hm => (h.kwMatch hm).trans hs.isInfix, h.closer, fun hd => hs.subset (h.dot hd)⟩

theorem TokFacts.error (l : Lex) (e : LexErr) (cs r : List Byte) : TokFacts cs l (l.error e r) :=
  ⟨fun _ => rfl, by simp [Lex.error], fun h => .inl h, by simp [Lex.error], by simp [Lex.error], by simp [Lex.error]⟩

theorem eatFloat_type {ds cs : List Byte} {t : Tok} {v : List Byte} {c : Option Byte} {r : List Byte} (e : eatFloat ds cs = some (t, v, c, r)) :
    t = .int ∨ t = .float := by
  cases cs with
  | nil => simp [eatFloat] at e
  | cons b cs =>
    rw [eatFloat.eq_def] at e
    dsimp only at e
    split at e
    · cases cs with
      | nil => simp at e; exact .inl e.1.symm
      | cons d cs =>
        dsimp only at e
        split at e
        · split at e
          · simp at e; exact .inr e.1.symm
          · split at e
            · simp at e; exact .inr e.1.symm
            · simp at e; exact .inr e.1.symm
        · simp at e; exact .inl e.1.symm
    · simp at e

theorem TokFacts.plain {l : Lex} {cs v r : List Byte} {t : Tok} {c : Option Byte}
    (h : t ≠ .unknown ∧ t ≠ .eof ∧ t ≠ .match_ ∧ t ≠ .comma ∧ t ≠ .rsqb ∧ t ≠ .rbrc ∧ t ≠ .dot) : TokFacts cs l { l with type := t, value := v, c := c, rest := r } :=
  ⟨fun h1 => absurd h1 h.1, fun h1 => absurd h1 h.2.1, fun h => .inl h, fun h1 => absurd h1 h.2.2.1,
    fun h1 => by rcases h1 with h1 | h1 | h1; exacts [absurd h1 h.2.2.2.1, absurd h1 h.2.2.2.2.1, absurd h1 h.2.2.2.2.2.1], fun h1 => absurd h1 h.2.2.2.2.2.2⟩

theorem eatNumber_facts {l : Lex} {cs : List Byte} {r : Lex} (e : eatNumber l cs = some r) : TokFacts cs l r := by
  cases cs with
  | nil => simp [eatNumber] at e
  | cons b cs =>
    unfold eatNumber at e
    dsimp only at e
    split at e
    · split at e
      · cases e; exact .plain (by simp)
      · cases e; exact .error ..
      · split at e
        · cases e; exact .plain (by simp)
        · cases e; exact .error ..
        · split at e
          · rename_i he
            cases e
            rcases eatFloat_type he with rfl | rfl <;> exact .plain (by simp)
          · cases e; exact .plain (by simp)
    · cases e

theorem keyword_match : ∀ k ∈ keywords, k.2 ≠ .unknown ∧ k.2 ≠ .eof ∧ k.2 ≠ .comma ∧ k.2 ≠ .rsqb ∧ k.2 ≠ .rbrc ∧ k.2 ≠ .dot ∧ (k.2 = .match_ → k.1 = "match") := by decide

theorem eatId_facts {l : Lex} {cs : List Byte} {r : Lex} (e : eatId l cs = some r) : TokFacts cs l r := by
  cases cs with
  | nil => simp [eatId] at e
  | cons b cs =>
    unfold eatId at e
    dsimp only at e
    split at e
    · split at e
      · cases e; exact .plain (by simp)
      · cases e
        unfold lexKeyword
        split
        · exact ⟨fun _ => rfl, by simp [Lex.error], fun h => .inl h, by simp [Lex.error], by simp [Lex.error], by simp [Lex.error]⟩
        · split
          · rename_i k hk
            have hm := keyword_match k (List.mem_of_find?_eq_some hk)
            have hw : word k.1 = b :: cs.takeWhile isIdChar := by have := List.find?_some hk; simpa using this
            refine ⟨fun h => absurd h hm.1, fun h => absurd h hm.2.1, fun h => .inl h, fun h => ?_, ?_, fun h => absurd h hm.2.2.2.2.2.1⟩
            · have hm2 : k.1 = "match" := hm.2.2.2.2.2.2 h
              rw [← hm2, hw]
              exact ⟨[], cs.dropWhile isIdChar, by rw [List.nil_append, List.cons_append, List.takeWhile_append_dropWhile]⟩
            · rintro (h | h | h)
              exacts [absurd h hm.2.2.1, absurd h hm.2.2.2.1, absurd h hm.2.2.2.2.1]
          · split <;> exact .plain (by simp)
    · cases e

theorem eatString_facts (l : Lex) (cs cs' : List Byte) : TokFacts cs' l (eatString l cs) := by
  unfold eatString
  split
  · exact .error ..
  · exact .plain (by simp)

theorem eatRaw_facts (l : Lex) (cs cs' : List Byte) : TokFacts cs' l (eatRaw l cs) := by
  unfold eatRaw
  dsimp only
  split
  · exact ⟨fun _ => rfl, by simp [Lex.error], fun h => .inl h, by simp [Lex.error], by simp [Lex.error], by simp [Lex.error]⟩
  · exact ⟨by simp, by simp, fun h => .inl h, by simp, by simp, by simp⟩

theorem strBody_stop {stop : Byte → Bool} {delim : Byte} : ∀ (n : Nat) (cs acc : List Byte), cs.length ≤ n → ∀ v b r,
    strBody stop delim cs acc = (.inr (v, b), r) → b ∈ cs := by
  intro n
  induction n with
  | zero =>
    intro cs acc h v b r e
    have : cs = [] := by cases cs with | nil => rfl | cons _ _ => simp at h
    subst this; simp [strBody] at e
  | succ n ih =>
    intro cs acc h v b r e
    match cs with
    | [] => simp [strBody] at e
    | a :: cs =>
      simp only [List.length_cons] at h
      rw [strBody.eq_def] at e
      dsimp only at e
      split at e
      · simp at e; rw [e.1.2]; exact List.mem_cons_self
      · split at e
        · simp at e
        · split at e
          · match cs with
            | [] => simp at e
            | x :: cs =>
              simp only [List.length_cons] at h
              dsimp only at e
              split at e
              · exact List.mem_cons_of_mem _ (List.mem_cons_of_mem _ (ih _ _ (by omega) _ _ _ e))
              · split at e
                · split at e
                  · split at e
                    · simp only [List.length_cons] at h
                      have := ih _ _ (by omega) _ _ _ e
                      simp [this]
                    · simp at e
                  · simp at e
                · simp at e
          · exact List.mem_cons_of_mem _ (ih _ _ (by omega) _ _ _ e)

theorem eatInterp_facts (l : Lex) (cs : List Byte) : TokFacts cs l (eatInterpBody l cs) := by
  unfold eatInterpBody
  split
  · exact ⟨fun _ => rfl, by simp [Lex.error], by simp [Lex.error], by simp [Lex.error], by simp [Lex.error], by simp [Lex.error]⟩
  · exact .error ..
  · rename_i v b r he
    refine ⟨by simp, by simp, fun h => .inr ?_, by simp, by simp, by simp⟩
    have := strBody_stop cs.length cs [] le_rfl _ _ _ he
    have hb : b = ch '#' := by simpa using h
    exact hb ▸ this

/-- Reading on in a string gives a piece of string or a message. -/
theorem eatInterp_str (l : Lex) (cs : List Byte) (h : (eatInterpBody l cs).err = none) : (eatInterpBody l cs).type = .str := by
  unfold eatInterpBody at h ⊢
  split at h
  · simp [Lex.error] at h
  · simp [Lex.error] at h
  · rfl

theorem eatInterp_rest (l : Lex) (cs : List Byte) : (eatInterpBody l cs).rest <:+ cs := by
  have h := (strBody_suffix (fun b => b == ch '"' || b == ch '#') (ch '"') cs.length cs [] le_rfl).1
  unfold eatInterpBody
  split
  · exact List.nil_suffix
  · rename_i he; rw [he] at h; exact (List.tail_suffix _).trans h
  · rename_i he; rw [he] at h; exact h

theorem ops_facts : (∀ p ∈ threeChars, p.2.2.2 ≠ .unknown ∧ p.2.2.2 ≠ .eof ∧ p.2.2.2 ≠ .match_) ∧ (∀ p ∈ twoChars, p.2.2 ≠ .unknown ∧ p.2.2 ≠ .eof ∧ p.2.2 ≠ .match_) ∧
    (∀ p ∈ oneChar, p.2 ≠ .unknown ∧ p.2 ≠ .eof ∧ p.2 ≠ .match_) := by decide

theorem tok_facts : (∀ a b c t, tok3 a b c = some t → t ≠ .unknown ∧ t ≠ .eof ∧ t ≠ .match_) ∧ (∀ a b t, tok2 a b = some t → t ≠ .unknown ∧ t ≠ .eof ∧ t ≠ .match_) ∧
    (∀ a t, tok1 a = some t → t ≠ .unknown ∧ t ≠ .eof ∧ t ≠ .match_) := by
  refine ⟨fun a b c t h => ?_, fun a b t h => ?_, fun a t h => ?_⟩
  · rw [tok3, Option.map_eq_some_iff] at h
    obtain ⟨p, h1, rfl⟩ := h
    exact ops_facts.1 p (List.mem_of_find?_eq_some h1)
  · rw [tok2, Option.map_eq_some_iff] at h
    obtain ⟨p, h1, rfl⟩ := h
    exact ops_facts.2.1 p (List.mem_of_find?_eq_some h1)
  · rw [tok1, Option.map_eq_some_iff] at h
    obtain ⟨p, h1, rfl⟩ := h
    exact ops_facts.2.2 p (List.mem_of_find?_eq_some h1)

theorem eatOp_facts {cs r : List Byte} {t : Tok} (h : eatOp cs = some (t, r)) : t ≠ .unknown ∧ t ≠ .eof ∧ t ≠ .match_ := by
  obtain ⟨f3, f2, f1⟩ := tok_facts
  unfold eatOp at h
  split at h
  · cases h
  · rw [Option.map_eq_some_iff] at h
    obtain ⟨t', h1, h2⟩ := h
    cases h2; exact f1 _ _ h1
  · split at h
    · cases h; exact f2 _ _ _ ‹_›
    · rw [Option.map_eq_some_iff] at h
      obtain ⟨t', h1, h2⟩ := h
      cases h2; exact f1 _ _ h1
  · split at h
    · cases h; exact f3 _ _ _ _ ‹_›
    · split at h
      · cases h; exact f2 _ _ _ ‹_›
      · rw [Option.map_eq_some_iff] at h
        obtain ⟨t', h1, h2⟩ := h
        cases h2; exact f1 _ _ h1

theorem dots_facts : (∀ p ∈ threeChars, p.2.2.2 ≠ .dot) ∧ (∀ p ∈ twoChars, p.2.2 ≠ .dot) ∧ (∀ p ∈ oneChar, p.2 = .dot → ch p.1 = ch '.') := by decide

theorem eatOp_dot {cs r : List Byte} (h : eatOp cs = some (.dot, r)) : ch '.' ∈ cs := by
  have f3 : ∀ a b c, tok3 a b c ≠ some .dot := by
    intro a b c h
    rw [tok3, Option.map_eq_some_iff] at h
    obtain ⟨p, h1, h2⟩ := h
    exact dots_facts.1 p (List.mem_of_find?_eq_some h1) h2
  have f2 : ∀ a b, tok2 a b ≠ some .dot := by
    intro a b h
    rw [tok2, Option.map_eq_some_iff] at h
    obtain ⟨p, h1, h2⟩ := h
    exact dots_facts.2.1 p (List.mem_of_find?_eq_some h1) h2
  have f1 : ∀ a, tok1 a = some .dot → a = ch '.' := by
    intro a h
    rw [tok1, Option.map_eq_some_iff] at h
    obtain ⟨p, h1, h2⟩ := h
    have h3 := List.find?_some h1
    have h4 := dots_facts.2.2 p (List.mem_of_find?_eq_some h1) h2
    rw [← h4]; exact (by simpa using h3 : ch p.1 = a).symm
  unfold eatOp at h
  split at h
  · cases h
  · rw [Option.map_eq_some_iff] at h
    obtain ⟨t', h1, h2⟩ := h
    cases h2; simp [f1 _ h1]
  · split at h
    · cases h; exact absurd ‹_› (f2 _ _)
    · rw [Option.map_eq_some_iff] at h
      obtain ⟨t', h1, h2⟩ := h
      cases h2; simp [f1 _ h1]
  · split at h
    · cases h; exact absurd ‹_› (f3 _ _ _)
    · split at h
      · cases h; exact absurd ‹_› (f2 _ _)
      · rw [Option.map_eq_some_iff] at h
        obtain ⟨t', h1, h2⟩ := h
        cases h2; simp [f1 _ h1]

theorem lexTok_facts (l : Lex) (cs : List Byte) (hn : cs.head? ≠ some (ch '\n')) : TokFacts cs l (lexTok l cs) := by
  cases cs with
  | nil => exact ⟨by simp [lexTok], by simp [lexTok], fun h => .inl h, by simp [lexTok], by simp [lexTok], by simp [lexTok]⟩
  | cons b cs =>
    unfold lexTok
    dsimp only
    split
    · exact eatNumber_facts ‹_›
    · split
      · exact eatId_facts ‹_›
      · split
        · exact eatString_facts ..
        · split
          · exact eatRaw_facts ..
          · split
            · exact (eatInterp_facts l cs).mono (List.suffix_cons _ _)
            · split
              · rename_i ho
                have h := eatOp_facts ho
                exact ⟨fun h1 => absurd h1 h.1, fun h1 => absurd h1 h.2.1, fun h => .inl h, fun h1 => absurd h1 h.2.2, fun _ => hn, fun h1 => by dsimp only at h1; rw [h1] at ho; exact eatOp_dot ho⟩
              · exact .error ..

theorem gettok_facts (l : Lex) : TokFacts l.rest l (gettok l) := by
  have hk := eatLayout_ok l.type.potentialEnd (l.rest.length + 1) l.rest l.line (by omega)
  rw [gettok]
  split
  · exact ⟨by simp, by simp, fun h => .inl h, by simp, by simp, by simp⟩
  · exact ⟨by simp, by simp, fun h => .inl h, by simp, by simp, by simp⟩
  · exact ⟨fun _ => rfl, by simp [Lex.error], fun h => .inl h, by simp [Lex.error], by simp [Lex.error], by simp [Lex.error]⟩
  · rename_i cs n he
    rw [he] at hk
    obtain ⟨h1, -, h3⟩ := hk
    have h := lexTok_facts { l with line := n } cs (by
      intro hc
      cases cs with
      | nil => simp at hc
      | cons b cs =>
        simp only [List.head?_cons, Option.some.injEq] at hc
        have h4 := (h3 b cs rfl).1
        rw [hc] at h4; revert h4; decide)
    exact (⟨h.unknown, h.eof, h.interp, h.kwMatch, h.closer, h.dot⟩ : TokFacts cs l _).mono h1

end Yasl
