import Verif.Spec.LexInput
import Verif.Proofs.LexInputTok
import Verif.Proofs.LexTok
set_option autoImplicit false
/-! # C110: a text is read the same from a file and from memory -/
namespace Yasl

theorem LexRel.view {src : List Byte} {t : CLex} {l : Lex} (h : LexRel src t l) : t.view = l.view := by
  have hv : t.value = if endsWithZero l.type then l.value ++ [0] else l.value := by
    rw [h.value]
    cases l.type <;> simp [Tok.hasText, endsWithZero]
  unfold CLex.view Lex.view
  rw [h.type, hv, h.line, h.interp, h.err, h.c]

theorem call_in {src : List Byte} {t : CLex} {l : Lex} (h : LexRel src t l) (k : LexCall) : ∃ t', t.call k = some t' ∧ LexRel src t' (l.call k) := by
  cases k with
  | token => exact gettok_in h
  | look =>
    obtain ⟨t', e1, e2⟩ := gettok_in h
    refine ⟨_, by unfold CLex.call; rw [e1]; rfl, ?_⟩
    exact ⟨e2.inp.at_ h.inp.rest h.inp.le, e2.c, h.type, h.value, e2.line, e2.interp, e2.err⟩
  | part => exact ⟨_, rfl, ⟨h.inp, h.c, h.type, h.value, h.line, rfl, h.err⟩⟩
  | resume =>
    unfold CLex.call Lex.call
    dsimp only
    by_cases hc : l.c = some (ch '}')
    · rw [if_pos hc, if_pos (by rw [h.c, hc]; rfl)]
      exact interpBody_in (t := CLex.getchar { t with interp := true }) (l := { l with interp := true }) (InOk.getchar h.inp) h.line rfl h.err
    · rw [if_neg hc, if_neg]
      · exact ⟨t, rfl, h⟩
      · rw [h.c]
        intro q
        cases hl : l.c with
        | none => rw [hl] at q; revert q; decide
        | some b => rw [hl] at q hc; exact hc (congrArg some q)

theorem calls_in {src : List Byte} : ∀ (ks : List LexCall) (t : CLex) (l : Lex), LexRel src t l → ∃ t', t.calls ks = some t' ∧ LexRel src t' (l.calls ks) := by
  intro ks
  induction ks with
  | nil => intro t l h; exact ⟨t, rfl, h⟩
  | cons k ks ih =>
    intro t l h
    obtain ⟨t', e1, e2⟩ := call_in h k
    obtain ⟨t2, e3, e4⟩ := ih t' (l.call k) e2
    exact ⟨t2, by unfold CLex.calls; rw [e1]; exact e3, e4⟩

theorem new_in (k : InKind) (src : List Byte) : LexRel src (CLex.new (.open_ k src)) (Lex.new src) :=
  ⟨⟨rfl, rfl, Nat.zero_le _, fun h => by cases h⟩, rfl, rfl, rfl, rfl, rfl, rfl⟩

/-- **C110**: whatever the text (any bytes, ending anywhere) and wherever it comes from, and whatever sequence of tokens, looks ahead and parts of strings the parser
asks for, every call returns, and what the parser sees is what the lexer of C78–C84 shows. -/
theorem C110_reads (k : InKind) (src : List Byte) (ks : List LexCall) :
    ∃ t, (CLex.new (.open_ k src)).calls ks = some t ∧ t.view = ((Lex.new src).calls ks).view := by
  obtain ⟨t, e1, e2⟩ := calls_in ks _ _ (new_in k src)
  exact ⟨t, e1, e2.view⟩

/-- **C110**: a text in a file and the same text in memory look the same to the parser. -/
theorem C110_file_and_memory (src : List Byte) (ks : List LexCall) :
    ∃ t u, (CLex.new (.open_ .file src)).calls ks = some t ∧ (CLex.new (.open_ .mem src)).calls ks = some u ∧ t.view = u.view := by
  obtain ⟨t, e1, e2⟩ := C110_reads .file src ks
  obtain ⟨u, e3, e4⟩ := C110_reads .mem src ks
  exact ⟨t, u, e1, e3, e2.trans e4.symm⟩

/-- **C110**: and every call leaves the position in the text where the lexer on lists is: nothing is read twice and nothing is lost. -/
theorem C110_position (k : InKind) (src : List Byte) (ks : List LexCall) (t : CLex) (h : (CLex.new (.open_ k src)).calls ks = some t) :
    t.inp.text = src ∧ t.inp.pos ≤ src.length ∧ src.drop t.inp.pos = ((Lex.new src).calls ks).rest := by
  obtain ⟨t', e1, e2⟩ := calls_in ks _ _ (new_in k src)
  rw [h] at e1
  cases e1
  exact ⟨e2.inp.text, e2.inp.le, e2.inp.rest⟩

/-- The end of the input is noticed by the mark, not by the character: a byte 255 in a string is a byte like any other, from a file and from memory. -/
theorem C110_byte_255 (k : InKind) : ∃ t, (CLex.new (.open_ k (ch '\'' :: 255 :: ch 'a' :: [ch '\'']))).calls [.token] = some t ∧
    t.view = ⟨.str, [255, ch 'a'], 1, false, none, ch '\''⟩ := by
  obtain ⟨t, e1, e2⟩ := C110_reads k (ch '\'' :: 255 :: ch 'a' :: [ch '\'']) [.token]
  exact ⟨t, e1, e2.trans (by decide +kernel)⟩

/-- The two kinds of input do differ inside: at the end of a text that ends with the digit 0 the mark stays set in memory and is cleared for a file. -/
theorem C110_marks_differ :
    ((CLex.new (.open_ .mem (word "0"))).getchar.eatInt (ch 'x') isXDigit).map (fun r => r.2.inp.mark) = some true ∧
    ((CLex.new (.open_ .file (word "0"))).getchar.eatInt (ch 'x') isXDigit).map (fun r => r.2.inp.mark) = some false := by
  decide +kernel

/-- A look ahead, a string with a hole and the token after it. -/
example : ((Lex.new (word "fn \"a#{x}b\" y")).calls [.token, .look, .token, .part, .token, .token, .resume, .token]).view = ⟨.id, word "y" ++ [0], 1, false, none, 255⟩ := by
  decide +kernel
example (k : InKind) : ∃ t, (CLex.new (.open_ k (word "fn \"a#{x}b\" y"))).calls [.token, .look, .token, .part, .token, .token, .resume, .token] = some t ∧
    t.view = ⟨.id, word "y" ++ [0], 1, false, none, 255⟩ := by
  obtain ⟨t, e1, e2⟩ := C110_reads k (word "fn \"a#{x}b\" y") [.token, .look, .token, .part, .token, .token, .resume, .token]
  exact ⟨t, e1, e2.trans (by decide +kernel)⟩
example (k : InKind) : ∃ t, (CLex.new (.open_ k (word "x.0"))).calls [.token, .token, .token] = some t ∧ t.view = ⟨.int, [ch '0', 0], 1, false, none, 255⟩ := by
  obtain ⟨t, e1, e2⟩ := C110_reads k (word "x.0") [.token, .token, .token]
  exact ⟨t, e1, e2.trans (by decide +kernel)⟩

/-! ## C84 with looks ahead -/

theorem looked_line (src : List Byte) (hx : ¬ [ch '\\', ch 'x', ch '\n'] <:+: src) : ∀ (ks : List LexCall) (l : Lex) (n : Nat), l.rest <:+ src →
    (∀ k ∈ ks, k = .token ∨ k = .look) →
    (∀ i < ks.length, (gettok (l.calls (ks.take i))).type ≠ .unknown ∧ ((gettok (l.calls (ks.take i))).type = .float → ch '\n' ∉ (gettok (l.calls (ks.take i))).value)) →
    l.line + nls l.rest = 1 + nls src + n →
    (l.calls ks).rest <:+ src ∧ (l.calls ks).line + nls (l.calls ks).rest = 1 + nls src + n + l.looked ks := by
  intro ks
  induction ks with
  | nil => intro l n hs _ _ e; exact ⟨hs, e⟩
  | cons k ks ih =>
    intro l n hs hk hok e
    obtain ⟨g1, -, g3⟩ := gettok_ok l
    obtain ⟨o1, o2⟩ := hok 0 (by simp)
    have g3 := g3 o1 o2 (fun hi => hx (hi.trans hs.isInfix))
    have hok' : ∀ i < ks.length, (gettok ((l.call k).calls (ks.take i))).type ≠ .unknown ∧
        ((gettok ((l.call k).calls (ks.take i))).type = .float → ch '\n' ∉ (gettok ((l.call k).calls (ks.take i))).value) := fun i hi => hok (i + 1) (by simp; omega)
    have le : nls (gettok l).rest ≤ nls l.rest := by
      obtain ⟨t, ht⟩ := g1
      rw [← ht, nls_append]; omega
    rcases hk k (by simp) with rfl | rfl
    · have := ih (gettok l) n (g1.trans hs) (fun k h => hk k (by simp [h])) hok' (by omega)
      rw [show Lex.looked l (.token :: ks) = Lex.looked (gettok l) ks from Nat.zero_add _]
      exact this
    · have := ih (l.call .look) (n + (nls l.rest - nls (gettok l).rest)) hs (fun k h => hk k (by simp [h])) hok' (by
        show (gettok l).line + nls l.rest = _
        omega)
      refine ⟨this.1, ?_⟩
      have e2 : Lex.looked l (.look :: ks) = (nls l.rest - nls (gettok l).rest) + Lex.looked (l.call .look) ks := rfl
      rw [e2]
      have := this.2
      show ((l.call .look).calls ks).line + nls ((l.call .look).calls ks).rest = _
      omega

/-- C84 with looks ahead, exact (for the texts of `C84_lines_partial`): every line end that a look ahead goes over is counted once more. -/
theorem C84_looks_partial (src : List Byte) (hx : ¬ [ch '\\', ch 'x', ch '\n'] <:+: src) (ks : List LexCall) (hk : ∀ k ∈ ks, k = .token ∨ k = .look)
    (hok : ∀ i < ks.length, (gettok ((Lex.new src).calls (ks.take i))).type ≠ .unknown ∧
      ((gettok ((Lex.new src).calls (ks.take i))).type = .float → ch '\n' ∉ (gettok ((Lex.new src).calls (ks.take i))).value)) :
    ∃ read, src = read ++ ((Lex.new src).calls ks).rest ∧ ((Lex.new src).calls ks).line = 1 + read.count (ch '\n') + (Lex.new src).looked ks := by
  obtain ⟨⟨t, ht⟩, h2⟩ := looked_line src hx ks (Lex.new src) 0 (List.suffix_refl _) hk hok rfl
  refine ⟨t, ht.symm, ?_⟩
  have : nls src = nls t + nls ((Lex.new src).calls ks).rest := by rw [← nls_append, ht]
  have e : t.count (ch '\n') = nls t := rfl
  omega

/-- **C84 is false** after a statement that is a name: to tell it from `x, y = …` the parser looks at the token after the name, which is the line end, and
does not put the line number back; `y` is said to be on line 3. -/
theorem C84_look_counterexample : ((Lex.new (word "x\ny")).calls [.token, .look, .token, .token]).view = ⟨.id, word "y" ++ [0], 3, false, none, 255⟩ ∧
    (Lex.new (word "x\ny")).looked [.token, .look, .token, .token] = 1 := by
  decide +kernel

/-- A text that meets the hypotheses of `C84_looks_partial`. -/
example : ∀ i < 4, (gettok ((Lex.new (word "x\ny")).calls ([LexCall.token, .look, .token, .token].take i))).type ≠ .unknown ∧
    (gettok ((Lex.new (word "x\ny")).calls ([LexCall.token, .look, .token, .token].take i))).type ≠ .float := by decide +kernel

end Yasl
