import Verif.Model.Lexer
import Mathlib.Data.List.Infix
import Mathlib.Data.List.Count
set_option autoImplicit false
/-! # Proofs about the lexer -/
namespace Yasl

/-- The number of line ends (for the proofs). -/
def nls (cs : List Byte) : Nat := cs.count (ch '\n')

@[simp] theorem nls_nil : nls [] = 0 := rfl
theorem nls_cons (b : Byte) (cs : List Byte) : nls (b :: cs) = nls cs + if b = ch '\n' then 1 else 0 := by
  simp [nls, List.count_cons]
theorem nls_append (a b : List Byte) : nls (a ++ b) = nls a + nls b := by simp [nls]

theorem isBlankB_nl : isBlankB (ch '\n') = true := by decide

theorem eatWs_suffix (pe : Bool) : ∀ (cs : List Byte) (line : Nat), (eatWs pe cs line).2.1 <:+ cs := by
  intro cs
  induction cs with
  | nil => intro line; exact List.suffix_refl _
  | cons b cs ih =>
    intro line
    rw [eatWs]
    split
    · split
      · split
        · exact List.suffix_refl _
        · exact (ih _).trans (List.suffix_cons _ _)
      · exact (ih _).trans (List.suffix_cons _ _)
    · exact List.suffix_refl _

/-- Line ends read are counted. -/
theorem eatWs_lines (pe : Bool) : ∀ (cs : List Byte) (line : Nat),
    (∃ r n, eatWs pe cs line = (true, ch '\n' :: r, n) ∧ n + nls r = line + nls cs ∧ pe = true ∧ ch '\n' :: r <:+ cs) ∨
    (∃ r n, eatWs pe cs line = (false, r, n) ∧ n + nls r = line + nls cs ∧ r <:+ cs ∧ (∀ b, r.head? = some b → isBlankB b = false)) := by
  intro cs
  induction cs with
  | nil => intro line; exact .inr ⟨[], line, rfl, rfl, List.suffix_refl _, by simp⟩
  | cons b cs ih =>
    intro line
    rw [eatWs]
    split
    · rename_i hw
      split
      · rename_i hb
        split
        · rename_i hp
          exact .inl ⟨cs, line + 1, by rw [hb], by rw [nls_cons, if_pos hb]; omega, hp, by rw [hb]⟩
        · rcases ih (line + 1) with ⟨r, n, e, h, p, s⟩ | ⟨r, n, e, h, s, w⟩
          · exact .inl ⟨r, n, e, by rw [nls_cons, if_pos hb]; omega, p, s.trans (List.suffix_cons _ _)⟩
          · exact .inr ⟨r, n, e, by rw [nls_cons, if_pos hb]; omega, s.trans (List.suffix_cons _ _), w⟩
      · rename_i hb
        rcases ih line with ⟨r, n, e, h, p, s⟩ | ⟨r, n, e, h, s, w⟩
        · exact .inl ⟨r, n, e, by rw [nls_cons, if_neg hb]; omega, p, s.trans (List.suffix_cons _ _)⟩
        · exact .inr ⟨r, n, e, by rw [nls_cons, if_neg hb]; omega, s.trans (List.suffix_cons _ _), w⟩
    · rename_i hw
      exact .inr ⟨b :: cs, line, rfl, rfl, List.suffix_refl _, by simpa using hw⟩

theorem dropWhile_nls (cs : List Byte) : nls (cs.dropWhile (· != ch '\n')) = nls cs := by
  induction cs with
  | nil => rfl
  | cons b cs ih =>
    rw [List.dropWhile_cons]
    by_cases hb : b = ch '\n'
    · simp [hb]
    · rw [if_pos (by simpa using hb), ih, nls_cons, if_neg hb]; rfl

theorem eatInline_lines (cs : List Byte) : nls (eatInline cs) = nls cs ∧ eatInline cs <:+ cs ∧
    (∀ b r, cs = b :: r → b = ch '#' → eatInline cs <:+ r) ∧ (∀ b, (eatInline cs).head? = some b → cs.head? = some b ∨ b = ch '\n') := by
  cases cs with
  | nil => exact ⟨rfl, List.suffix_refl _, by simp, by simp [eatInline]⟩
  | cons b cs =>
    rw [eatInline]
    split
    · rename_i hb
      refine ⟨?_, (List.dropWhile_suffix _).trans (List.suffix_cons _ _), fun b' r h _ => ?_, fun x hx => .inr ?_⟩
      · rw [dropWhile_nls, nls_cons, hb, if_neg (by decide)]; rfl
      · cases h; exact List.dropWhile_suffix _
      · have := List.head?_dropWhile_not (p := (· != ch '\n')) cs
        rw [hx] at this
        simpa using this
    · rename_i hb
      exact ⟨rfl, List.suffix_refl _, fun b' r h h' => by cases h; exact absurd h' hb, fun x hx => .inl hx⟩

theorem eatBlock_lines : ∀ (cs : List Byte) (line : Nat) (semi : Bool) (r : List Byte) (n : Nat) (m : Bool), eatBlock cs line semi = (some r, n, m) →
    n + nls r = line + nls cs ∧ r <:+ cs ∧ r.length + 2 ≤ cs.length := by
  intro cs
  induction cs with
  | nil => intro line semi r n m h; rw [eatBlock] at h; cases h; simp
  | cons c1 cs ih =>
    intro line semi r n m h
    cases cs with
    | nil => rw [eatBlock] at h; cases h; simp
    | cons c2 cs =>
      rw [eatBlock] at h
      split at h
      · rename_i hh
        cases h
        refine ⟨?_, ⟨[c1, c2], rfl⟩, by simp⟩
        rw [nls_cons, nls_cons, hh.1, hh.2, if_neg (by decide), if_neg (by decide)]; rfl
      · obtain ⟨h1, h2, h3⟩ := ih _ _ _ _ _ h
        refine ⟨?_, h2.trans (List.suffix_cons _ _), by simp at h3 ⊢; omega⟩
        rw [nls_cons c1]
        split at h1 <;> rename_i hc
        · rw [if_pos hc]; omega
        · rw [if_neg hc]; omega

/-- What a round does. -/
def RoundOk (pe : Bool) (cs : List Byte) (line : Nat) : Layout ⊕ (List Byte × Nat) → Prop
  | .inl (.semi _ r n) => r <:+ cs ∧ r.length < cs.length ∧ n + nls r = line + nls cs ∧ pe = true
  | .inl (.slash n) => 0 < cs.length ∧ n = line + nls cs
  | .inl (.error _) => 0 < cs.length
  | .inl (.none r n) => r <:+ cs ∧ n + nls r = line + nls cs ∧ (r = [] ∨ ∃ b2 r', r = ch '/' :: b2 :: r' ∧ b2 ≠ ch '*')
  | .inr (r, n) => n + nls r = line + nls cs ∧ r.length < cs.length ∧ (r <:+ cs ∨ ∃ r', r = ch ' ' :: r' ∧ r' <:+ cs)

theorem layoutRound_ok (pe : Bool) (b : Byte) (cs : List Byte) (line : Nat) (hb : (isBlankB b || b == ch '#' || b == ch '/') = true) :
    RoundOk pe (b :: cs) line (layoutRound pe (b :: cs) line) := by
  unfold layoutRound
  rcases eatWs_lines pe (b :: cs) line with ⟨r, n, e, h, p, s⟩ | ⟨r, n, e, h, s, w⟩
  · rw [e]
    have hl := s.length_le
    refine ⟨(List.suffix_cons _ _).trans s, ?_, h, p⟩
    simp only [List.tail_cons, List.length_cons] at hl ⊢; omega
  · rw [e]
    dsimp only
    obtain ⟨i1, i2, i3, i4⟩ := eatInline_lines r
    have key : ∀ x r', eatInline r = x :: r' → x ≠ ch '/' → (x :: r').length < (b :: cs).length := by
      intro x r' hx nx
      have l1 := s.length_le
      have l2 := i2.length_le
      rw [hx] at l2
      by_contra hc
      have e1 : r = b :: cs := s.eq_of_length (by omega)
      have e2 : eatInline r = r := i2.eq_of_length (by rw [hx]; omega)
      have hw := w b (by rw [e1]; rfl)
      rw [hw] at hb
      simp only [Bool.false_or, Bool.or_eq_true, beq_iff_eq] at hb
      rcases hb with hb | hb
      · have := (i3 b cs e1 hb).length_le
        rw [e2, e1] at this
        simp at this; omega
      · rw [hx, e1] at e2
        cases e2
        exact nx hb
    split
    · rename_i hx
      refine ⟨List.nil_suffix, ?_, .inl rfl⟩
      rw [hx] at i1; rw [← h, ← i1]
    · rename_i x r' hx
      rw [hx] at i1 i2
      split
      · rename_i hxe
        split
        · refine ⟨by simp, ?_⟩
          rw [← h, ← i1, nls_cons, if_neg (by rw [hxe]; decide)]; rfl
        · rename_i b2 cs2
          split
          · rename_i hb2
            cases eb : eatBlock cs2 n false with
            | mk o q =>
              obtain ⟨n2, sm⟩ := q
              cases o with
              | none => dsimp only; show 0 < (b :: cs).length; simp
              | some r2 =>
                obtain ⟨g1, g2, g3⟩ := eatBlock_lines _ _ _ _ _ _ eb
                have l1 := (i2.trans s).length_le
                have hn : n2 + nls r2 = line + nls (b :: cs) := by
                  rw [g1, ← h, ← i1, nls_cons, nls_cons, hxe, hb2, if_neg (by decide), if_neg (by decide)]; rfl
                have hs : r2 <:+ b :: cs := g2.trans (((List.suffix_cons _ _).trans (List.suffix_cons _ _)).trans (i2.trans s))
                simp only [List.length_cons] at l1
                dsimp only
                split
                · rename_i hc
                  refine ⟨hs, by simp only [List.length_cons]; omega, hn, by simp at hc; exact hc.2⟩
                · refine ⟨?_, by simp only [List.length_cons]; omega, .inr ⟨r2, rfl, hs⟩⟩
                  rw [nls_cons, if_neg (by decide)]; exact hn
          · rename_i hb2
            exact ⟨i2.trans s, by rw [← h, ← i1], .inr ⟨b2, cs2, by rw [hxe], hb2⟩⟩
      · rename_i hxe
        exact ⟨by rw [← h, ← i1], key x r' hx hxe, .inl (i2.trans s)⟩

/-- A byte at which no layout starts. -/
def NoLayout (r : List Byte) : Prop :=
  ∀ b t, r = b :: t → isBlankB b = false ∧ b ≠ ch '#' ∧ (b = ch '/' → ∃ b2 t', t = b2 :: t' ∧ b2 ≠ ch '*')

/-- What the skipping of layout does. -/
def LayoutOk (pe : Bool) (cs : List Byte) (line : Nat) : Layout → Prop
  | .semi _ r n => r <:+ cs ∧ r.length < cs.length ∧ n + nls r = line + nls cs ∧ pe = true
  | .slash n => 0 < cs.length ∧ n = line + nls cs
  | .error _ => 0 < cs.length
  | .none r n => r <:+ cs ∧ n + nls r = line + nls cs ∧ NoLayout r

theorem noLayout_nil : NoLayout [] := by intro b t h; cases h

theorem noLayout_slash {b2 : Byte} {r : List Byte} (h : b2 ≠ ch '*') : NoLayout (ch '/' :: b2 :: r) := by
  intro b t e
  cases e
  exact ⟨by decide, by decide, fun _ => ⟨b2, r, rfl, h⟩⟩

theorem suffix_of_space {r r' : List Byte} (h : r <:+ ch ' ' :: r') (hn : r ≠ ch ' ' :: r') : r <:+ r' := by
  rcases List.suffix_cons_iff.1 h with e | e
  · exact absurd e hn
  · exact e

theorem LayoutOk.space {pe : Bool} {cs r' : List Byte} {line n : Nat} (hs : r' <:+ cs) (hl : (ch ' ' :: r').length < cs.length)
    (hn : n + nls (ch ' ' :: r') = line + nls cs) {res : Layout} (h : LayoutOk pe (ch ' ' :: r') n res) : LayoutOk pe cs line res := by
  cases res with
  | semi c r m =>
    obtain ⟨h1, h2, h3, h4⟩ := h
    exact ⟨(suffix_of_space h1 (by rintro rfl; omega)).trans hs, by omega, by omega, h4⟩
  | slash m => exact ⟨by omega, by have := h.2; omega⟩
  | error m => show 0 < cs.length; omega
  | none r m =>
    obtain ⟨h1, h2, h3⟩ := h
    refine ⟨(suffix_of_space h1 ?_).trans hs, by omega, h3⟩
    rintro rfl
    have := (h3 (ch ' ') r' rfl).1
    simp [isBlankB] at this

theorem LayoutOk.mono {pe : Bool} {cs r : List Byte} {line n : Nat} (hs : r <:+ cs) (hl : r.length < cs.length)
    (hn : n + nls r = line + nls cs) {res : Layout} (h : LayoutOk pe r n res) : LayoutOk pe cs line res := by
  cases res with
  | semi c r m =>
    obtain ⟨h1, h2, h3, h4⟩ := h
    exact ⟨h1.trans hs, by omega, by omega, h4⟩
  | slash m => exact ⟨by omega, by have := h.2; omega⟩
  | error m => show 0 < cs.length; omega
  | none r m =>
    obtain ⟨h1, h2, h3⟩ := h
    exact ⟨h1.trans hs, by omega, h3⟩

theorem eatLayout_ok (pe : Bool) : ∀ (f : Nat) (cs : List Byte) (line : Nat), cs.length < f → LayoutOk pe cs line (eatLayout pe f cs line) := by
  intro f
  induction f with
  | zero => intro cs line h; omega
  | succ f ih =>
    intro cs line hf
    cases cs with
    | nil => rw [eatLayout]; exact ⟨List.suffix_refl _, rfl, noLayout_nil⟩
    | cons b cs =>
      rw [eatLayout]
      split
      · rename_i hb
        have hr := layoutRound_ok pe b cs line hb
        rcases hx : layoutRound pe (b :: cs) line with res | ⟨r, n⟩
        · rw [hx] at hr
          dsimp only
          cases res with
          | semi c r n => exact hr
          | slash n => exact hr
          | error n => exact hr
          | none r n =>
            obtain ⟨h1, h2, h3⟩ := hr
            refine ⟨h1, h2, ?_⟩
            rcases h3 with rfl | ⟨b2, r', rfl, h3⟩
            · exact noLayout_nil
            · exact noLayout_slash h3
        · rw [hx] at hr
          obtain ⟨h1, h2, h3⟩ := hr
          dsimp only
          have hi := ih r n (by simp only [List.length_cons] at hf h2; omega)
          rcases h3 with h3 | ⟨r', rfl, h3⟩
          · exact hi.mono h3 h2 h1
          · exact hi.space h3 h2 h1
      · rename_i hb
        refine ⟨List.suffix_refl _, rfl, ?_⟩
        intro x t e
        cases e
        simp only [Bool.or_eq_true, not_or, beq_iff_eq] at hb
        exact ⟨by simpa using hb.1.1, hb.1.2, fun h => absurd h hb.2⟩

/-- The bound on the rounds does not matter. -/
theorem eatLayout_enough (pe : Bool) : ∀ (f g : Nat) (cs : List Byte) (line : Nat), cs.length < f → cs.length < g →
    eatLayout pe f cs line = eatLayout pe g cs line := by
  intro f
  induction f with
  | zero => intro g cs line h; omega
  | succ f ih =>
    intro g cs line hf hg
    cases g with
    | zero => omega
    | succ g =>
      cases cs with
      | nil => rw [eatLayout, eatLayout]
      | cons b cs =>
        rw [eatLayout, eatLayout]
        split
        · rename_i hb
          have hr := layoutRound_ok pe b cs line hb
          rcases hx : layoutRound pe (b :: cs) line with res | ⟨r, n⟩
          · rfl
          · rw [hx] at hr
            have h2 := hr.2.1
            dsimp only
            exact ih g r n (by simp only [List.length_cons] at hf h2; omega) (by simp only [List.length_cons] at hg h2; omega)
        · rfl

end Yasl
