import Verif.Model.LexInput
import Verif.Proofs.Lexer
set_option autoImplicit false
/-! # Proofs for C110: the lexer as it is written reads what the lexer on lists reads -/
namespace Yasl

/-- The input is at a place of the text from which `r` is left. -/
structure InOk (src : List Byte) (i : Input) (r : List Byte) : Prop where
  text : i.text = src
  rest : src.drop i.pos = r
  le : i.pos ≤ src.length
  mark : i.mark = true → r = []

theorem InOk.get {src r : List Byte} {i : Input} (h : InOk src i r) : i.text[i.pos]? = r.head? := by
  rw [h.text, ← h.rest, List.head?_drop]

theorem InOk.getc {src r : List Byte} {i : Input} (h : InOk src i r) :
    i.getc.1 = r.head? ∧ InOk src i.getc.2 r.tail ∧ i.getc.2.eof = r.isEmpty ∧ (r ≠ [] → i.getc.2.pos = i.pos + 1) := by
  have hg := h.get
  cases r with
  | nil =>
    have hp : src.length ≤ i.pos := List.drop_eq_nil_iff.1 h.rest
    unfold Input.getc
    rw [hg]
    cases hk : i.kind with
    | mem => exact ⟨rfl, ⟨h.text, h.rest, h.le, fun _ => rfl⟩, by simp [Input.eof, hk, h.text, hp], by simp⟩
    | file =>
      dsimp only
      by_cases hm : i.mark = true
      · rw [if_pos hm]
        exact ⟨rfl, ⟨h.text, h.rest, h.le, fun _ => rfl⟩, by simp [Input.eof, hk, hm], by simp⟩
      · rw [if_neg hm]
        exact ⟨rfl, ⟨h.text, h.rest, h.le, fun _ => rfl⟩, by simp [Input.eof, hk], by simp⟩
  | cons b r =>
    have hm : i.mark = false := by
      cases hm : i.mark with
      | false => rfl
      | true => cases h.mark hm
    have hlt : i.pos < src.length := by
      rcases Nat.lt_or_ge i.pos src.length with h1 | h1
      · exact h1
      · have := h.rest; rw [List.drop_eq_nil_of_le h1] at this; cases this
    have hr : src.drop (i.pos + 1) = r := by
      rw [← List.drop_drop, h.rest]; rfl
    unfold Input.getc
    rw [hg]
    cases hk : i.kind with
    | mem => exact ⟨rfl, ⟨h.text, hr, hlt, fun hh => by rw [show _ = i.mark from rfl, hm] at hh; cases hh⟩, by simp [Input.eof, hk, hm], fun _ => rfl⟩
    | file =>
      dsimp only
      rw [hm, if_neg (by simp)]
      exact ⟨rfl, ⟨h.text, hr, hlt, fun hh => by cases hh⟩, by simp [Input.eof], fun _ => rfl⟩

theorem InOk.seek {src r : List Byte} {i : Input} (h : InOk src i r) {w : Nat} (hw : w ≤ src.length) :
    InOk src (i.seek w) (src.drop w) ∧ (w < src.length → (i.seek w).eof = false) ∧ (i.seek w).pos = w := by
  unfold Input.seek
  cases hk : i.kind with
  | mem =>
    dsimp only
    refine ⟨⟨h.text, rfl, hw, ?_⟩, ?_, rfl⟩
    · dsimp only
      intro hm
      by_cases hl : w < i.text.length
      · rw [if_pos hl] at hm; cases hm
      · rw [h.text] at hl; exact List.drop_eq_nil_of_le (by omega)
    · intro hl
      simp only [Input.eof, h.text, if_neg (show ¬ src.length ≤ w by omega), hk]
  | file =>
    refine ⟨⟨h.text, rfl, hw, fun hm => by cases hm⟩, fun _ => by simp only [Input.eof, hk], rfl⟩

/-- The current character and the unread input are `cs`. -/
structure Cur (src : List Byte) (i : Input) (c : Byte) (cs : List Byte) : Prop where
  inp : InOk src i cs.tail
  c : c = cs.head?.getD 255
  eof : i.eof = cs.isEmpty

theorem InOk.getchar {src r : List Byte} {t : CLex} (h : InOk src t.inp r) : Cur src t.getchar.inp t.getchar.c r := by
  obtain ⟨h1, h2, h3, h4⟩ := h.getc
  exact ⟨h2, by show t.inp.getc.1.getD 255 = _; rw [h1], h3⟩

theorem Cur.getchar {src cs : List Byte} {t : CLex} (h : Cur src t.inp t.c cs) : Cur src t.getchar.inp t.getchar.c cs.tail := h.inp.getchar

theorem Cur.nil {src : List Byte} {i : Input} {c : Byte} (h : Cur src i c []) : i.eof = true ∧ c = 255 := ⟨h.eof, h.c⟩
theorem Cur.cons {src cs : List Byte} {i : Input} {c b : Byte} (h : Cur src i c (b :: cs)) : i.eof = false ∧ c = b := ⟨h.eof, h.c⟩

/-- `lex_getchar` changes two fields only. -/
theorem CLex.getchar_eq (t : CLex) : t.getchar = { t with inp := t.getchar.inp, c := t.getchar.c } := rfl

/-! ## Layout -/

theorem eatWs_in {src : List Byte} : ∀ (cs : List Byte) (t : CLex), Cur src t.inp t.c cs → ∃ i c,
    t.eatWs = some ((Yasl.eatWs t.type.potentialEnd cs t.line).1, ⟨i, c, if (Yasl.eatWs t.type.potentialEnd cs t.line).1 then .semi else t.type, t.value,
      (Yasl.eatWs t.type.potentialEnd cs t.line).2.2, t.interp, t.err⟩) ∧
    Cur src i c (Yasl.eatWs t.type.potentialEnd cs t.line).2.1 := by
  intro cs
  induction cs with
  | nil =>
    intro t h
    refine ⟨t.inp, t.c, ?_, h⟩
    rw [CLex.eatWs, show t.eof = true from h.nil.1]
    simp [Yasl.eatWs]
  | cons b cs ih =>
    intro t h
    have he : t.eof = false := h.cons.1
    have hc : t.c = b := h.cons.2
    rw [CLex.eatWs, he, hc, Yasl.eatWs]
    by_cases hb : isBlankB b = true
    · rw [if_pos (by simpa using hb), if_pos hb]
      by_cases hn : b = ch '\n'
      · rw [if_pos hn, if_pos hn]
        dsimp only
        by_cases hp : t.type.potentialEnd = true
        · rw [if_pos hp, if_pos hp]
          exact ⟨t.inp, t.c, by rw [hc]; rfl, h⟩
        · rw [if_neg hp, if_neg hp]
          exact ih (CLex.getchar { t with line := t.line + 1 }) h.getchar
      · rw [if_neg hn, if_neg hn]
        exact ih t.getchar h.getchar
    · rw [if_neg (by simpa using hb), if_neg hb]
      exact ⟨t.inp, t.c, by simp, h⟩

theorem inlineLoop_in {src : List Byte} : ∀ (cs : List Byte) (t : CLex), Cur src t.inp t.c cs → ∃ i c,
    t.inlineLoop = some { t with inp := i, c := c } ∧ Cur src i c (cs.tail.dropWhile (· != ch '\n')) := by
  intro cs
  induction cs with
  | nil =>
    intro t h
    refine ⟨t.inp, t.c, ?_, h⟩
    rw [CLex.inlineLoop, if_pos (show t.eof = true from h.nil.1)]
  | cons b cs ih =>
    intro t h
    rw [CLex.inlineLoop, if_neg (by rw [show t.eof = false from h.cons.1]; simp)]
    have hg : Cur src t.getchar.inp t.getchar.c cs := h.getchar
    rw [List.tail_cons]
    cases cs with
    | nil =>
      rw [if_pos (by rw [hg.nil.2]; decide)]
      exact ih t.getchar hg
    | cons b2 cs =>
      by_cases hn : b2 = ch '\n'
      · rw [if_neg (by rw [hg.cons.2]; simpa using hn)]
        refine ⟨t.getchar.inp, t.getchar.c, rfl, ?_⟩
        rw [List.dropWhile_cons_of_neg (by simp [hn])]
        exact hg
      · rw [if_pos (by rw [hg.cons.2]; exact hn), List.dropWhile_cons_of_pos (by simpa using hn)]
        exact ih t.getchar hg

theorem eatInline_in {src cs : List Byte} {t : CLex} (h : Cur src t.inp t.c cs) : ∃ i c,
    t.eatInline = some { t with inp := i, c := c } ∧ Cur src i c (Yasl.eatInline cs) := by
  unfold CLex.eatInline
  cases cs with
  | nil =>
    rw [if_neg (by rw [h.nil.2]; decide)]
    exact ⟨t.inp, t.c, rfl, h⟩
  | cons b cs =>
    rw [h.cons.2, Yasl.eatInline]
    by_cases hb : b = ch '#'
    · rw [if_pos hb, if_pos hb]
      exact inlineLoop_in _ t h
    · rw [if_neg hb, if_neg hb]
      exact ⟨t.inp, t.c, rfl, h⟩

theorem blockLoop_in {src : List Byte} : ∀ (r : List Byte) (t : CLex) (c1 c2 : Byte) (semi : Bool), InOk src t.inp r → t.eof = false → ∃ i,
    t.blockLoop (some c1) (some c2) semi = some ({ t with inp := i, line := (eatBlock (c1 :: c2 :: r) t.line semi).2.1 }, (eatBlock (c1 :: c2 :: r) t.line semi).2.2) ∧
    match (eatBlock (c1 :: c2 :: r) t.line semi).1 with
    | some r' => InOk src i r' ∧ i.eof = false
    | none => InOk src i [] ∧ i.eof = true := by
  intro r
  induction r with
  | nil =>
    intro t c1 c2 semi h he
    obtain ⟨g1, g2, g3, _⟩ := h.getc
    rw [CLex.blockLoop, he, eatBlock]
    by_cases hc : c1 = ch '*' ∧ c2 = ch '/'
    · rw [if_neg (by simp [hc.1, hc.2]), if_pos hc]
      exact ⟨t.inp, rfl, h, he⟩
    · rw [if_pos (by simp; by_cases hx : c1 = ch '*'; exact .inr fun h2 => hc ⟨hx, h2⟩; exact .inl hx), if_neg hc]
      dsimp only
      have ge : (if some c1 = some (ch '\n') then ({ t with line := t.line + 1 } : CLex) else t).inp = t.inp := by split <;> rfl
      rw [ge, g1]
      refine ⟨t.inp.getc.2, ?_, ?_⟩
      · rw [CLex.blockLoop, if_neg]
        · congr 1
          rw [eatBlock]
          · by_cases hn : c1 = ch '\n'
            · simp [hn]
            · simp [hn]
          · intro a b c hh; cases hh
        · show ¬ (!(t.inp.getc.2.eof) && _) = true
          rw [g3]; simp
      · rw [eatBlock]
        · exact ⟨g2, g3⟩
        · intro a b c hh; cases hh
  | cons b r ih =>
    intro t c1 c2 semi h he
    obtain ⟨g1, g2, g3, _⟩ := h.getc
    rw [CLex.blockLoop, he, eatBlock]
    by_cases hc : c1 = ch '*' ∧ c2 = ch '/'
    · rw [if_neg (by simp [hc.1, hc.2]), if_pos hc]
      exact ⟨t.inp, rfl, h, he⟩
    · rw [if_pos (by simp; by_cases hx : c1 = ch '*'; exact .inr fun h2 => hc ⟨hx, h2⟩; exact .inl hx), if_neg hc]
      dsimp only
      have ge : (if some c1 = some (ch '\n') then ({ t with line := t.line + 1 } : CLex) else t).inp = t.inp := by split <;> rfl
      rw [ge, g1]
      have := ih { (if some c1 = some (ch '\n') then ({ t with line := t.line + 1 } : CLex) else t) with inp := t.inp.getc.2 } c2 b
        (semi || some c1 == some (ch '\n') || some c2 == some (ch '\n')) g2 g3
      obtain ⟨i, e1, e2⟩ := this
      refine ⟨i, ?_, ?_⟩
      · rw [List.head?_cons, e1]
        by_cases hn : c1 = ch '\n'
        · simp [hn]
        · simp [hn]
      · by_cases hn : c1 = ch '\n'
        · simpa [hn] using e2
        · simpa [hn] using e2

theorem blockStart_in {src r : List Byte} {t : CLex} (h : InOk src t.inp r) : ∃ i,
    CLex.blockLoop { t with inp := t.inp.getc.2.getc.2 } t.inp.getc.1 t.inp.getc.2.getc.1 false =
      some ({ t with inp := i, line := (eatBlock r t.line false).2.1 }, (eatBlock r t.line false).2.2) ∧
    match (eatBlock r t.line false).1 with
    | some r' => InOk src i r' ∧ i.eof = false
    | none => InOk src i [] ∧ i.eof = true := by
  obtain ⟨g1, g2, g3, _⟩ := h.getc
  obtain ⟨k1, k2, k3, _⟩ := g2.getc
  rw [g1, k1]
  rcases r with _ | ⟨a, _ | ⟨b, r⟩⟩
  · refine ⟨t.inp.getc.2.getc.2, ?_, k2, k3⟩
    rw [CLex.blockLoop, if_neg (by show ¬ (!(t.inp.getc.2.getc.2.eof) && _) = true; rw [k3]; simp)]
    rfl
  · refine ⟨t.inp.getc.2.getc.2, ?_, k2, k3⟩
    rw [CLex.blockLoop, if_neg (by show ¬ (!(t.inp.getc.2.getc.2.eof) && _) = true; rw [k3]; simp)]
    rfl
  · obtain ⟨i, e1, e2⟩ := blockLoop_in r { t with inp := t.inp.getc.2.getc.2 } a b false k2 k3
    exact ⟨i, e1, e2⟩

/-- What `lex_eatcommentsandwhitespace` leaves. -/
def LayoutIn (src : List Byte) (t : CLex) (r : Option (Bool × CLex)) : Layout → Prop
  | .semi c rest line => ∃ i, r = some (true, { t with inp := i, c := c, line := line, type := .semi }) ∧ InOk src i rest
  | .slash line => ∃ i, r = some (true, { t with inp := i, c := 255, line := line, type := .slash }) ∧ InOk src i []
  | .error line => ∃ i, r = some (true, { t with inp := i, c := ch ' ', line := line, type := .unknown, value := [], err := some .unclosedComment }) ∧ InOk src i []
  | .none cs line => ∃ i c, r = some (false, { t with inp := i, c := c, line := line }) ∧ Cur src i c cs

theorem LayoutIn.move {src : List Byte} {t t' : CLex} {r : Option (Bool × CLex)} {y : Layout} (h : LayoutIn src t r y) (h1 : t.type = t'.type) (h2 : t.value = t'.value)
    (h3 : t.interp = t'.interp) (h4 : t.err = t'.err) : LayoutIn src t' r y := by
  obtain ⟨_, _, _, _, _, _, _⟩ := t
  obtain ⟨_, _, _, _, _, _, _⟩ := t'
  cases h1; cases h2; cases h3; cases h4
  cases y <;> exact h

theorem eatLayout_in {src : List Byte} : ∀ (f : Nat) (cs : List Byte) (t : CLex), cs.length < f → Cur src t.inp t.c cs →
    LayoutIn src t t.eatLayout (Yasl.eatLayout t.type.potentialEnd f cs t.line) := by
  intro f
  induction f with
  | zero => intro cs t hl; omega
  | succ f ih =>
    intro cs t hl h
    cases cs with
    | nil =>
      rw [CLex.eatLayout, show t.eof = true from h.nil.1, Yasl.eatLayout]
      exact ⟨t.inp, t.c, by simp, h⟩
    | cons b cs =>
      rw [CLex.eatLayout, show t.eof = false from h.cons.1, h.cons.2, Yasl.eatLayout]
      by_cases hb : (isBlankB b || b == ch '#' || b == ch '/') = true
      · rw [if_pos (by simpa using hb), if_pos hb]
        have hok := layoutRound_ok t.type.potentialEnd b cs t.line hb
        obtain ⟨i1, c1, e1, h1⟩ := eatWs_in (b :: cs) t h
        rw [e1]
        rcases hw : Yasl.eatWs t.type.potentialEnd (b :: cs) t.line with ⟨w1, r1, l1⟩
        rw [hw] at h1
        unfold layoutRound at hok ⊢
        rw [hw] at hok ⊢
        cases w1 with
        | true =>
          rcases eatWs_lines t.type.potentialEnd (b :: cs) t.line with ⟨r, n, e, _, _, _⟩ | ⟨r, n, e, _, _, _⟩
          · rw [hw] at e
            cases e
            exact ⟨i1, by rw [show c1 = ch '\n' from h1.c]; rfl, h1.inp⟩
          · rw [hw] at e; cases e
        | false =>
          simp only [Option.bind_eq_bind, Option.bind_some, Bool.false_eq_true, if_false] at hok ⊢
          obtain ⟨i2, c2, e2, h2⟩ := eatInline_in (t := ⟨i1, c1, t.type, t.value, l1, t.interp, t.err⟩) h1
          rw [e2]
          simp only [Option.bind_some]
          rcases hr : Yasl.eatInline r1 with _ | ⟨x, r2⟩
          · rw [hr] at h2
            rw [if_neg (by rw [h2.nil.2]; decide)]
            dsimp only
            rw [CLex.eatLayout, if_neg (by show ¬ (!i2.eof && _) = true; rw [h2.nil.1]; simp)]
            exact ⟨i2, c2, rfl, h2⟩
          · rw [hr] at h2 hok
            dsimp only at hok ⊢
            have hx : c2 = x := h2.cons.2
            rw [hx]
            by_cases hs : x = ch '/'
            · rw [if_pos hs] at hok
              rw [if_pos hs, if_pos hs]
              have hg := h2.inp.getchar (t := ⟨i2, x, t.type, t.value, l1, t.interp, t.err⟩)
              rw [List.tail_cons] at hg
              cases r2 with
              | nil =>
                rw [if_neg (by rw [hg.nil.2]; decide), if_pos (by exact hg.nil.1)]
                exact ⟨_, by rw [CLex.getchar_eq, hg.nil.2]; rfl, hg.inp⟩
              | cons b2 r3 =>
                dsimp only at hok ⊢
                by_cases h2s : b2 = ch '*'
                · rw [if_pos h2s] at hok
                  rw [if_pos (by rw [hg.cons.2]; exact h2s), if_pos h2s]
                  obtain ⟨i3, e3, h3⟩ := blockStart_in (t := { (CLex.getchar ⟨i2, x, t.type, t.value, l1, t.interp, t.err⟩) with c := ch ' ' }) hg.inp
                  rw [List.tail_cons] at e3 h3
                  rw [e3]
                  change LayoutIn src t (Option.bind (some _) _) _
                  rw [Option.bind_some]
                  dsimp only
                  change match (eatBlock r3 l1 false).1 with | some r' => _ | none => _ at h3
                  change LayoutIn src t (if CLex.eof ⟨i3, ch ' ', t.type, t.value, (eatBlock r3 l1 false).2.1, t.interp, t.err⟩ = true then
                      some (true, CLex.error ⟨i3, ch ' ', t.type, t.value, (eatBlock r3 l1 false).2.1, t.interp, t.err⟩ .unclosedComment)
                    else if ((eatBlock r3 l1 false).2.2 && t.type.potentialEnd) = true then
                      some (true, ⟨i3, ch ' ', .semi, t.value, (eatBlock r3 l1 false).2.1, t.interp, t.err⟩)
                    else CLex.eatLayout ⟨i3, ch ' ', t.type, t.value, (eatBlock r3 l1 false).2.1, t.interp, t.err⟩) _
                  rcases hk : eatBlock r3 l1 false with ⟨_ | r4, l4, m4⟩
                  · rw [hk] at h3
                    rw [if_pos (by exact h3.2)]
                    exact ⟨i3, rfl, h3.1⟩
                  · rw [hk] at h3 hok
                    dsimp only at hok ⊢
                    rw [if_neg (fun q => by have := h3.2.symm.trans q; cases this)]
                    by_cases hm : (m4 && t.type.potentialEnd) = true
                    · rw [if_pos hm, if_pos hm]
                      exact ⟨i3, rfl, h3.1⟩
                    · rw [if_neg hm] at hok
                      rw [if_neg hm, if_neg hm]
                      obtain ⟨_, k2, _⟩ := hok
                      have := ih (ch ' ' :: r4) ⟨i3, ch ' ', t.type, t.value, l4, t.interp, t.err⟩ (by simp only [List.length_cons] at hl k2 ⊢; omega) ⟨h3.1, rfl, h3.2⟩
                      exact this.move rfl rfl rfl rfl
                · rw [if_neg (by rw [hg.cons.2]; exact h2s), if_neg h2s, if_neg (fun q => by have := hg.cons.1.symm.trans q; cases this)]
                  have hp : i2.pos < src.length := by
                    rcases Nat.lt_or_ge i2.pos src.length with q | q
                    · exact q
                    · have := h2.inp.rest; rw [List.drop_eq_nil_of_le q] at this; cases this
                  obtain ⟨s1, s2, _⟩ := hg.inp.seek (Nat.le_of_lt hp)
                  refine ⟨_, ch '/', rfl, ?_, by rw [hs]; rfl, s2 hp⟩
                  have := h2.inp.rest
                  rw [List.tail_cons] at this
                  rw [this] at s1
                  exact s1
            · rw [if_neg hs] at hok
              rw [if_neg hs, if_neg hs]
              obtain ⟨_, k2, _⟩ := hok
              have := ih (x :: r2) ⟨i2, x, t.type, t.value, l1, t.interp, t.err⟩ (by simp only [List.length_cons] at hl k2 ⊢; omega) (hx ▸ h2)
              exact this.move rfl rfl rfl rfl
      · rw [if_neg (by simpa using hb), if_neg hb]
        exact ⟨t.inp, t.c, rfl, h⟩

/-! ## Operators -/

/-- `if i then seek` for a position in the text. -/
theorem InOk.at_ {src r : List Byte} {i : Input} (h : InOk src i r) {w : Nat} {r' : List Byte} (hw : src.drop w = r') (hl : w ≤ src.length) : InOk src (i.seek w) r' := by
  have := (h.seek hl).1
  rwa [hw] at this

theorem opOne_in {src : List Byte} {t : CLex} {a : Byte} {r : List Byte} (h : InOk src t.inp r) : ∃ i, InOk src i r ∧
    t.opOne a = match tok1 a with
      | some k => (true, { t with inp := i, type := k, value := [] })
      | none => (false, { t with inp := i }) := by
  refine ⟨t.inp, h, ?_⟩
  unfold CLex.opOne
  cases tok1 a <;> rfl

theorem opTwo_in {src : List Byte} {t : CLex} {a b : Byte} {r r1 : List Byte} {w : Nat} (h : InOk src t.inp r) (hw : src.drop w = r1) (hl : w ≤ src.length) :
    match tok2 a b with
    | some k => ∃ i, InOk src i r ∧ t.opTwo a b w = (true, { t with inp := i, type := k, value := [] })
    | none => ∃ i, InOk src i r1 ∧ t.opTwo a b w = match tok1 a with
      | some k => (true, { t with inp := i, type := k, value := [] })
      | none => (false, { t with inp := i }) := by
  unfold CLex.opTwo
  cases tok2 a b with
  | some k => exact ⟨t.inp, h, rfl⟩
  | none => exact opOne_in (t := t.seek w) (h.at_ hw hl)

theorem eatOp_in {src : List Byte} {t : CLex} {a : Byte} {cs : List Byte} (h : InOk src t.inp cs) (hc : t.c = a) :
    match Yasl.eatOp (a :: cs) with
    | some (k, r) => ∃ i, InOk src i r ∧ t.eatOp = (true, { t with inp := i, type := k, value := [] })
    | none => ∃ i, InOk src i cs ∧ t.eatOp = (false, { t with inp := i }) := by
  obtain ⟨g1, g2, g3, g4⟩ := h.getc
  obtain ⟨k1, k2, k3, k4⟩ := g2.getc
  subst hc
  unfold CLex.eatOp
  rcases cs with _ | ⟨b, cs⟩
  · rw [show Yasl.eatOp [t.c] = (tok1 t.c).map fun t => (t, []) from rfl]
    rw [if_pos (by exact g3)]
    obtain ⟨i, h1, h2⟩ := opOne_in (t := { t with inp := t.inp.getc.2 }) (a := t.c) g2
    rw [h2]
    cases tok1 t.c with
    | some k => exact ⟨i, h1, rfl⟩
    | none => exact ⟨i, h1, rfl⟩
  · rw [if_neg (fun q => by have := g3.symm.trans q; cases this)]
    dsimp only
    have e2 : t.inp.getc.1.getD 255 = b := by rw [g1]; rfl
    have p2 : t.inp.getc.2.pos = t.inp.pos + 1 := g4 (by simp)
    have r1 : src.drop t.inp.tell = b :: cs := h.rest
    have l1 : t.inp.tell ≤ src.length := h.le
    rw [e2]
    rcases cs with _ | ⟨c, cs⟩
    · rw [if_pos (by exact k3)]
      have := opTwo_in (t := { t with inp := t.inp.getc.2.getc.2 }) (a := t.c) (b := b) k2 r1 l1
      rw [Yasl.eatOp]
      cases h2 : tok2 t.c b with
      | some k =>
        rw [h2] at this
        exact this
      | none =>
        rw [h2] at this
        obtain ⟨i, q1, q2⟩ := this
        rw [q2]
        dsimp only
        cases tok1 t.c with
        | some k => exact ⟨i, q1, rfl⟩
        | none => exact ⟨i, q1, rfl⟩
    · rw [if_neg (fun q => by have := k3.symm.trans q; cases this)]
      have e3 : t.inp.getc.2.getc.1.getD 255 = c := by rw [k1]; rfl
      rw [e3, Yasl.eatOp]
      cases h3 : tok3 t.c b c with
      | some k => exact ⟨_, k2, rfl⟩
      | none =>
        dsimp only
        have := opTwo_in (t := CLex.seek { t with inp := t.inp.getc.2.getc.2 } t.inp.getc.2.tell) (a := t.c) (b := b)
          (k2.at_ (w := t.inp.getc.2.tell) g2.rest g2.le) r1 l1
        cases h2 : tok2 t.c b with
        | some k =>
          rw [h2] at this
          exact this
        | none =>
          rw [h2] at this
          obtain ⟨i, q1, q2⟩ := this
          rw [q2]
          dsimp only
          cases tok1 t.c with
          | some k => exact ⟨i, q1, rfl⟩
          | none => exact ⟨i, q1, rfl⟩

/-! ## Numbers -/

/-- A position saved before a character was read. -/
structure Saved (src : List Byte) (w : Nat) (i : Input) (cs : List Byte) : Prop where
  rest : src.drop w = cs
  le : w ≤ src.length
  next : cs ≠ [] → i.pos = w + 1

theorem InOk.saved {src r : List Byte} {t : CLex} (h : InOk src t.inp r) : Saved src t.inp.tell t.getchar.inp r :=
  ⟨h.rest, h.le, h.getc.2.2.2⟩

theorem sepLoop_in {src : List Byte} : ∀ (cs : List Byte) (t : CLex) (w : Nat), Cur src t.inp t.c cs → ∃ i c w',
    t.sepLoop w = some (w', { t with inp := i, c := c }) ∧ Cur src i c (skipSep cs) ∧ (Saved src w t.inp cs → Saved src w' i (skipSep cs)) := by
  intro cs
  induction cs with
  | nil =>
    intro t w h
    refine ⟨t.inp, t.c, w, ?_, h, id⟩
    rw [CLex.sepLoop, if_neg (by rw [h.nil.2]; decide)]
  | cons b cs ih =>
    intro t w h
    rw [CLex.sepLoop, h.cons.2]
    by_cases hb : b = ch '_'
    · rw [if_pos hb, show skipSep (b :: cs) = skipSep cs from List.dropWhile_cons_of_pos (by simpa using hb)]
      obtain ⟨i, c, w', e1, e2, e3⟩ := ih t.getchar t.inp.tell h.getchar
      exact ⟨i, c, w', e1, e2, fun _ => e3 h.inp.saved⟩
    · rw [if_neg hb, show skipSep (b :: cs) = b :: cs from List.dropWhile_cons_of_neg (by simpa using hb)]
      exact ⟨t.inp, t.c, w, rfl, h, id⟩

theorem fillTail_skip (ok : Byte → Bool) : ∀ cs : List Byte, fillTail ok cs = fillTail ok (skipSep cs) := by
  intro cs
  induction cs with
  | nil => rfl
  | cons b cs ih =>
    by_cases hb : b = ch '_'
    · rw [show skipSep (b :: cs) = skipSep cs from List.dropWhile_cons_of_pos (by simpa using hb), ← ih, fillTail, if_pos hb]
    · rw [show skipSep (b :: cs) = b :: cs from List.dropWhile_cons_of_neg (by simpa using hb)]

theorem skipSep_head (cs : List Byte) (b : Byte) (r : List Byte) (h : skipSep cs = b :: r) : b ≠ ch '_' := by
  intro hb
  have := List.head?_dropWhile_not (fun x : Byte => x == ch '_') cs
  rw [show cs.dropWhile (fun x : Byte => x == ch '_') = b :: r from h] at this
  simp [hb] at this

theorem skipSep_length (cs : List Byte) : (skipSep cs).length ≤ cs.length := (List.dropWhile_sublist _).length_le

/-- The current character `b`, after it `r`; whether the end is marked is left open. -/
theorem numFill_in' {src : List Byte} {ok : Byte → Bool} : ∀ (n : Nat) (r : List Byte) (t : CLex), r.length < n → InOk src t.inp r → ∃ i c w,
    t.numFill ok = some (w, { t with inp := i, c := c, value := t.value ++ t.c :: (fillTail ok r).1 }) ∧ Cur src i c (fillTail ok r).2 ∧ Saved src w i (fillTail ok r).2 := by
  intro n
  induction n with
  | zero => intro r t hl; omega
  | succ n ih =>
    intro r t hl h
    obtain ⟨i, c, w, e1, e2, e3⟩ := sepLoop_in r (t.append t.c).getchar t.inp.tell (InOk.getchar (t := t.append t.c) h)
    have e3 := e3 (InOk.saved (t := t.append t.c) h)
    rw [CLex.numFill]
    change ∃ i c w, (Option.bind ((t.append t.c).getchar.sepLoop t.inp.tell) _) = _ ∧ _
    rw [e1, Option.bind_some, fillTail_skip]
    dsimp only
    have hl2 := skipSep_length r
    rcases hs : skipSep r with _ | ⟨b, s⟩
    · rw [hs] at e2 e3
      rw [if_neg (by show ¬ (!i.eof && _) = true; rw [e2.nil.1]; simp)]
      exact ⟨i, c, w, rfl, e2, e3⟩
    · rw [hs] at e2 e3 hl2
      have hb := skipSep_head r b s hs
      rw [fillTail, if_neg hb]
      have hc : c = b := e2.cons.2
      by_cases ho : ok b = true
      · rw [if_pos (by show (!i.eof && ok c) = true; rw [e2.cons.1, hc, ho]; rfl), if_pos ho]
        obtain ⟨i', c', w', f1, f2, f3⟩ := ih s { (t.append t.c) with inp := i, c := c } (by simp only [List.length_cons] at hl2; omega) e2.inp
        refine ⟨i', c', w', ?_, f2, f3⟩
        refine Eq.trans f1 ?_
        rw [hc]
        simp [CLex.append]
      · rw [if_neg (by show ¬ (!i.eof && ok c) = true; rw [hc]; simp [ho]), if_neg ho]
        exact ⟨i, c, w, rfl, e2, e3⟩

theorem numFill_in {src cs : List Byte} {ok : Byte → Bool} {t : CLex} (h : Cur src t.inp t.c cs) : ∃ i c w,
    t.numFill ok = some (w, { t with inp := i, c := c, value := t.value ++ (numFill ok cs).1 }) ∧ Cur src i c (numFill ok cs).2 ∧ Saved src w i (numFill ok cs).2 := by
  obtain ⟨i, c, w, e1, e2, e3⟩ := numFill_in' (ok := ok) _ cs.tail t (Nat.lt_succ_self _) h.inp
  cases cs with
  | nil =>
    refine ⟨i, c, w, ?_, e2, e3⟩
    rw [e1, h.nil.2]; rfl
  | cons b cs =>
    refine ⟨i, c, w, ?_, e2, e3⟩
    rw [e1, h.cons.2]; rfl

theorem seekIf_eq (t : CLex) (w : Nat) : (if (!t.eof) = true then t.seek w else t) = { t with inp := if (!t.inp.eof) = true then t.inp.seek w else t.inp } := by
  by_cases h : (!t.eof) = true
  · rw [if_pos h, if_pos (by exact h)]; rfl
  · rw [if_neg h, if_neg (by exact h)]

theorem Cur.finish {src cs : List Byte} {i : Input} {c : Byte} {w : Nat} (h : Cur src i c cs) (hs : Saved src w i cs) :
    InOk src (if (!i.eof) = true then i.seek w else i) cs := by
  cases cs with
  | nil =>
    rw [h.nil.1]
    exact h.inp
  | cons b cs =>
    rw [h.cons.1]
    exact h.inp.at_ hs.rest hs.le

theorem eatInt_in {src r : List Byte} {t : CLex} {sep a : Byte} {ok : Byte → Bool} (h : InOk src t.inp r) (hc : t.c = a) (hv : t.value = [])
    (h255 : ok 255 = false) (hsep : lowerB 255 ≠ sep) :
    match Yasl.eatInt sep ok (a :: r) with
    | none => ∃ i, t.eatInt sep ok = some (false, { t with inp := i }) ∧ InOk src i r
    | some (some v, r') => ∃ i, t.eatInt sep ok = some (true, { t with inp := i, c := r'.head?.getD 255, type := .int, value := v ++ [0] }) ∧ InOk src i r'
    | some (none, r') => ∃ i c, t.eatInt sep ok = some (true, { t with inp := i, c := c, type := .unknown, value := [], err := some .badInt }) ∧ Cur src i c r' := by
  obtain ⟨inp, c, type, value, line, interp, err⟩ := t
  dsimp only at h hc hv
  subst hc hv
  unfold CLex.eatInt
  dsimp only
  have hw : src.drop inp.tell = r := h.rest
  have hl : inp.tell ≤ src.length := h.le
  by_cases h0 : c = ch '0'
  · rw [if_pos h0]
    have hg : Cur src (CLex.getchar ⟨inp, c, type, [], line, interp, err⟩).inp (CLex.getchar ⟨inp, c, type, [], line, interp, err⟩).c r := InOk.getchar h
    cases r with
    | nil =>
      rw [if_neg (by show ¬ lowerB (CLex.getchar _).c = sep; rw [hg.nil.2]; exact hsep)]
      exact ⟨_, rfl, hg.inp.at_ hw hl⟩
    | cons b cs =>
      rw [Yasl.eatInt]
      by_cases hb : lowerB b = sep
      · rw [if_pos ⟨h0, hb⟩, if_pos (by show lowerB (CLex.getchar _).c = sep; rw [hg.cons.2]; exact hb)]
        obtain ⟨i, c', w, e1, e2, _⟩ := sepLoop_in cs (((CLex.getchar ⟨inp, c, type, [], line, interp, err⟩).append (ch '0')).getchar.append sep) 0 (hg.getchar)
        rw [e1]
        simp only [Option.bind_eq_bind, Option.bind_some]
        rcases hk : skipSep cs with _ | ⟨d, ds⟩
        · rw [hk] at e2
          rw [if_pos (by rw [e2.nil.2, h255]; rfl)]
          exact ⟨i, c', rfl, e2⟩
        · rw [hk] at e2
          dsimp only
          by_cases ho : ok d = true
          · rw [if_pos ho, if_neg (by rw [e2.cons.2, ho]; simp)]
            obtain ⟨i2, c2, w2, f1, f2, f3⟩ := numFill_in (ok := ok) (t := { (((CLex.getchar ⟨inp, c, type, [], line, interp, err⟩).append (ch '0')).getchar.append sep) with inp := i, c := c' }) e2
            have f1' := f1
            change CLex.numFill ok ⟨i, c', type, _, line, interp, err⟩ = _ at f1'
            change ∃ j, Option.bind (CLex.numFill ok ⟨i, c', type, _, line, interp, err⟩) _ = _ ∧ _
            rw [f1', Option.bind_some, seekIf_eq]
            refine ⟨_, ?_, f2.finish f3⟩
            rw [← f2.c]
            rfl
          · rw [if_neg ho, if_pos (by rw [e2.cons.2]; simpa using ho)]
            exact ⟨i, c', rfl, e2⟩
      · rw [if_neg (fun q => hb q.2), if_neg (by show ¬ lowerB (CLex.getchar _).c = sep; rw [hg.cons.2]; exact hb)]
        exact ⟨_, rfl, hg.inp.at_ hw hl⟩
  · rw [if_neg h0]
    cases r with
    | nil => exact ⟨_, rfl, h.at_ hw hl⟩
    | cons b cs =>
      rw [Yasl.eatInt, if_neg (fun q => h0 q.1)]
      exact ⟨_, rfl, h.at_ hw hl⟩

theorem backIf_eq (t : CLex) : (if (!t.eof) = true then ({ t with inp := t.inp.back } : CLex) else t) = { t with inp := if (!t.inp.eof) = true then t.inp.back else t.inp } := by
  by_cases h : (!t.eof) = true
  · rw [if_pos h, if_pos (by exact h)]
  · rw [if_neg h, if_neg (by exact h)]

theorem Cur.finishBack {src cs : List Byte} {i : Input} {c : Byte} {w : Nat} (h : Cur src i c cs) (hs : Saved src w i cs) :
    InOk src (if (!i.eof) = true then i.back else i) cs := by
  cases cs with
  | nil =>
    rw [h.nil.1]
    exact h.inp
  | cons b cs =>
    rw [h.cons.1]
    have : i.back = i.seek w := by rw [Input.back, hs.next (by simp)]; rfl
    show InOk src i.back _
    rw [this]
    exact h.inp.at_ hs.rest hs.le

theorem eatFloat_in {src cs ds : List Byte} {t : CLex} {w : Nat} (h : Cur src t.inp t.c cs) (hs : Saved src w t.inp cs) (hv : t.value = ds ++ [0]) (ht : t.type = .int) :
    match Yasl.eatFloat ds cs with
    | none => t.eatFloat = some (false, t)
    | some (k, v, c, r) => ∃ i, t.eatFloat = some (true, { t with inp := i, c := c.getD 255, type := k, value := v ++ [0] }) ∧ InOk src i r := by
  obtain ⟨inp, c, type, value, line, interp, err⟩ := t
  dsimp only at h hs hv ht
  subst hv ht
  unfold CLex.eatFloat
  dsimp only
  cases cs with
  | nil =>
    rw [if_neg (by rw [h.nil.2]; decide)]
    rfl
  | cons b cs =>
    have hc := h.cons.2
    subst hc
    rw [Yasl.eatFloat.eq_def]
    dsimp only
    by_cases hb : c = ch '.'
    · rw [if_pos hb, if_pos hb]
      have hg : Cur src (CLex.getchar ⟨inp, c, .int, ds ++ [0], line, interp, err⟩).inp (CLex.getchar ⟨inp, c, .int, ds ++ [0], line, interp, err⟩).c cs := InOk.getchar (r := cs) h.inp
      have hp : inp.tell - 1 = w := by have := hs.next (by simp); simp [Input.tell, this]
      rw [hp]
      cases cs with
      | nil =>
        rw [if_pos (by exact hg.nil.1)]
        have := hg.inp.at_ hs.rest hs.le
        rw [hb] at this
        exact ⟨_, rfl, this⟩
      | cons d cs =>
        rw [if_neg (fun q => by have := hg.cons.1.symm.trans q; cases this)]
        dsimp only
        by_cases hd : isDigit d = true
        · have hnd : ¬ (!isDigit (CLex.getchar ⟨inp, c, .int, ds ++ [0], line, interp, err⟩).c) = true := by rw [hg.cons.2, hd]; simp
          rw [if_pos hd]
          simp only [if_neg hnd]
          generalize hT : CLex.append { (CLex.getchar ⟨inp, c, .int, ds ++ [0], line, interp, err⟩) with
            value := (CLex.getchar ⟨inp, c, .int, ds ++ [0], line, interp, err⟩).value.dropLast } (ch '.') = T
          have hT' : T = ⟨T.inp, T.c, .int, ds ++ [ch '.'], line, interp, err⟩ := by
            rw [← hT]
            show (_ : CLex) = _
            simp [CLex.append, CLex.getchar]
          have hgT : Cur src T.inp T.c (d :: cs) := by rw [← hT]; exact hg
          obtain ⟨i, c', w', e1, e2, e3⟩ := numFill_in (ok := isDigit) hgT
          rw [e1]
          simp only [Option.bind_eq_bind, Option.bind_some]
          rw [hT']
          dsimp only
          rcases hf : (numFill isDigit (d :: cs)).2 with _ | ⟨e, r⟩
          · rw [hf] at e2 e3
            rw [if_neg (by rw [e2.nil.2]; decide)]
            change ∃ j, some (true, _) = _ ∧ _
            rw [backIf_eq]
            refine ⟨_, ?_, e2.finishBack e3⟩
            rw [e2.nil.2]
            simp [CLex.append]
          · rw [hf] at e2 e3
            have hc' : c' = e := e2.cons.2
            subst hc'
            by_cases he : lowerB c' = ch 'e'
            · simp only [if_pos he]
              obtain ⟨i2, c2, w2, f1, f2, _⟩ := sepLoop_in r (CLex.append (CLex.getchar ⟨i, c', .int, ds ++ [ch '.'] ++ (numFill isDigit (d :: cs)).1, line, interp, err⟩) (ch 'e')) 0
                (InOk.getchar (r := r) e2.inp)
              rw [f1]
              simp only [Option.bind_some]
              obtain ⟨i3, c3, w3, k1, k2, k3⟩ := numFill_in (ok := isDigit) (t := { (CLex.append (CLex.getchar ⟨i, c', .int, ds ++ [ch '.'] ++ (numFill isDigit (d :: cs)).1, line, interp, err⟩) (ch 'e')) with inp := i2, c := c2 }) f2
              rw [k1]
              change ∃ j, some (true, _) = _ ∧ _
              rw [backIf_eq]
              refine ⟨_, ?_, k2.finishBack k3⟩
              rw [← k2.c]
              simp [CLex.append, CLex.getchar]
            · simp only [if_neg he]
              change ∃ j, some (true, _) = _ ∧ _
              rw [backIf_eq]
              refine ⟨_, ?_, e2.finishBack e3⟩
              simp [CLex.append]
        · rw [if_neg hd]
          dsimp only
          rw [if_pos (by rw [hg.cons.2]; simpa using hd)]
          have := hg.inp.at_ hs.rest hs.le
          rw [hb] at this
          refine ⟨_, ?_, this⟩
          rw [CLex.getchar_eq, hg.cons.2]; rfl
    · rw [if_neg hb, if_neg hb]
      rfl

end Yasl
