import Verif.Proofs.LexBlank
import Verif.Spec.Reads
set_option autoImplicit false
/-! # Proofs about the lexer: what the next token depends on -/
namespace Yasl

/-- The results `a` of `l` and `b` of `m` are the same, but for the line, the message and what was there before. -/
structure ScanRel (l m a b : Lex) : Prop where
  rest : a.rest = b.rest
  c : a.c = b.c
  type : a.type = b.type
  value : a.value = b.value
  interp : a.interp = b.interp ∨ (a.interp = l.interp ∧ b.interp = m.interp)
  err : a.type ≠ .unknown → a.err = l.err

theorem ScanRel.error {l m : Lex} (e : LexErr) (cs : List Byte) : ScanRel l m (l.error e cs) (m.error e cs) :=
  ⟨rfl, rfl, rfl, rfl, .inr ⟨rfl, rfl⟩, fun h => absurd rfl h⟩

theorem ScanRel.set {l m : Lex} (t : Tok) (v cs : List Byte) (c : Option Byte) :
    ScanRel l m { l with type := t, value := v, c := c, rest := cs } { m with type := t, value := v, c := c, rest := cs } :=
  ⟨rfl, rfl, rfl, rfl, .inr ⟨rfl, rfl⟩, fun _ => rfl⟩

/-- Both or none. -/
def ScanOpt (l m : Lex) : Option Lex → Option Lex → Prop
  | none, none => True
  | some a, some b => ScanRel l m a b
  | _, _ => False

theorem eatNumber_scan (l m : Lex) (cs : List Byte) : ScanOpt l m (eatNumber l cs) (eatNumber m cs) := by
  cases cs with
  | nil => exact trivial
  | cons b cs =>
    unfold eatNumber
    dsimp only
    split
    · split
      · exact .set ..
      · exact .error ..
      · split
        · exact .set ..
        · exact .error ..
        · split
          · exact .set ..
          · exact .set ..
    · exact trivial

theorem lexKeyword_scan (l m : Lex) (w cs : List Byte) : ScanRel l m (lexKeyword l w cs) (lexKeyword m w cs) := by
  unfold lexKeyword
  split
  · exact .error ..
  · split
    · exact .set ..
    · split
      · exact .set ..
      · exact .set ..

theorem eatId_scan (l m : Lex) (cs : List Byte) (h : l.type = m.type) : ScanOpt l m (eatId l cs) (eatId m cs) := by
  cases cs with
  | nil => exact trivial
  | cons b cs =>
    unfold eatId
    rw [h]
    dsimp only
    split
    · split
      · exact .set ..
      · have := lexKeyword_scan l m (b :: cs.takeWhile isIdChar) (cs.dropWhile isIdChar)
        exact ⟨rfl, rfl, this.type, this.value, this.interp, this.err⟩
    · exact trivial

theorem eatString_scan (l m : Lex) (cs : List Byte) : ScanRel l m (eatString l cs) (eatString m cs) := by
  unfold eatString
  split
  · exact .error ..
  · exact .set ..

theorem eatRaw_scan (l m : Lex) (cs : List Byte) : ScanRel l m (eatRaw l cs) (eatRaw m cs) := by
  unfold eatRaw
  dsimp only
  split
  · exact ⟨rfl, rfl, rfl, rfl, .inr ⟨rfl, rfl⟩, fun h => absurd rfl h⟩
  · exact ⟨rfl, rfl, rfl, rfl, .inr ⟨rfl, rfl⟩, fun _ => rfl⟩

theorem eatInterp_scan (l m : Lex) (cs : List Byte) : ScanRel l m (eatInterpBody l cs) (eatInterpBody m cs) := by
  unfold eatInterpBody
  split
  · exact ⟨rfl, rfl, rfl, rfl, .inl rfl, fun h => absurd rfl h⟩
  · exact .error ..
  · exact ⟨rfl, rfl, rfl, rfl, .inl rfl, fun _ => rfl⟩

theorem lexTok_scan (l m : Lex) (cs : List Byte) (h : l.type = m.type) : ScanRel l m (lexTok l cs) (lexTok m cs) := by
  cases cs with
  | nil => exact .set ..
  | cons b cs =>
    unfold lexTok
    dsimp only
    have h1 := eatNumber_scan l m (b :: cs)
    rcases e1 : eatNumber l (b :: cs) with _ | a <;> rcases e2 : eatNumber m (b :: cs) with _ | a' <;> rw [e1, e2] at h1
    · dsimp only
      have h2 := eatId_scan l m (b :: cs) h
      rcases e3 : eatId l (b :: cs) with _ | a <;> rcases e4 : eatId m (b :: cs) with _ | a' <;> rw [e3, e4] at h2
      · dsimp only
        split
        · exact eatString_scan ..
        · split
          · exact eatRaw_scan ..
          · split
            · exact eatInterp_scan ..
            · split
              · exact .set ..
              · exact .error ..
      · exact h2.elim
      · exact h2.elim
      · exact h2
    · exact h1.elim
    · exact h1.elim
    · exact h1

/-- The same layout, but for the line. -/
def LayoutRel : Layout → Layout → Prop
  | .semi c r _, .semi c' r' _ => c = c' ∧ r = r'
  | .slash _, .slash _ => True
  | .error _, .error _ => True
  | .none cs _, .none cs' _ => cs = cs'
  | _, _ => False

theorem eatWs_line (pe : Bool) : ∀ (cs : List Byte) (n m : Nat), (eatWs pe cs n).1 = (eatWs pe cs m).1 ∧ (eatWs pe cs n).2.1 = (eatWs pe cs m).2.1 := by
  intro cs
  induction cs with
  | nil => intro n m; exact ⟨rfl, rfl⟩
  | cons b cs ih =>
    intro n m
    simp only [eatWs]
    split
    · split
      · split
        · exact ⟨rfl, rfl⟩
        · exact ih _ _
      · exact ih _ _
    · exact ⟨rfl, rfl⟩

theorem eatBlock_line : ∀ (k : Nat) (cs : List Byte), cs.length ≤ k → ∀ (n m : Nat) (semi : Bool),
    (eatBlock cs n semi).1 = (eatBlock cs m semi).1 ∧ (eatBlock cs n semi).2.2 = (eatBlock cs m semi).2.2 := by
  intro k
  induction k with
  | zero =>
    intro cs h n m semi
    have : cs = [] := by cases cs with | nil => rfl | cons _ _ => simp at h
    subst this; exact ⟨rfl, rfl⟩
  | succ k ih =>
    intro cs h n m semi
    match cs with
    | [] => exact ⟨rfl, rfl⟩
    | [a] => exact ⟨rfl, rfl⟩
    | a :: b :: cs =>
      simp only [eatBlock]
      split
      · exact ⟨rfl, rfl⟩
      · exact ih _ (by simp only [List.length_cons] at h ⊢; omega) _ _ _

/-- The same round of layout, but for the line. -/
def RoundRel : Layout ⊕ (List Byte × Nat) → Layout ⊕ (List Byte × Nat) → Prop
  | .inl a, .inl b => LayoutRel a b
  | .inr a, .inr b => a.1 = b.1
  | _, _ => False

theorem layoutRound_line (pe : Bool) (cs : List Byte) (n m : Nat) : RoundRel (layoutRound pe cs n) (layoutRound pe cs m) := by
  have h := eatWs_line pe cs n m
  unfold layoutRound
  rcases e1 : eatWs pe cs n with ⟨x, y, z⟩
  rcases e2 : eatWs pe cs m with ⟨x', y', z'⟩
  rw [e1, e2] at h
  obtain ⟨h1, h2⟩ := h
  dsimp only at h1 h2
  subst h1 h2
  cases x with
  | true => exact ⟨rfl, rfl⟩
  | false =>
    dsimp only
    rcases eatInline y with _ | ⟨b, r⟩
    · rfl
    · dsimp only
      split
      · cases r with
        | nil => trivial
        | cons b2 r =>
          dsimp only
          split
          · have h := eatBlock_line r.length r le_rfl z z' false
            rcases e3 : eatBlock r z false with ⟨u, v, w⟩
            rcases e4 : eatBlock r z' false with ⟨u', v', w'⟩
            rw [e3, e4] at h
            obtain ⟨h1, h2⟩ := h
            dsimp only at h1 h2
            subst h1 h2
            cases u with
            | none => trivial
            | some r =>
              dsimp only
              split
              · exact ⟨rfl, rfl⟩
              · rfl
          · rfl
      · rfl

theorem eatLayout_line (pe : Bool) : ∀ (f : Nat) (cs : List Byte) (n m : Nat), LayoutRel (eatLayout pe f cs n) (eatLayout pe f cs m) := by
  intro f
  induction f with
  | zero => intro cs n m; exact rfl
  | succ f ih =>
    intro cs n m
    cases cs with
    | nil => exact rfl
    | cons b cs =>
      simp only [eatLayout]
      split
      · have h := layoutRound_line pe (b :: cs) n m
        rcases e1 : layoutRound pe (b :: cs) n with a | ⟨r, z⟩ <;> rcases e2 : layoutRound pe (b :: cs) m with a' | ⟨r', z'⟩ <;> rw [e1, e2] at h
        · exact h
        · exact h.elim
        · exact h.elim
        · have h : r = r' := h
          subst h
          exact ih _ _ _
      · exact rfl

/-- The next token depends on the unread input and the type of the current token only. -/
theorem gettok_scan (l m : Lex) (hr : l.rest = m.rest) (ht : l.type = m.type) : ScanRel l m (gettok l) (gettok m) := by
  rw [gettok.eq_def l, gettok.eq_def m]
  have h := eatLayout_line m.type.potentialEnd (m.rest.length + 1) m.rest l.line m.line
  rw [show eatLayout l.type.potentialEnd (l.rest.length + 1) l.rest l.line = eatLayout m.type.potentialEnd (m.rest.length + 1) m.rest l.line by rw [hr, ht]]
  rcases e1 : eatLayout m.type.potentialEnd (m.rest.length + 1) m.rest l.line with ⟨c, r, n⟩ | n | n | ⟨cs, n⟩ <;>
    rcases e2 : eatLayout m.type.potentialEnd (m.rest.length + 1) m.rest m.line with ⟨c', r', n'⟩ | n' | n' | ⟨cs', n'⟩ <;>
    rw [e1, e2] at h <;> try exact h.elim
  · obtain ⟨rfl, rfl⟩ := h
    exact ⟨rfl, rfl, rfl, rfl, .inr ⟨rfl, rfl⟩, fun _ => rfl⟩
  · exact ⟨rfl, rfl, rfl, rfl, .inr ⟨rfl, rfl⟩, fun _ => rfl⟩
  · exact ⟨rfl, rfl, rfl, rfl, .inr ⟨rfl, rfl⟩, fun h => absurd rfl h⟩
  · have h : cs = cs' := h
    subst h
    have := lexTok_scan { l with line := n } { m with line := n' } cs ht
    exact ⟨this.rest, this.c, this.type, this.value, this.interp, this.err⟩

theorem SameScan.refl (l : Lex) : SameScan l l := ⟨rfl, rfl, rfl, rfl, rfl⟩
theorem SameScan.symm {l m : Lex} (h : SameScan l m) : SameScan m l := ⟨h.1.symm, h.2.1.symm, h.2.2.1.symm, h.2.2.2.1.symm, h.2.2.2.2.symm⟩
theorem SameScan.trans {l m n : Lex} (h : SameScan l m) (k : SameScan m n) : SameScan l n :=
  ⟨h.1.trans k.1, h.2.1.trans k.2.1, h.2.2.1.trans k.2.2.1, h.2.2.2.1.trans k.2.2.2.1, h.2.2.2.2.trans k.2.2.2.2⟩

theorem SameScan.gettok {l m : Lex} (h : SameScan l m) : SameScan (gettok l) (gettok m) := by
  have s := gettok_scan l m h.1 h.2.2.1
  refine ⟨s.rest, s.c, s.type, s.value, ?_⟩
  rcases s.interp with h1 | ⟨h1, h2⟩
  · exact h1
  · rw [h1, h2]; exact h.2.2.2.2

/-- Types of tokens at which the parser looks one token ahead. -/
def Tok.peeks (t : Tok) : Bool := t == .fn || t == .const || t == .id

/-- Two states with the same current token, after which all is the same; the parser may have looked ahead in one of them. -/
structure LexSim (l m : Lex) : Prop where
  rest : l.rest = m.rest
  type : l.type = m.type
  value : l.value = m.value
  next : SameScan (gettok l) (gettok m)
  same : l.type.peeks = false → l.c = m.c ∧ l.interp = m.interp

theorem SameScan.sim {l m : Lex} (h : SameScan l m) : LexSim l m := ⟨h.1, h.2.2.1, h.2.2.2.1, h.gettok, fun _ => ⟨h.2.1, h.2.2.2.2⟩⟩
theorem LexSim.refl (l : Lex) : LexSim l l := (SameScan.refl l).sim
theorem LexSim.symm {l m : Lex} (h : LexSim l m) : LexSim m l :=
  ⟨h.rest.symm, h.type.symm, h.value.symm, h.next.symm, fun hp => by have := h.same (h.type ▸ hp); exact ⟨this.1.symm, this.2.symm⟩⟩
theorem LexSim.trans {l m n : Lex} (h : LexSim l m) (k : LexSim m n) : LexSim l n :=
  ⟨h.rest.trans k.rest, h.type.trans k.type, h.value.trans k.value, h.next.trans k.next, fun hp => by
    have h1 := h.same hp; have h2 := k.same (h.type ▸ hp); exact ⟨h1.1.trans h2.1, h1.2.trans h2.2⟩⟩

/-- Where the parser does not look ahead it is the same state. -/
theorem LexSim.scan {l m : Lex} (h : LexSim l m) (hp : l.type.peeks = false) : SameScan l m := ⟨h.rest, (h.same hp).1, h.type, h.value, (h.same hp).2⟩

theorem LexSim.item {l m : Lex} (h : LexSim l m) : l.item = m.item := by
  have ht := h.type; have hv := h.value; have hs := h.same
  unfold Lex.item
  rw [← ht, ← hv]
  cases hl : l.type <;> simp only [hl, Tok.peeks] at hs ⊢ <;>
    (have hs' := hs (by decide); simp only [hs'.1, hs'.2])

/-- Looking ahead. -/
theorem peek_sim (l : Lex) (hp : l.type.peeks = true) : LexSim { gettok l with rest := l.rest, type := l.type, value := l.value } l := by
  have s := gettok_scan { gettok l with rest := l.rest, type := l.type, value := l.value } l rfl rfl
  refine ⟨rfl, rfl, rfl, ⟨s.rest, s.c, s.type, s.value, ?_⟩, fun h => ?_⟩
  · rcases s.interp with h1 | ⟨h1, h2⟩
    · exact h1
    · exact h1
  · rw [hp] at h; simp at h

theorem Reads.same {a b l' : Lex} {js : List TextItem} (hr : Reads a js l') (hab : SameScan a b) : Reads b js l' := by
  induction hr generalizing b with
  | done h => exact .done (hab.symm.trans h)
  | tok ht _ ih => rw [hab.sim.item]; exact .tok (hab.2.2.1 ▸ ht) (ih hab.gettok)
  | enter _ ih => exact .enter (ih ⟨hab.1, hab.2.1, hab.2.2.1, hab.2.2.2.1, rfl⟩)
  | @resume a l' js hc hu _ ih =>
    rw [hab.2.2.1]
    refine .resume (hab.2.1 ▸ hc) (hab.2.2.1 ▸ hu) (ih ?_)
    rw [← congrArg (eatInterpBody { b with interp := true }) hab.1]
    have s := eatInterp_scan { a with interp := true } { b with interp := true } a.rest
    refine ⟨s.rest, s.c, s.type, s.value, ?_⟩
    rcases s.interp with h1 | ⟨h1, h2⟩
    · exact h1
    · exact h1.trans h2.symm

/-- A token, not a place inside of a string. -/
def TextItem.isTok : TextItem → Bool
  | .enter | .resume _ => false
  | _ => true

theorem Lex.item_isTok (l : Lex) : l.item.isTok = true := by unfold Lex.item; split <;> rfl

theorem Reads.sim {l m l' : Lex} {i : TextItem} {is : List TextItem} (h : Reads l (i :: is) l') (hs : LexSim l m) (hi : i.isTok = true) : Reads m (i :: is) l' := by
  cases h with
  | tok ht h1 => rw [hs.item]; exact .tok (hs.type ▸ ht) (h1.same hs.next)
  | enter h1 => simp [TextItem.isTok] at hi
  | resume h1 _ h2 => simp [TextItem.isTok] at hi

theorem Reads.refl (l : Lex) : Reads l [] l := .done (.refl l)

theorem Reads.append {l m n : Lex} {is js : List TextItem} (h : Reads l is m) (k : Reads m js n) : Reads l (is ++ js) n := by
  induction h with
  | done h => exact k.same h.symm
  | tok ht _ ih => exact .tok ht (ih k)
  | enter _ ih => exact .enter (ih k)
  | resume hc hu _ ih => exact .resume hc hu (ih k)

theorem Reads.split {l n : Lex} {is js : List TextItem} (h : Reads l (is ++ js) n) : ∃ m, Reads l is m ∧ Reads m js n := by
  induction is generalizing l with
  | nil => exact ⟨l, .refl l, h⟩
  | cons i is ih =>
    cases h with
    | tok ht h1 => obtain ⟨m, a, b⟩ := ih h1; exact ⟨m, .tok ht a, b⟩
    | enter h1 => obtain ⟨m, a, b⟩ := ih h1; exact ⟨m, .enter a, b⟩
    | resume hc hu h1 => obtain ⟨m, a, b⟩ := ih h1; exact ⟨m, .resume hc hu a, b⟩

theorem Reads.final {l m n : Lex} {is : List TextItem} (h : Reads l is m) (k : SameScan m n) : Reads l is n := by
  have := h.append (.done k); rwa [List.append_nil] at this

/-- The type of the token an item stands for. -/
def TextItem.type : TextItem → Tok
  | .word t _ => t
  | .str _ _ => .str
  | .sep t _ => t
  | .op t => t
  | .enter => .unknown
  | .resume _ => .unknown

theorem Lex.item_type (l : Lex) : l.item.type = l.type := by
  unfold Lex.item
  split <;> simp_all [TextItem.type]

/-- The first of the items that are read is the current token. -/
theorem Reads.cons_inv {l l' : Lex} {i : TextItem} {is : List TextItem} (h : Reads l (i :: is) l') (hi : i.isTok = true) :
    l.item = i ∧ l.type = i.type ∧ l.type ≠ .unknown ∧ Reads (gettok l) is l' := by
  cases h with
  | tok ht h1 => exact ⟨rfl, l.item_type.symm, ht, h1⟩
  | enter h1 => simp [TextItem.isTok] at hi
  | resume h1 _ h2 => simp [TextItem.isTok] at hi

end Yasl
