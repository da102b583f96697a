import Verif.Proofs.LexFacts
import Verif.Model.Parser
set_option autoImplicit false
/-! # Proofs about the parser: reasoning about one call after another -/
namespace Yasl

theorem P.bind_eq {α β : Type} (m : P α) (f : α → P β) : (m >>= f) = P.bind m f := rfl
theorem P.pure_eq {α : Type} (a : α) (s : PSt) : (pure a : P α) s = some (.ok a s) := rfl

/-- From `s` on the call returns, and then `Q` holds; or it stops; it hangs only if `H .hang`, and is undefined only if `H .ub`. -/
def Ends (H : Stop → Prop) {α : Type} (m : P α) (s : PSt) (Q : α → PSt → Prop) : Prop :=
  match m s with
  | none => False
  | some (.stop .error) => True
  | some (.stop w) => H w
  | some (.ok a s') => Q a s'

section
variable {H : Stop → Prop} {α β : Type} {s : PSt}

theorem Ends.pure {a : α} {Q : α → PSt → Prop} (h : Q a s) : Ends H (pure a : P α) s Q := h

theorem Ends.bind {m : P α} {f : α → P β} {Q : β → PSt → Prop} (h : Ends H m s (fun a s' => Ends H (f a) s' Q)) : Ends H (m >>= f) s Q := by
  unfold Ends at h
  unfold Ends
  rw [P.bind_eq]
  unfold P.bind
  rcases e : m s with _ | r
  · rw [e] at h; exact h
  · rw [e] at h
    cases r with
    | ok a s' => exact h
    | stop w => cases w <;> exact h

theorem Ends.mono {m : P α} {Q R : α → PSt → Prop} (h : Ends H m s Q) (hi : ∀ a s', Q a s' → R a s') : Ends H m s R := by
  unfold Ends at h ⊢
  rcases e : m s with _ | r
  · rw [e] at h; exact h
  · rw [e] at h
    cases r with
    | ok a s' => exact hi _ _ h
    | stop w => cases w <;> exact h

theorem Ends.error {Q : α → PSt → Prop} : Ends H (handleError : P α) s Q := trivial
theorem Ends.ub {Q : α → PSt → Prop} (h : H .ub) : Ends H (parseUb : P α) s Q := h

theorem Ends.curtok {f : Tok → P β} {Q : β → PSt → Prop} (h : Ends H (f s.lex.type) s Q) : Ends H (curtok >>= f) s Q := h
theorem Ends.getLex {f : Lex → P β} {Q : β → PSt → Prop} (h : Ends H (f s.lex) s Q) : Ends H (getLex >>= f) s Q := h
theorem Ends.setLex {l : Lex} {f : Unit → P β} {Q : β → PSt → Prop} (h : Ends H (f ()) { s with lex := l } Q) : Ends H (setLex l >>= f) s Q := h
theorem Ends.getStatus {f : Bool → P β} {Q : β → PSt → Prop} (h : Ends H (f s.status) s Q) : Ends H (getStatus >>= f) s Q := h
theorem Ends.setStatus {b : Bool} {f : Unit → P β} {Q : β → PSt → Prop} (h : Ends H (f ()) { s with status := b } Q) : Ends H (setStatus b >>= f) s Q := h
theorem Ends.nextTok {f : Unit → P β} {Q : β → PSt → Prop} (h : Ends H (f ()) { s with lex := gettok s.lex } Q) : Ends H (nextTok >>= f) s Q := h
end

/-- The measure of the lexer's state. -/
def Lex.mu (l : Lex) : Nat := l.rest.length + (if l.type = .eof then 0 else 1)

/-- What holds of the lexer in the source text `src`. -/
structure LexInv (src : List Byte) (l : Lex) : Prop where
  rest : l.rest <:+ src
  interp : l.interp = true → ch '#' ∈ src
  kwMatch : l.type = .match_ → word "match" <:+: src
  unknown : l.type = .unknown → l.err.isSome
  eof : l.type = .eof → l.c = none ∧ l.rest = []
  dot : l.type = .dot → ch '.' ∈ src

theorem LexInv.gettok {src : List Byte} {l : Lex} (h : LexInv src l) : LexInv src (gettok l) := by
  have g := gettok_ok l
  have f := gettok_facts l
  refine ⟨g.1.trans h.rest, fun hi => ?_, fun hm => (f.kwMatch hm).trans h.rest.isInfix, f.unknown, fun he => ⟨f.eof he, ?_⟩, fun hd => h.rest.subset (f.dot hd)⟩
  · rcases f.interp hi with h1 | h1
    · exact h.interp h1
    · exact h.rest.subset h1
  · rcases g.2.1 with h1 | h1
    · exact h1.2
    · exact absurd he h1.1

theorem gettok_rest (l : Lex) : (gettok l).rest.length ≤ l.rest.length := (gettok_ok l).1.length_le

theorem gettok_mu_lt {l : Lex} (h : l.type ≠ .eof) : (gettok l).mu < l.mu := by
  have g := gettok_ok l
  have := gettok_rest l
  unfold Lex.mu
  rw [if_neg h]
  rcases g.2.1 with h1 | h1
  · rw [if_pos h1.1]; omega
  · rw [if_neg h1.1]; omega

/-- `s` is reached from `s0`: with the items `C` read, if there was no error; strictly later, if `b`. -/
structure AtPos (src : List Byte) (s0 : PSt) (b : Bool) (C : List TextItem → Prop) (s : PSt) : Prop where
  inv : LexInv src s.lex
  rest : s.lex.rest.length ≤ s0.lex.rest.length
  mu : s.lex.mu ≤ s0.lex.mu
  lt : b = true → s.lex.mu < s0.lex.mu
  ok : s.status = false → s0.status = false ∧ ∃ ts, Reads s0.lex ts s.lex ∧ C ts

/-- One phrase after another. -/
def Then (C D : List TextItem → Prop) (ts : List TextItem) : Prop := ∃ t1 t2, ts = t1 ++ t2 ∧ C t1 ∧ D t2

/-- Nothing. -/
def Nothing (ts : List TextItem) : Prop := ts = []

theorem AtPos.start {src : List Byte} {s : PSt} (h : LexInv src s.lex) : AtPos src s false Nothing s :=
  ⟨h, le_rfl, le_rfl, by simp, fun hs => ⟨hs, [], .refl _, rfl⟩⟩

theorem AtPos.trans {src : List Byte} {s0 s1 s2 : PSt} {b1 b2 : Bool} {C D : List TextItem → Prop} (h : AtPos src s0 b1 C s1) (k : AtPos src s1 b2 D s2) :
    AtPos src s0 (b1 || b2) (Then C D) s2 := by
  refine ⟨k.inv, k.rest.trans h.rest, k.mu.trans h.mu, fun hb => ?_, fun hs => ?_⟩
  · rcases Bool.or_eq_true _ _ ▸ hb with hb | hb
    · exact lt_of_le_of_lt k.mu (h.lt hb)
    · exact lt_of_lt_of_le (k.lt hb) h.mu
  · obtain ⟨hs1, t2, r2, c2⟩ := k.ok hs
    obtain ⟨hs0, t1, r1, c1⟩ := h.ok hs1
    exact ⟨hs0, t1 ++ t2, r1.append r2, t1, t2, rfl, c1, c2⟩

theorem AtPos.imp {src : List Byte} {s0 s : PSt} {b b' : Bool} {C D : List TextItem → Prop} (h : AtPos src s0 b C s) (hb : b' = true → b = true) (hc : ∀ ts, C ts → D ts) :
    AtPos src s0 b' D s :=
  ⟨h.inv, h.rest, h.mu, fun h1 => h.lt (hb h1), fun hs => by obtain ⟨h1, ts, h2, h3⟩ := h.ok hs; exact ⟨h1, ts, h2, hc ts h3⟩⟩

theorem AtPos.impR {src : List Byte} {s0 s : PSt} {b b' : Bool} {C D : List TextItem → Prop} (h : AtPos src s0 b C s) (hb : b' = true → b = true)
    (hc : ∀ ts, Reads s0.lex ts s.lex → C ts → D ts) : AtPos src s0 b' D s :=
  ⟨h.inv, h.rest, h.mu, fun h1 => h.lt (hb h1), fun hs => by obtain ⟨h1, ts, h2, h3⟩ := h.ok hs; exact ⟨h1, ts, h2, hc ts h2 h3⟩⟩

/-- A specification: from states of a measure of at most `n`, in which `pre` holds, `m` ends as `AtPos` says. -/
def Meets (src : List Byte) (H : Stop → Prop) (n : Nat) {α : Type} (m : P α) (pre : PSt → Prop) (b : Bool) (C : PSt → α → List TextItem → Prop) : Prop :=
  ∀ s, LexInv src s.lex → s.lex.mu ≤ n → pre s → Ends H m s (fun a s' => AtPos src s b (C s a) s')

section
variable {src : List Byte} {H : Stop → Prop} {α β : Type} {s0 s : PSt} {b : Bool} {C : List TextItem → Prop} {n : Nat}

theorem AtPos.call {m : P α} {pre : PSt → Prop} {b1 : Bool} {D : PSt → α → List TextItem → Prop} {f : α → P β} {Q : β → PSt → Prop} (hA : AtPos src s0 b C s)
    (hm : Meets src H n m pre b1 D) (hn : s.lex.mu ≤ n) (hp : pre s) (hf : ∀ a s', AtPos src s0 (b || b1) (Then C (D s a)) s' → Ends H (f a) s' Q) :
    Ends H (m >>= f) s Q :=
  Ends.bind ((hm s hA.inv hn hp).mono fun a s' h => hf a s' (hA.trans h))

theorem AtPos.last {m : P α} {pre : PSt → Prop} {b1 : Bool} {D : PSt → α → List TextItem → Prop} {Q : α → PSt → Prop} (hA : AtPos src s0 b C s)
    (hm : Meets src H n m pre b1 D) (hn : s.lex.mu ≤ n) (hp : pre s) (hf : ∀ a s', AtPos src s0 (b || b1) (Then C (D s a)) s' → Q a s') : Ends H m s Q :=
  (hm s hA.inv hn hp).mono fun a s' h => hf a s' (hA.trans h)
end

/-- The items of tokens of a type. -/
def ItemOf (t : Tok) (i : TextItem) : Prop :=
  match t with
  | .id => ∃ v, i = .word .id v
  | .int => ∃ v, i = .word .int v
  | .float => ∃ v, i = .word .float v
  | .bool => ∃ v, i = .word .bool v
  | .str => ∃ v m, i = .str v m
  | .semi => ∃ nl, i = .sep .semi nl
  | .for_ => ∃ nl, i = .sep .for_ nl
  | t => i = .op t

theorem itemOf_item (l : Lex) : ItemOf l.type l.item := by
  unfold ItemOf Lex.item
  split <;> simp_all

/-- A token of a type. -/
def Token (t : Tok) (ts : List TextItem) : Prop := ∃ i, ts = [i] ∧ ItemOf t i

section
variable {src : List Byte} {H : Stop → Prop} {α β : Type}

theorem skipToSemi_meets (n : Nat) : ∀ s, LexInv src s.lex → s.lex.mu ≤ n → Ends H skipToSemi s (fun _ s' => LexInv src s'.lex ∧
    s'.lex.rest.length ≤ s.lex.rest.length ∧ s'.lex.mu ≤ s.lex.mu ∧ s'.status = s.status ∧ (s.lex.type ≠ .semi → s.lex.type ≠ .eof → s'.lex.mu < s.lex.mu)) := by
  induction n with
  | zero =>
    intro s hi hn
    have : s.lex.type = .eof := by
      by_contra hc
      unfold Lex.mu at hn
      rw [if_neg hc] at hn
      omega
    rw [skipToSemi]
    refine Ends.curtok ?_
    rw [if_pos (.inr this)]
    exact ⟨hi, le_rfl, le_rfl, rfl, fun _ h => absurd this h⟩
  | succ n ih =>
    intro s hi hn
    rw [skipToSemi]
    refine Ends.curtok ?_
    split
    · rename_i h
      exact ⟨hi, le_rfl, le_rfl, rfl, fun h1 h2 => by rcases h with h | h; exacts [absurd h h1, absurd h h2]⟩
    · rename_i h
      push Not at h
      have hlt := gettok_mu_lt h.2
      refine Ends.nextTok ((ih _ hi.gettok (by show (gettok s.lex).mu ≤ n; omega)).mono ?_)
      rintro _ s' ⟨h1, h2, h3, h4, -⟩
      have := gettok_rest s.lex
      have h2 : s'.lex.rest.length ≤ (gettok s.lex).rest.length := h2
      have h3 : s'.lex.mu ≤ (gettok s.lex).mu := h3
      exact ⟨h1, by omega, by omega, h4, fun _ _ => by omega⟩

/-- `eattok` for the current token. -/
theorem eattok_same {f : Unit → P β} {Q : β → PSt → Prop} {s : PSt} {t : Tok} (ht : s.lex.type = t)
    (h : Ends H (f ()) { s with lex := gettok s.lex } Q) : Ends H (eattok t >>= f) s Q := by
  have : (eattok t >>= f) s = f () { s with lex := gettok s.lex } := by
    show P.bind (eattok t) f s = _
    unfold P.bind
    have e : eattok t s = some (.ok () { s with lex := gettok s.lex }) := by
      unfold eattok
      rw [P.bind_eq]
      unfold P.bind curtok
      dsimp only
      rw [if_neg (by simp [ht])]
      rfl
    rw [e]
  unfold Ends
  rw [this]
  exact h

theorem AtPos.eatVal {f : Unit → P β} {Q : β → PSt → Prop} {s0 s : PSt} {b : Bool} {C : List TextItem → Prop} {t : Tok} (hA : AtPos src s0 b C s) (ht : s.lex.type = t)
    (hu : t ≠ .unknown) (he : t ≠ .eof)
    (hf : ∀ s', s' = { s with lex := gettok s.lex } → AtPos src s0 true (Then C (fun ts => ts = [s.lex.item])) s' → Ends H (f ()) s' Q) :
    Ends H (eattok t >>= f) s Q := by
  refine eattok_same ht (hf _ rfl ?_)
  have h1 : AtPos src s true (fun ts => ts = [s.lex.item]) { s with lex := gettok s.lex } :=
    ⟨hA.inv.gettok, gettok_rest _, (gettok_mu_lt (ht ▸ he)).le, fun _ => gettok_mu_lt (ht ▸ he), fun hs => ⟨hs, _, .tok (ht ▸ hu) (.refl _), rfl⟩⟩
  exact (hA.trans h1).imp (by simp) (fun _ h => h)

theorem AtPos.eatSame {f : Unit → P β} {Q : β → PSt → Prop} {s0 s : PSt} {b : Bool} {C : List TextItem → Prop} {t : Tok} (hA : AtPos src s0 b C s) (ht : s.lex.type = t)
    (hu : t ≠ .unknown) (he : t ≠ .eof)
    (hf : ∀ s', s' = { s with lex := gettok s.lex } → AtPos src s0 true (Then C (Token t)) s' → Ends H (f ()) s' Q) :
    Ends H (eattok t >>= f) s Q :=
  AtPos.eatVal hA ht hu he fun s' e h => hf s' e (h.imp (fun h => h) fun _ h => by
    obtain ⟨t1, t2, rfl, h1, rfl⟩ := h
    exact ⟨_, _, rfl, h1, _, rfl, ht ▸ itemOf_item _⟩)

/-- `eattok`. -/
theorem eattok_spec (t : Tok) (hu : t ≠ .unknown) (he : t ≠ .eof) (s : PSt) (hi : LexInv src s.lex) :
    Ends H (eattok t) s (fun _ s' => AtPos src s false (Token t) s' ∧ (s.lex.type ≠ .eof → (s.lex.type = .semi → t = .semi) → s'.lex.mu < s.lex.mu)) := by
  unfold eattok
  refine Ends.curtok ?_
  split
  · rename_i hne
    have key : ∀ s1 : PSt, s1 = { s with status := true } → Ends H skipToSemi s1 (fun _ s' => AtPos src s false (Token t) s' ∧
        (s.lex.type ≠ .eof → (s.lex.type = .semi → t = .semi) → s'.lex.mu < s.lex.mu)) := by
      rintro s1 rfl
      refine (skipToSemi_meets s.lex.mu { s with status := true } hi le_rfl).mono ?_
      rintro _ s' ⟨h1, h2, h3, h4, h5⟩
      exact ⟨⟨h1, h2, h3, by simp, fun hs => by rw [h4] at hs; simp at hs⟩, fun h6 h7 => h5 (fun h8 => hne (h8.trans (h7 h8).symm)) h6⟩
    split
    · rename_i hun
      refine Ends.getLex (Ends.setStatus (key _ ?_))
      rw [hi.unknown hun]
    · exact Ends.setStatus (key _ rfl)
  · rename_i heq
    have heq : s.lex.type = t := by simpa using heq
    have := gettok_mu_lt (heq ▸ he : s.lex.type ≠ .eof)
    exact ⟨⟨hi.gettok, gettok_rest _, this.le, by simp, fun hs => ⟨hs, _, .tok (heq ▸ hu) (.refl _), _, rfl, heq ▸ itemOf_item _⟩⟩, fun _ _ => this⟩

theorem AtPos.eat {f : Unit → P β} {Q : β → PSt → Prop} {s0 s : PSt} {b : Bool} {C : List TextItem → Prop} {t : Tok} (hA : AtPos src s0 b C s)
    (hu : t ≠ .unknown) (he : t ≠ .eof) (hf : ∀ s', AtPos src s0 b (Then C (Token t)) s' → Ends H (f ()) s' Q) : Ends H (eattok t >>= f) s Q :=
  Ends.bind ((eattok_spec t hu he s hA.inv).mono fun _ s' h => hf s' ((hA.trans h.1).imp (by simp) fun _ h => h))

/-- `eattok(T_SEMI)` at the end of a statement that began in `s0`. -/
theorem AtPos.eatSemi {f : Unit → P β} {Q : β → PSt → Prop} {s0 s : PSt} {b : Bool} {C : List TextItem → Prop} (hA : AtPos src s0 b C s)
    (h0 : s0.lex.type ≠ .eof) (hf : ∀ s', AtPos src s0 true (Then C (Token .semi)) s' → Ends H (f ()) s' Q) : Ends H (eattok .semi >>= f) s Q := by
  refine Ends.bind ((eattok_spec .semi (by decide) (by decide) s hA.inv).mono fun _ s' h => hf s' ?_)
  have h1 := hA.trans h.1
  refine ⟨h1.inv, h1.rest, h1.mu, fun _ => ?_, h1.ok⟩
  by_cases he : s.lex.type = .eof
  · have h2 := h.1.mu
    have h3 := hA.rest
    have h4 : s.lex.mu = s.lex.rest.length := by unfold Lex.mu; rw [if_pos he]; rfl
    have h5 : s0.lex.mu = s0.lex.rest.length + 1 := by unfold Lex.mu; rw [if_neg h0]
    omega
  · have h2 := h.2 he (fun _ => rfl)
    have h3 := hA.mu
    omega

/-- `matcheattok`. -/
theorem AtPos.matchTok {f : Bool → P β} {Q : β → PSt → Prop} {s0 s : PSt} {b : Bool} {C : List TextItem → Prop} {t : Tok} (hA : AtPos src s0 b C s)
    (hu : t ≠ .unknown) (he : t ≠ .eof)
    (ht : ∀ s', s.lex.type = t → s' = { s with lex := gettok s.lex } → AtPos src s0 true (Then C (Token t)) s' → Ends H (f true) s' Q)
    (hf : s.lex.type ≠ t → Ends H (f false) s Q) : Ends H (matcheattok t >>= f) s Q := by
  unfold matcheattok
  refine Ends.bind (Ends.curtok ?_)
  split
  · rename_i h
    exact AtPos.eatSame hA h hu he (fun s' e hA' => Ends.pure (ht s' h e hA'))
  · rename_i h
    exact Ends.pure (hf h)

/-- `matcheattok`, with the item. -/
theorem AtPos.matchVal {f : Bool → P β} {Q : β → PSt → Prop} {s0 s : PSt} {b : Bool} {C : List TextItem → Prop} {t : Tok} (hA : AtPos src s0 b C s)
    (hu : t ≠ .unknown) (he : t ≠ .eof)
    (ht : ∀ s', s.lex.type = t → s' = { s with lex := gettok s.lex } → AtPos src s0 true (Then C (fun ts => ts = [s.lex.item])) s' → Ends H (f true) s' Q)
    (hf : s.lex.type ≠ t → Ends H (f false) s Q) : Ends H (matcheattok t >>= f) s Q := by
  unfold matcheattok
  refine Ends.bind (Ends.curtok ?_)
  split
  · rename_i h
    exact AtPos.eatVal hA h hu he (fun s' e hA' => Ends.pure (ht s' h e hA'))
  · rename_i h
    exact Ends.pure (hf h)

/-- `eatname`. -/
theorem AtPos.nameEq {f : Name → P β} {Q : β → PSt → Prop} {s0 s : PSt} {b : Bool} {C : List TextItem → Prop} (hA : AtPos src s0 b C s)
    (hf : ∀ x s', s.lex.type = .id → s' = { s with lex := gettok s.lex } → AtPos src s0 true (Then C (fun ts => ts = [.word .id x])) s' → Ends H (f x) s' Q) :
    Ends H (eatname >>= f) s Q := by
  unfold eatname
  refine Ends.bind (Ends.getLex ?_)
  by_cases ht : s.lex.type = .id
  · refine AtPos.eatVal hA ht (by decide) (by decide) (fun s' e hA' => Ends.getStatus ?_)
    split
    · exact Ends.error
    · refine Ends.pure (hf _ _ ht e (hA'.imp (fun h => h) ?_))
      rintro ts ⟨t1, t2, rfl, h1, h2⟩
      refine ⟨t1, t2, rfl, h1, ?_⟩
      rw [h2]
      unfold Lex.item
      rw [ht]
  · refine Ends.bind ((eattok_spec .id (by decide) (by decide) s hA.inv).mono fun _ s' h => Ends.getStatus ?_)
    cases hs : s'.status with
    | true => exact Ends.error
    | false =>
      exfalso
      obtain ⟨-, ts, hr, i, rfl, v, rfl⟩ := h.1.ok hs
      exact ht (hr.cons_inv rfl).2.1

theorem AtPos.name {f : Name → P β} {Q : β → PSt → Prop} {s0 s : PSt} {b : Bool} {C : List TextItem → Prop} (hA : AtPos src s0 b C s)
    (hf : ∀ x s', s.lex.type = .id → AtPos src s0 true (Then C (fun ts => ts = [.word .id x])) s' → Ends H (f x) s' Q) : Ends H (eatname >>= f) s Q :=
  AtPos.nameEq hA fun x s' h _ h' => hf x s' h h'

theorem Ends.bind_pure {m : P α} {s : PSt} {g : α → β} {Q : β → PSt → Prop} (h : Ends H m s (fun a s' => Q (g a) s')) :
    Ends H (m >>= fun a => Pure.pure (g a)) s Q := Ends.bind h

/-- `eatNewlines`. -/
theorem eatNewlines_meets (n : Nat) : ∀ s, LexInv src s.lex → s.lex.mu ≤ n →
    Ends H eatNewlines s (fun _ s' => AtPos src s false Newlines s' ∧ s'.lex.c ≠ some (ch '\n')) := by
  have nil : ∀ ts, Nothing ts → Newlines ts := by rintro _ rfl i hi; simp at hi
  induction n with
  | zero =>
    intro s hi hn
    rw [eatNewlines]
    refine Ends.getLex ?_
    split
    · rename_i hc
      have he : s.lex.type = .eof := by
        by_contra hc
        unfold Lex.mu at hn
        rw [if_neg hc] at hn
        omega
      have := (hi.eof he).1
      rw [this] at hc; simp at hc
    · rename_i hc
      exact Ends.pure ⟨(AtPos.start hi).imp (fun h => h) nil, hc⟩
  | succ n ih =>
    intro s hi hn
    rw [eatNewlines]
    refine Ends.getLex ?_
    split
    · rename_i hc
      have he : s.lex.type ≠ .eof := fun he => by rw [(hi.eof he).1] at hc; simp at hc
      refine Ends.bind ((eattok_spec .semi (by decide) (by decide) s hi).mono fun _ s' h => ?_)
      have hlt := h.2 he (fun _ => rfl)
      refine (ih s' h.1.inv (by omega)).mono fun _ s2 h2 => ?_
      have h3 := h.1.trans h2.1
      refine ⟨⟨h3.inv, h3.rest, h3.mu, by simp, fun hs => ?_⟩, h2.2⟩
      obtain ⟨h4, ts, hr, t1, t2, rfl, ⟨i, rfl, hi1⟩, h5⟩ := h3.ok hs
      refine ⟨h4, _, hr, ?_⟩
      have hr2 := hr.cons_inv (by obtain ⟨nl, rfl⟩ := hi1; rfl)
      intro j hj
      rcases List.mem_append.1 hj with hj | hj
      · rw [List.mem_singleton.1 hj, ← hr2.1]
        obtain ⟨nl, rfl⟩ := hi1
        unfold Lex.item
        rw [hr2.2.1]
        simp [TextItem.type, hc]
      · exact h5 j hj
    · rename_i hc
      exact Ends.pure ⟨(AtPos.start hi).imp (fun h => h) nil, hc⟩

theorem AtPos.newlines {f : Unit → P β} {Q : β → PSt → Prop} {s0 s : PSt} {b : Bool} {C : List TextItem → Prop} (hA : AtPos src s0 b C s)
    (hf : ∀ s', AtPos src s0 b (Then C Newlines) s' → s'.lex.c ≠ some (ch '\n') → Ends H (f ()) s' Q) : Ends H (eatNewlines >>= f) s Q :=
  Ends.bind ((eatNewlines_meets s.lex.mu s hA.inv le_rfl).mono fun _ s' h => hf s' ((hA.trans h.1).imp (by simp) fun _ h => h) h.2)
end
end Yasl
