import Verif.Proofs.ParseStmt
set_option autoImplicit false
/-! # Proofs about the parser: tools for "what is in the grammar is parsed" -/
namespace Yasl

/-! ## How phrases start -/

/-- The tokens a phrase without operators can start with. -/
def atomStarts : List Tok := [.dot, .id, .lpar, .lsqb, .lbrc, .str, .int, .float, .bool, .undef, .fn]

/-- The claim for each category. -/
def AtomCat : Cat → List TextItem → Prop
  | .power, ts | .post, ts | .atom, ts | .string, ts => ∃ i rest, ts = i :: rest ∧ i.isTok = true ∧ i.type ∈ atomStarts
  | _, _ => True

theorem atom_starts {flt : List Byte → BitVec 64} {fold : Node → Option Node} {c : Cat} {ts : List TextItem} {r : c.Res} (h : Gram flt fold c ts r) : AtomCat c ts := by
  have app : ∀ {ts us : List TextItem}, AtomCat .post ts → AtomCat .post (ts ++ us) := by
    rintro ts us ⟨i, rest, rfl, h⟩; exact ⟨i, _, rfl, h⟩
  induction h with
  | powerOne _ ih => exact ih
  | power _ _ ih _ => exact app ih
  | postOne _ ih => exact ih
  | call _ _ ih _ => exact app ih
  | mcall _ _ _ ih _ _ => exact app ih
  | dot _ _ ih _ => exact app ih
  | dotCall _ _ ih _ => exact app ih
  | index _ _ ih _ => exact app ih
  | slice _ _ _ ih _ _ => exact app ih
  | sliceFrom _ _ ih _ => exact app ih
  | sliceTo _ _ ih _ => exact app ih
  | sliceAll _ ih => exact app ih
  | string _ ih => exact ih
  | _ => first | trivial | exact ⟨_, _, rfl, rfl, by simp [TextItem.type, atomStarts]⟩

/-- After a name comes a token. -/
def Sec (ts : List TextItem) : Prop := ∀ x i r, ts = .word .id x :: i :: r → i.isTok = true

theorem Sec.append {ts us : List TextItem} {t : Tok} (h : Sec ts) : Sec (ts ++ .op t :: us) := by
  intro x i r e
  match ts with
  | [] => simp at e
  | [a] => simp at e; rw [← e.2.1]; rfl
  | a :: b :: ts => simp only [List.cons_append, List.cons.injEq] at e; exact h x i ts (by rw [e.1, e.2.1])

/-- The claim for each category. -/
def SecCat : Cat → List TextItem → Prop
  | .expr, ts | .tern, ts | .bin _, ts | .unary, ts | .power, ts | .post, ts | .atom, ts | .string, ts | .simple, ts => Sec ts
  | _, _ => True

theorem gram_second {flt : List Byte → BitVec 64} {fold : Node → Option Node} {c : Cat} {ts : List TextItem} {r : c.Res} (h : Gram flt fold c ts r) : SecCat c ts := by
  induction h with
  | expr _ _ ih => exact ih
  | ternOne _ ih => exact ih
  | tern _ _ _ ih _ _ => exact Sec.append ih
  | binUp _ _ ih => exact ih
  | binLeft _ _ _ ih _ => exact Sec.append ih
  | binRight _ _ _ ih _ => exact Sec.append ih
  | binUnary _ ih => exact ih
  | unaryOne _ ih => exact ih
  | powerOne _ ih => exact ih
  | power _ _ ih _ => exact Sec.append ih
  | postOne _ ih => exact ih
  | call _ _ ih _ => exact Sec.append ih
  | mcall _ _ _ ih _ _ => exact Sec.append ih
  | dot _ _ ih _ => exact Sec.append ih
  | dotCall _ _ ih _ => exact Sec.append ih
  | index _ _ ih _ => exact Sec.append ih
  | slice _ _ _ ih _ _ => exact Sec.append ih
  | sliceFrom _ _ ih _ => exact Sec.append ih
  | sliceTo _ _ ih _ => exact Sec.append ih
  | sliceAll _ ih => exact Sec.append ih
  | string _ ih => exact ih
  | exprStmt _ ih => exact ih
  | assign _ _ ih _ => exact Sec.append ih
  | set _ _ ih _ => exact Sec.append ih
  | augAssign _ _ _ ih _ => exact Sec.append ih
  | augSet _ _ _ ih _ => exact Sec.append ih
  | declSet _ hl _ _ _ ih _ _ _ =>
    rcases gram_starts hl with h | ⟨r, h⟩
    · subst h; exact Sec.append ih
    · subst h; exact Sec.append ih
  | _ => first | trivial | (intro x i r e; simp at e)

/-! ## The character of a token -/

/-- The tokens with which an expression can go on. -/
def contToks : List Tok :=
  [.lpar, .lsqb, .dot, .rightArr, .dstar, .qmark, .dqmark, .dbar, .damp, .deq, .bangEq, .teq, .bangDeq, .lt, .ltEq, .gt, .gtEq, .tilde, .bar, .caret, .amp, .ampCaret,
   .dgt, .dlt, .plus, .minus, .star, .dslash, .slash, .mod]

/-- What is known of the current token and the current character. -/
structure LGood (l : Lex) : Prop where
  closer : l.type = .comma ∨ l.type = .rsqb ∨ l.type = .rbrc → l.c ≠ some (ch '\n')
  brace : l.type ∈ contToks → l.c ≠ some (ch '}')

theorem keyword_cont : ∀ k ∈ keywords, k.2 ∉ contToks := by decide
theorem brace_tok : (∀ p ∈ threeChars, ch p.1 ≠ ch '}') ∧ (∀ p ∈ twoChars, ch p.1 ≠ ch '}') ∧ (∀ p ∈ oneChar, ch p.1 = ch '}' → p.2 = .rbrc) := by decide

theorem eatOp_brace {cs r : List Byte} {t : Tok} (h : eatOp (ch '}' :: cs) = some (t, r)) : t = .rbrc := by
  have f1 : ∀ t, tok1 (ch '}') = some t → t = .rbrc := by
    intro t h
    rw [tok1, Option.map_eq_some_iff] at h
    obtain ⟨p, h1, rfl⟩ := h
    exact brace_tok.2.2 p (List.mem_of_find?_eq_some h1) (by have := List.find?_some h1; simpa using this)
  have f2 : ∀ b t, tok2 (ch '}') b = some t → False := by
    intro b t h
    rw [tok2, Option.map_eq_some_iff] at h
    obtain ⟨p, h1, rfl⟩ := h
    exact brace_tok.2.1 p (List.mem_of_find?_eq_some h1) (by have := List.find?_some h1; simp at this; exact this.1)
  have f3 : ∀ b c t, tok3 (ch '}') b c = some t → False := by
    intro b c t h
    rw [tok3, Option.map_eq_some_iff] at h
    obtain ⟨p, h1, rfl⟩ := h
    exact brace_tok.1 p (List.mem_of_find?_eq_some h1) (by have := List.find?_some h1; simp at this; exact this.1.1)
  have g1 : ∀ r' : List Byte, (tok1 (ch '}')).map (fun t => (t, r')) = some (t, r) → t = .rbrc := by
    intro r' h
    rw [Option.map_eq_some_iff] at h
    obtain ⟨t', h1, h2⟩ := h
    cases h2; exact f1 _ h1
  match cs with
  | [] => exact g1 _ h
  | [b] =>
    rw [eatOp] at h
    split at h
    · exact (f2 _ _ ‹_›).elim
    · exact g1 _ h
  | b :: c :: cs =>
    rw [eatOp] at h
    split at h
    · exact (f3 _ _ _ ‹_›).elim
    · split at h
      · exact (f2 _ _ ‹_›).elim
      · exact g1 _ h

theorem eatNumber_type {l r : Lex} {cs : List Byte} (e : eatNumber l cs = some r) : r.type ∉ contToks := by
  cases cs with
  | nil => simp [eatNumber] at e
  | cons b cs =>
    unfold eatNumber at e
    dsimp only at e
    split at e
    · split at e
      · cases e; simp [contToks]
      · cases e; simp [contToks, Lex.error]
      · split at e
        · cases e; simp [contToks]
        · cases e; simp [contToks, Lex.error]
        · split at e
          · rename_i hf
            cases e
            rcases eatFloat_type hf with h | h <;> rw [h] <;> simp [contToks]
          · cases e; simp [contToks]
    · cases e

theorem eatId_type {l r : Lex} {cs : List Byte} (e : eatId l cs = some r) : r.type ∉ contToks := by
  cases cs with
  | nil => simp [eatId] at e
  | cons b cs =>
    unfold eatId at e
    dsimp only at e
    split at e
    · split at e
      · cases e; simp [contToks]
      · cases e
        unfold lexKeyword
        split
        · simp [contToks, Lex.error]
        · split
          · rename_i k hk
            exact keyword_cont k (List.mem_of_find?_eq_some hk)
          · split <;> simp [contToks]
    · cases e

theorem eatInterp_type (l : Lex) (cs : List Byte) : (eatInterpBody l cs).type = .str ∨ (eatInterpBody l cs).type = .unknown := by
  unfold eatInterpBody
  split
  · exact .inr rfl
  · exact .inr rfl
  · exact .inl rfl

theorem lexTok_brace (l : Lex) (cs : List Byte) (h : (lexTok l cs).type ∈ contToks) : (lexTok l cs).c ≠ some (ch '}') := by
  cases cs with
  | nil => simp [lexTok]
  | cons b cs =>
    unfold lexTok at h ⊢
    dsimp only at h ⊢
    split
    · rename_i e; rw [e] at h; exact absurd h (eatNumber_type e)
    · rename_i e1
      rw [e1] at h
      dsimp only at h
      split
      · rename_i e; rw [e] at h; exact absurd h (eatId_type e)
      · rename_i e2
        rw [e2] at h
        dsimp only at h
        split
        · rename_i hb
          rw [if_pos hb] at h
          unfold eatString at h
          split at h <;> simp [contToks, Lex.error] at h
        · rename_i hb1
          rw [if_neg hb1] at h
          split
          · rename_i hb
            rw [if_pos hb] at h
            unfold eatRaw at h
            dsimp only at h
            split at h <;> simp [contToks, Lex.error] at h
          · rename_i hb2
            rw [if_neg hb2] at h
            split
            · rename_i hb
              rw [if_pos hb] at h
              rcases eatInterp_type l cs with e | e <;> rw [e] at h <;> simp [contToks] at h
            · rename_i hb3
              rw [if_neg hb3] at h
              split
              · rename_i t r e
                rw [e] at h
                intro hc
                simp only [Option.some.injEq] at hc
                rw [hc] at e
                have := eatOp_brace e
                subst this
                simp [contToks] at h
              · rename_i e
                rw [e] at h
                simp [contToks, Lex.error] at h

theorem gettok_good (l : Lex) : LGood (gettok l) := by
  refine ⟨(gettok_facts l).closer, fun h => ?_⟩
  unfold gettok at h ⊢
  split
  · rename_i e; rw [e] at h; simp [contToks] at h
  · simp
  · rename_i e; rw [e] at h; simp [contToks, Lex.error] at h
  · rename_i e; rw [e] at h; exact lexTok_brace _ _ h

theorem eatInterp_good (l : Lex) (cs : List Byte) : LGood (eatInterpBody l cs) := by
  constructor
  · intro h; rcases eatInterp_type l cs with e | e <;> rw [e] at h <;> simp at h
  · intro h; rcases eatInterp_type l cs with e | e <;> rw [e] at h <;> simp [contToks] at h

theorem LGood.same {l m : Lex} (h : LGood l) (hs : SameScan l m) : LGood m := by
  obtain ⟨-, h1, h2, -, -⟩ := hs
  exact ⟨by rw [← h1, ← h2]; exact h.closer, by rw [← h1, ← h2]; exact h.brace⟩

theorem Reads.good {l m : Lex} {ts : List TextItem} (h : Reads l ts m) (hl : LGood l) : LGood m := by
  induction h with
  | done h => exact hl.same h
  | tok _ _ ih => exact ih (gettok_good _)
  | enter _ ih => exact ih ⟨hl.closer, hl.brace⟩
  | resume _ _ _ ih => exact ih (eatInterp_good _ _)

theorem Reads.known {l m : Lex} {ts : List TextItem} (h : Reads l ts m) (hm : m.type ≠ .unknown) : l.type ≠ .unknown := by
  induction h with
  | done h => rw [h.2.2.1]; exact hm
  | tok h _ _ => exact h
  | enter _ ih => exact ih hm
  | resume _ h _ _ => exact h

/-! ## The parser goes on as the grammar says -/

/-- The parser is in `s`, nothing is wrong, and the items ahead are `us`, up to the state `E` of the lexer. -/
structure Ready (E : Lex) (s : PSt) (us : List TextItem) : Prop where
  status : s.status = false
  err : s.lex.err = none
  good : LGood s.lex
  reads : Reads s.lex us E
  known : E.type ≠ .unknown

/-- `m` returns `a`, and `us` is ahead then. -/
def Goes (E : Lex) {α : Type} (m : P α) (s : PSt) (a : α) (us : List TextItem) : Prop := ∃ s', m s = some (.ok a s') ∧ Ready E s' us

/-- `p` holds for the type of the token ahead. -/
def Hd (E : Lex) (us : List TextItem) (p : Tok → Prop) : Prop :=
  match us with
  | [] => p E.type
  | .resume t :: _ => p t
  | .enter :: _ => False
  | i :: _ => p i.type

theorem Hd.imp {E : Lex} {us : List TextItem} {p q : Tok → Prop} (h : Hd E us p) (hi : ∀ t, p t → q t) : Hd E us q := by
  unfold Hd at h ⊢
  split at h <;> first | exact hi _ h | exact h.elim

section
variable {E : Lex} {s : PSt} {α β : Type} {us vs : List TextItem} {i : TextItem}

theorem Ready.hd {p : Tok → Prop} (h : Ready E s us) (hp : Hd E us p) : p s.lex.type := by
  cases h.reads with
  | done hs => rw [hs.2.2.1]; exact hp
  | @tok _ _ is hk h1 =>
    have : Hd E (s.lex.item :: is) p = p s.lex.item.type := by
      have := s.lex.item_isTok
      cases hh : s.lex.item <;> first | rfl | (rw [hh] at this; simp [TextItem.isTok] at this)
    rw [this, s.lex.item_type] at hp
    exact hp
  | enter h1 => exact hp.elim
  | resume _ _ h1 => exact hp

theorem Ready.cons (h : Ready E s (i :: us)) (hi : i.isTok = true) : s.lex.item = i ∧ s.lex.type = i.type ∧ (gettok s.lex).type ≠ .unknown ∧
    Ready E { s with lex := gettok s.lex } us := by
  obtain ⟨h1, h2, h3, h4⟩ := h.reads.cons_inv hi
  have hk := h4.known h.known
  refine ⟨h1, h2, hk, h.status, ?_, gettok_good _, h4, h.known⟩
  exact ((gettok_scan s.lex s.lex rfl rfl).err hk).trans h.err

theorem Ready.op {t : Tok} (h : Ready E s (.op t :: us)) : s.lex.type = t := (h.cons rfl).2.1
theorem Ready.word {t : Tok} {v : List Byte} (h : Ready E s (.word t v :: us)) : s.lex.type = t := (h.cons rfl).2.1

theorem Goes.pure {a : α} (h : Ready E s us) : Goes E (Pure.pure a : P α) s a us := ⟨s, rfl, h⟩

theorem Goes.bind {m : P α} {f : α → P β} {a : α} {b : β} (h : Goes E m s a us) (hf : ∀ s', Ready E s' us → Goes E (f a) s' b vs) : Goes E (m >>= f) s b vs := by
  obtain ⟨s', h1, h2⟩ := h
  obtain ⟨s2, h3, h4⟩ := hf s' h2
  refine ⟨s2, ?_, h4⟩
  rw [P.bind_eq]; unfold P.bind; rw [h1]; exact h3

theorem Goes.curtok {f : Tok → P β} {b : β} (h : Goes E (f s.lex.type) s b vs) : Goes E (curtok >>= f) s b vs := h
theorem Goes.getLex {f : Lex → P β} {b : β} (h : Goes E (f s.lex) s b vs) : Goes E (getLex >>= f) s b vs := h
theorem Goes.setLex {l : Lex} {f : Unit → P β} {b : β} (h : Goes E (f ()) { s with lex := l } b vs) : Goes E (setLex l >>= f) s b vs := h
theorem Goes.getStatus {f : Bool → P β} {b : β} (h : Goes E (f s.status) s b vs) : Goes E (getStatus >>= f) s b vs := h

theorem eattok_goes {t : Tok} (ht : s.lex.type = t) : eattok t s = some (.ok () { s with lex := gettok s.lex }) := by
  unfold eattok
  rw [P.bind_eq]
  unfold P.bind curtok
  dsimp only
  rw [if_neg (by rw [ht]; simp)]
  rfl

theorem Goes.eat {t : Tok} {f : Unit → P β} {b : β} (h : Ready E s (i :: us)) (ht : i.type = t) (hi : i.isTok = true)
    (hf : ∀ s', Ready E s' us → Goes E (f ()) s' b vs) : Goes E (eattok t >>= f) s b vs := by
  obtain ⟨-, h2, h3, h4⟩ := h.cons hi
  exact Goes.bind ⟨_, eattok_goes (h2.trans ht), h4⟩ hf

theorem Goes.eatOp {t : Tok} {f : Unit → P β} {b : β} (h : Ready E s (.op t :: us)) (hf : ∀ s', Ready E s' us → Goes E (f ()) s' b vs) :
    Goes E (eattok t >>= f) s b vs := Goes.eat h rfl rfl hf

theorem Goes.yes {t : Tok} {f : Bool → P β} {b : β} (h : Ready E s (i :: us)) (ht : i.type = t) (hi : i.isTok = true)
    (hf : ∀ s', Ready E s' us → Goes E (f true) s' b vs) : Goes E (matcheattok t >>= f) s b vs := by
  unfold matcheattok
  have h2 := (h.cons hi).2.1.trans ht
  refine Goes.bind (a := true) (us := us) (Goes.curtok ?_) hf
  rw [if_pos h2]
  exact Goes.eat h ht hi fun s' h' => Goes.pure h'

theorem Goes.no {t : Tok} {f : Bool → P β} {b : β} (ht : s.lex.type ≠ t) (hf : Goes E (f false) s b vs) : Goes E (matcheattok t >>= f) s b vs := by
  unfold matcheattok
  obtain ⟨s', h1, h2⟩ := hf
  refine ⟨s', ?_, h2⟩
  rw [P.bind_eq, P.bind_eq]
  unfold P.bind Yasl.curtok
  dsimp only
  rw [if_neg ht]
  exact h1

theorem Goes.ifYes {t : Tok} {A B : P β} {b : β} (h : Ready E s (i :: us)) (ht : i.type = t) (hi : i.isTok = true)
    (hf : ∀ s', Ready E s' us → Goes E A s' b vs) : Goes E (matcheattok t >>= fun q => if q = true then A else B) s b vs :=
  Goes.yes h ht hi fun s' h' => by rw [if_pos rfl]; exact hf s' h'

theorem Goes.ifNo {t : Tok} {A B : P β} {b : β} (ht : s.lex.type ≠ t) (hf : Goes E B s b vs) : Goes E (matcheattok t >>= fun q => if q = true then A else B) s b vs :=
  Goes.no ht (by rw [if_neg (by simp)]; exact hf)

theorem Goes.name {f : Name → P β} {b : β} {x : Name} (h : Ready E s (.word .id x :: us)) (hf : ∀ s', Ready E s' us → Goes E (f x) s' b vs) :
    Goes E (eatname >>= f) s b vs := by
  unfold eatname
  obtain ⟨h1, h2, -, -⟩ := h.cons rfl
  have hv : s.lex.value = x := by
    have h2 : s.lex.type = .id := h2
    unfold Lex.item at h1
    rw [h2] at h1
    simpa using h1
  refine Goes.bind (a := x) (us := us) (Goes.getLex (Goes.eat h rfl rfl fun s' h' => Goes.getStatus ?_)) hf
  rw [h'.status, if_neg (by simp), hv]
  exact Goes.pure h'

theorem Goes.peek {f : Tok → P β} {b : β} (h : Ready E s (i :: us)) (hi : i.isTok = true) (hp : i.type.peeks = true)
    (hf : ∀ s', Ready E s' (i :: us) → Goes E (f (gettok s.lex).type) s' b vs) : Goes E (peekTok >>= f) s b vs := by
  obtain ⟨h1, h2, h3, h4⟩ := h.cons hi
  have hs : Ready E s.peeked (i :: us) := by
    refine ⟨h.status, h4.err, ?_, ?_, h.known⟩
    · constructor
      · intro hc
        have hc : s.lex.type = .comma ∨ s.lex.type = .rsqb ∨ s.lex.type = .rbrc := hc
        rw [h2] at hc
        rcases hc with hc | hc | hc <;> rw [hc] at hp <;> simp [Tok.peeks] at hp
      · intro hc
        have hc : s.lex.type ∈ contToks := hc
        rw [h2] at hc
        simp only [Tok.peeks, Bool.or_eq_true, beq_iff_eq] at hp
        rcases hp with (hp | hp) | hp <;> rw [hp] at hc <;> simp [contToks] at hc
    · exact h.reads.sim (peek_sim s.lex (by rw [h2]; exact hp)).symm hi
  refine Goes.bind (a := (gettok s.lex).type) ⟨s.peeked, ?_, hs⟩ hf
  unfold peekTok
  simp only [P.bind_eq]
  unfold P.bind Yasl.getLex
  dsimp only
  rw [eattok_goes rfl]
  rfl

theorem Hd.op {t : Tok} {p : Tok → Prop} (h : p t) : Hd E (.op t :: us) p := h

/-- Where the ends of lines stop. -/
def Stops (us : List TextItem) : Prop := ∃ i r, us = i :: r ∧ (i = .op .comma ∨ i = .op .rsqb ∨ i = .op .rbrc ∨ i = .sep .for_ false)

theorem Ready.stops (h : Ready E s us) (hs : Stops us) : s.lex.c ≠ some (ch '\n') := by
  obtain ⟨i, r, rfl, hi⟩ := hs
  have ht : i.isTok = true := by rcases hi with rfl | rfl | rfl | rfl <;> rfl
  obtain ⟨h1, h2, -, -⟩ := h.cons ht
  rcases hi with rfl | rfl | rfl | rfl
  · exact h.good.closer (.inl h2)
  · exact h.good.closer (.inr (.inl h2))
  · exact h.good.closer (.inr (.inr h2))
  · have h2 : s.lex.type = .for_ := h2
    unfold Lex.item at h1
    rw [h2] at h1
    simpa using h1

theorem eatNewlines_goes (ns : List TextItem) (hn : Newlines ns) : ∀ s, Ready E s (ns ++ us) → Stops us → Goes E eatNewlines s () us := by
  induction ns with
  | nil =>
    intro s h hs
    rw [eatNewlines]
    refine Goes.getLex ?_
    rw [if_neg (h.stops hs)]
    exact Goes.pure h
  | cons i ns ih =>
    intro s h hs
    have hi : i = .sep .semi true := hn i (by simp)
    subst hi
    rw [eatNewlines]
    refine Goes.getLex ?_
    obtain ⟨h1, h2, -, -⟩ := h.cons rfl
    have h2 : s.lex.type = .semi := h2
    have hc : s.lex.c = some (ch '\n') := by
      unfold Lex.item at h1
      rw [h2] at h1
      simpa using h1
    rw [if_pos hc]
    exact Goes.eat h rfl rfl fun s' h' => ih (fun i hi => hn i (by simp [hi])) s' h' hs

theorem Goes.newlines {f : Unit → P β} {b : β} {ns : List TextItem} (h : Ready E s (ns ++ us)) (hn : Newlines ns) (hs : Stops us)
    (hf : ∀ s', Ready E s' us → Goes E (f ()) s' b vs) : Goes E (eatNewlines >>= f) s b vs :=
  Goes.bind (eatNewlines_goes ns hn s h hs) hf

theorem Hd.newlines {ns : List TextItem} {p : Tok → Prop} (hn : Newlines ns) (h1 : p .semi) (h2 : Hd E us p) : Hd E (ns ++ us) p := by
  cases ns with
  | nil => exact h2
  | cons i ns =>
    have hi : i = .sep .semi true := hn i (by simp)
    subst hi
    exact h1
end
end Yasl
