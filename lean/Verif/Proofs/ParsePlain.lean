import Verif.Proofs.ParseAll
set_option autoImplicit false
/-! # Proofs about the parser: texts without interpolation -/
namespace Yasl

/-- A token, not the end. -/
def TextItem.plain : TextItem → Bool
  | .enter | .resume _ => false
  | .op t => t != .eof
  | _ => true

/-- No string with an embedded expression. -/
def TextItem.closed : TextItem → Bool
  | .str _ true => false
  | _ => true

/-- As long as there is no string with an embedded expression, the items are plain. -/
def FirstPlain (ts : List TextItem) : Prop := ∀ p i rest, ts = p ++ i :: rest → p.all TextItem.closed = true → i.plain = true

theorem FirstPlain.nil : FirstPlain [] := by intro p i rest h; simp at h
theorem FirstPlain.append {ts us : List TextItem} (h1 : FirstPlain ts) (h2 : FirstPlain us) : FirstPlain (ts ++ us) := by
  intro p i rest h hp
  rcases List.append_eq_append_iff.1 h with ⟨a, rfl, h3⟩ | ⟨a, h3, h4⟩
  · exact h2 a i rest h3 (by simp only [List.all_append, Bool.and_eq_true] at hp; exact hp.2)
  · cases a with
    | nil => exact h2 [] i rest (by simpa using h4.symm) rfl
    | cons x xs =>
      simp only [List.cons_append, List.cons.injEq] at h4
      obtain ⟨rfl, h4⟩ := h4
      exact h1 p i xs h3 hp
theorem FirstPlain.cons {i : TextItem} {ts : List TextItem} (hi : i.plain = true) (h : FirstPlain ts) : FirstPlain (i :: ts) := by
  intro p j rest e hp
  cases p with
  | nil => simp only [List.nil_append, List.cons.injEq] at e; rw [← e.1]; exact hi
  | cons x xs =>
    simp only [List.cons_append, List.cons.injEq] at e
    exact h xs j rest e.2 (by simp only [List.all_cons, Bool.and_eq_true] at hp; exact hp.2)
theorem FirstPlain.tail {i : TextItem} {ts : List TextItem} (hi : i.closed = true) (h : FirstPlain (i :: ts)) : FirstPlain ts := by
  intro p j rest e hp
  exact h (i :: p) j rest (by rw [e]; rfl) (by simp [hi, hp])
theorem FirstPlain.newlines {ts : List TextItem} (h : Newlines ts) : FirstPlain ts := by
  intro p i rest e _
  rw [h i (by rw [e]; simp)]; rfl

theorem FirstPlain.params {ts : List TextItem} {ps : List Node} (h : Params ts ps) : FirstPlain ts := by
  induction h with
  | nil => exact .nil
  | let_ => exact .cons rfl .nil
  | const_ => exact .cons rfl (.cons rfl .nil)
  | letMore _ ih => exact .cons rfl (.cons rfl ih)
  | constMore _ ih => exact .cons rfl (.cons rfl (.cons rfl ih))

theorem FirstPlain.pgram {flt : List Byte → BitVec 64} {c : PCat} {ts : List TextItem} {r : c.Res} (h : PGram flt c ts r) : FirstPlain ts := by
  induction h <;>
    repeat first | assumption | exact .nil | (apply FirstPlain.newlines; assumption) | refine FirstPlain.cons rfl ?_ | refine FirstPlain.append ?_ ?_

theorem opAt_plain {k : Nat} {a : Assoc} {t : Tok} (h : OpAt k a t) : (TextItem.op t).plain = true := by
  have h1 := (opAt_free h).2.1
  obtain ⟨hk, -⟩ := opAt_free h
  have : ∀ j < 12, ∀ t ∈ binToks j, (TextItem.op t).plain = true := by decide
  exact this k hk t h1

theorem FirstPlain.gram {flt : List Byte → BitVec 64} {fold : Node → Option Node} {c : Cat} {ts : List TextItem} {r : c.Res} (h : Gram flt fold c ts r) : FirstPlain ts := by
  induction h with
  | strMore =>
    intro p i rest e hp
    cases p with
    | nil => simp only [List.nil_append, List.cons.injEq] at e; rw [← e.1]; rfl
    | cons x xs =>
      simp only [List.cons_append, List.cons.injEq] at e
      rw [← e.1] at hp
      simp [TextItem.closed] at hp
  | binLeft ho _ _ ih1 ih2 => exact ih1.append (.cons (opAt_plain ho) ih2)
  | binRight ho _ _ ih1 ih2 => exact ih1.append (.cons (opAt_plain ho) ih2)
  | unary ht _ ih => exact .cons ((by decide : ∀ t ∈ unaryOps, (TextItem.op t).plain = true) _ ht) ih
  | augAssign ha _ _ ih1 ih2 => exact ih1.append (.cons ((by decide : ∀ p ∈ augmentedOps, (TextItem.op p.1).plain = true) _ ha) ih2)
  | augSet ha _ _ ih1 ih2 => exact ih1.append (.cons ((by decide : ∀ p ∈ augmentedOps, (TextItem.op p.1).plain = true) _ ha) ih2)
  | _ => repeat first | assumption | exact .nil | (apply FirstPlain.newlines; assumption) | (apply FirstPlain.params; assumption) | (apply FirstPlain.pgram; assumption) | refine FirstPlain.cons rfl ?_ | refine FirstPlain.append ?_ ?_

/-- The items of a text without interpolation: one for each token, up to the end or an error (at most `n`). -/
def readTokens : Nat → Lex → List TextItem × Lex
  | 0, l => ([], l)
  | n + 1, l => if l.type = .unknown ∨ l.type = .eof then ([], l) else (l.item :: (readTokens n (gettok l)).1, (readTokens n (gettok l)).2)

theorem reads_readTokens : ∀ (n : Nat) (l : Lex), Reads l (readTokens n l).1 (readTokens n l).2
  | 0, _ => .done ⟨rfl, rfl, rfl, rfl, rfl⟩
  | n + 1, l => by
    unfold readTokens
    split
    · exact .done ⟨rfl, rfl, rfl, rfl, rfl⟩
    · rename_i h
      push Not at h
      exact .tok h.1 (reads_readTokens n _)

theorem item_closed {l : Lex} (h : l.interp = false) : l.item.closed = true := by
  unfold Lex.item
  split <;> simp_all [TextItem.closed]

theorem item_plain {l : Lex} (h : l.item.plain = true) : l.type ≠ .eof := by
  intro e
  unfold Lex.item at h
  rw [e] at h
  simp [TextItem.plain] at h

/-- Without interpolation the items are the tokens. -/
theorem reads_plain {src : List Byte} (hs : ch '#' ∉ src) {l l' : Lex} {ts : List TextItem} (h : Reads l ts l') : ∀ n, l.mu ≤ n → LexInv src l → FirstPlain ts → l'.type = .eof →
    (readTokens n l).1 = ts ∧ (readTokens n l).2.type = .eof := by
  induction h with
  | @done l l' h =>
    intro n hn hi hf he
    have he : l.type = .eof := h.2.2.1.trans he
    cases n with
    | zero => exact ⟨rfl, he⟩
    | succ n =>
      unfold readTokens
      rw [if_pos (.inr he)]
      exact ⟨rfl, he⟩
  | @tok l l' is hk _ ih =>
    intro n hn hi hf he
    have hp := item_plain (hf [] _ _ rfl rfl)
    have hlt := gettok_mu_lt hp
    cases n with
    | zero => omega
    | succ n =>
      unfold readTokens
      rw [if_neg (by simp [hk, hp])]
      have hc : l.interp = false := by
        cases h : l.interp with
        | false => rfl
        | true => exact absurd (hi.interp h) hs
      obtain ⟨h1, h2⟩ := ih n (by omega) hi.gettok (hf.tail (item_closed hc)) he
      exact ⟨by dsimp only; rw [h1], h2⟩
  | enter => intro n _ _ hf _; exact absurd (hf [] _ _ rfl rfl) (by simp [TextItem.plain])
  | resume => intro n _ _ hf _; exact absurd (hf [] _ _ rfl rfl) (by simp [TextItem.plain])

/-- The tokens of a text. -/
def tokensOf (src : List Byte) : List TextItem × Lex := readTokens (src.length + 1) (gettok (Lex.new src))

theorem start_mu (src : List Byte) : (gettok (Lex.new src)).mu ≤ src.length + 1 := by
  have := gettok_rest (Lex.new src)
  unfold Lex.mu
  have e : (Lex.new src).rest = src := rfl
  rw [e] at this
  split <;> omega

theorem textItems_plain {src : List Byte} (hs : ch '#' ∉ src) {ts : List TextItem} (hf : FirstPlain ts) :
    TextItems src ts ↔ (tokensOf src).1 = ts ∧ (tokensOf src).2.type = .eof := by
  constructor
  · rintro ⟨l, h1, h2⟩
    exact reads_plain hs h1 _ (start_mu src) (linv_start src) hf h2
  · rintro ⟨rfl, h2⟩
    exact ⟨_, reads_readTokens _ _, h2⟩
end Yasl
