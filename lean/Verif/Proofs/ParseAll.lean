import Verif.Proofs.ParseMain3
import Verif.Proofs.ParseStmt
set_option autoImplicit false
/-! # Proofs about the parser: the whole program -/
namespace Yasl
variable {E : Lex} {cfg : ParseCfg}

theorem more_comma {flt : List Byte → BitVec 64} {fold : Node → Option Node} {ts : List TextItem} {e : Node} {es : List Node} (h : Gram flt fold .more ts (e :: es)) :
    ∃ rest, ts = .op .comma :: rest := by
  cases h; exact ⟨_, rfl⟩

theorem lvals_comma {flt : List Byte → BitVec 64} {fold : Node → Option Node} {ts : List TextItem} {e : Node} {es : List Node} (h : Gram flt fold .lvals ts (e :: es)) :
    ∃ rest, ts = .op .comma :: rest := by
  cases h; exact ⟨_, rfl⟩

theorem iter_word {flt : List Byte → BitVec 64} {fold : Node → Option Node} {ts : List TextItem} {e : Node} (h : Gram flt fold .iter ts e) :
    ∃ x rest, ts = .word .id x :: rest := by
  cases h; exact ⟨_, _, rfl⟩

/-- **What is in the grammar is parsed.** -/
theorem gram_goes {c : Cat} {ts : List TextItem} {r : c.Res} (h : Gram cfg.strtod cfg.fold c ts r) : Comp E cfg c ts r := by
  induction h with
  | expr _ hf ih => exact main_expr hf ih
  | ternOne _ ih => exact main_ternOne ih
  | tern _ _ _ ih1 ih2 ih3 => exact main_tern ih1 ih2 ih3
  | binUp hk _ ih => exact main_binUp hk ih
  | binLeft ho _ _ ih1 ih2 => exact main_binLeft ho ih1 ih2
  | binRight ho _ _ ih1 ih2 => exact main_binRight ho ih1 ih2
  | binUnary _ ih => exact main_binUnary ih
  | unaryOne h ih => exact main_unaryOne (atom_starts h) ih
  | unary ht _ ih => exact main_unary ht ih
  | powerOne _ ih => exact main_powerOne ih
  | power _ _ ih1 ih2 => exact main_power ih1 ih2
  | postOne _ ih => exact main_postOne ih
  | call _ _ ih1 ih2 => exact main_call ih1 ih2
  | mcall _ _ _ ih1 ih2 ih3 => exact main_mcall ih1 ih2 ih3
  | dot _ _ ih1 ih2 => exact main_dot ih1 ih2
  | dotCall _ _ ih1 ih2 => exact main_dotCall ih1 ih2
  | index _ h ih1 ih2 => exact main_index (gram_starts h) ih1 ih2
  | slice _ h2 h3 ih1 ih2 ih3 => exact main_slice (gram_starts h2) (gram_starts h3) ih1 ih2 ih3
  | sliceFrom _ h2 ih1 ih2 => exact main_sliceFrom (gram_starts h2) ih1 ih2
  | sliceTo _ h2 ih1 ih2 => exact main_sliceTo (gram_starts h2) ih1 ih2
  | sliceAll _ ih1 => exact main_sliceAll ih1
  | field => exact main_field
  | var => exact main_var
  | paren _ ih => exact main_paren ih
  | int => exact main_int
  | float => exact main_float
  | bool => exact main_bool
  | undef => exact main_undef
  | string _ ih => exact main_string ih
  | fn hp _ ih => exact main_fn hp ih
  | listEmpty => exact main_listEmpty
  | list h n1 hm n2 ih1 ih2 => exact main_list (gram_starts h) (gram_starts hm) n1 n2 ih1 ih2
  | listComp h n1 _ _ n2 ih1 ih2 ih3 => exact main_listComp (gram_starts h) n1 n2 ih1 ih2 ih3
  | tableEmpty => exact main_tableEmpty
  | table h _ n1 hm n2 ih1 ih2 ih3 => exact main_table (gram_starts h) (gram_starts hm) n1 n2 ih1 ih2 ih3
  | tableComp h _ n1 _ _ n2 ih1 ih2 ih3 ih4 => exact main_tableComp (gram_starts h) n1 n2 ih1 ih2 ih3 ih4
  | strEnd => exact main_strEnd
  | strMore _ _ ih1 ih2 => exact main_strMore ih1 ih2
  | argsEnd => exact main_argsEnd
  | argsLast h ih => exact main_argsLast (gram_starts h) ih
  | args h _ ih1 ih2 => exact main_args (gram_starts h) ih1 ih2
  | moreEnd => exact main_moreEnd
  | more _ hm ih1 ih2 => exact main_more (gram_starts hm) ih1 ih2
  | pairsEnd => exact main_pairsEnd
  | pairs _ _ hm ih1 ih2 ih3 => exact main_pairs (gram_starts hm) ih1 ih2 ih3
  | iter _ ih => exact main_iter ih
  | condNone => exact .inl ⟨rfl, rfl⟩
  | cond _ ih => exact .inr ⟨_, _, rfl, rfl, ih⟩
  | echo _ ih => exact main_keyword (f := Node.echo) ih fun s hs => by rw [program_at hs]
  | export_ _ ih => exact main_keyword (f := Node.export_) ih fun s hs => by rw [program_at hs]
  | assert _ ih => exact main_keyword (f := Node.assert) ih fun s hs => by rw [program_at hs]
  | brk => exact main_brk
  | cont => exact main_cont
  | ret _ ih => exact main_ret ih
  | multiRet _ hm ih1 ih2 => exact main_multiRet (more_comma hm) ih1 ih2
  | fnDecl hp _ ih => exact main_fnDecl hp ih
  | fnMember hp _ ih => exact main_fnMember hp ih
  | fnConst hp _ ih => exact main_fnConst hp ih
  | fnExpr h ih => exact main_fnExpr (gram_starts h) ih
  | declLet _ _ hm hl ih1 ih2 ih3 => exact main_declLet (gram_starts hm) ih1 ih2 ih3 hl
  | declConst _ _ hm hl ih1 ih2 ih3 => exact main_declConst (gram_starts hm) ih1 ih2 ih3 hl
  | declVar hc _ hm hl ih1 ih2 ih3 => exact main_declVar (lvals_comma hc) (gram_starts hm) ih1 ih2 ih3 hl
  | simple h1 h2 h ih => exact main_simple h1 h2 (gram_starts h) (gram_second h) ih
  | forLet _ _ _ hb ih1 ih2 ih3 ih4 => exact main_forLet (gram_starts hb) ih1 ih2 ih3 ih4
  | forIter hi hb ih1 ih2 => exact main_forIter (iter_word hi) (gram_starts hb) ih1 ih2
  | while_ _ hb ih1 ih2 => exact main_while (gram_starts hb) ih1 ih2
  | if_ _ ih => exact main_if ih
  | match_ _ _ ih1 ih2 => exact main_match ih1 ih2
  | exprStmt _ ih => exact main_exprStmt ih
  | assign _ _ ih1 ih2 => exact main_assign ih1 ih2
  | set _ _ ih1 ih2 => exact main_set ih1 ih2
  | augAssign ha _ _ ih1 ih2 => exact main_augAssign ha ih1 ih2
  | augSet ha _ _ ih1 ih2 => exact main_augSet ha ih1 ih2
  | declSet _ hc _ hm hl ih0 ih1 ih2 ih3 => exact main_declSet (lvals_comma hc) (gram_starts hm) ih0 ih1 ih2 ih3 hl
  | lvalLet => exact main_lvalLet
  | lvalConst => exact main_lvalConst
  | lvalVar h ih => exact main_lvalVar (gram_starts h) ih
  | lvalGet h ih => exact main_lvalGet (gram_starts h) ih
  | lvalsEnd => exact main_lvalsEnd
  | lvals _ hm ih1 ih2 => exact main_lvals (gram_starts hm) ih1 ih2
  | ifEnd _ hb ih1 ih2 => exact main_ifEnd (gram_starts hb) ih1 ih2
  | ifElse _ hb _ ih1 ih2 ih3 => exact main_ifElse (gram_starts hb) ih1 ih2 ih3
  | ifElseif _ hb _ ih1 ih2 ih3 => exact main_ifElseif (gram_starts hb) ih1 ih2 ih3
  | clausesEnd => exact main_clausesEnd
  | clauses hp _ hb _ ih1 ih2 ih3 => exact main_clauses hp (gram_starts hb) ih1 ih2 ih3
  | body _ ih => exact main_body ih
  | stmtsEnd => exact main_stmtsEnd
  | stmts h _ ih1 ih2 => exact main_stmts (gram_starts h) ih1 ih2

/-- The loop of `compile` goes on as the grammar says. -/
theorem gram_all {ts : List TextItem} {ss : List Node} (h : Gram cfg.strtod cfg.fold .stmts ts ss) (hE : E.type = .eof) : ∀ acc s, Ready E s ts →
    Goes E (parseAll cfg acc) s (some (acc ++ ss)) [] := by
  induction ss generalizing ts with
  | nil =>
    cases h
    intro acc s h
    rw [parseAll]
    refine Goes.curtok ?_
    have : s.lex.type = .eof := h.hd (p := (· = .eof)) hE
    rw [if_neg (by simp [this])]
    simpa using Goes.pure h
  | cons n ss ih =>
    cases h with
    | stmts h0 h00 =>
    intro acc s h
    obtain ⟨i, r, e, hi, -, h1⟩ : StmtStarts _ := gram_starts h0
    rw [parseAll]
    refine Goes.curtok ?_
    rw [if_pos]
    · refine Goes.bind (gram_goes h0 s _ h rfl) fun s1 h1 => Goes.getStatus ?_
      rw [h1.status]
      refine Goes.eat h1 rfl rfl fun s2 h2 => Goes.getStatus ?_
      rw [h2.status]
      simpa using ih h00 (acc ++ [n]) s2 h2
    · subst e
      rw [(h.cons hi).2.1]
      exact h1

/-- The lexer at the first token. -/
theorem linv_start (src : List Byte) : LexInv src (gettok (Lex.new src)) := by
  have g := gettok_ok (Lex.new src)
  have f := gettok_facts (Lex.new src)
  refine ⟨g.1, fun hi => ?_, fun hm => (f.kwMatch hm), f.unknown, fun he => ⟨f.eof he, ?_⟩, f.dot⟩
  · rcases f.interp hi with h1 | h1
    · exact absurd h1 (by simp [Lex.new])
    · exact h1
  · rcases g.2.1 with h1 | h1
    · exact h1.2
    · exact absurd he h1.1

section
variable {src : List Byte} {H : Stop → Prop}

/-- The loop of `compile` ends, and what it returns is what the grammar says. -/
theorem all_meets (hU : UbOk src cfg H) (hH : ch '#' ∈ src → word "match" <:+: src → H .hang) (n : Nat) : ∀ acc s, LexInv src s.lex → s.lex.mu ≤ n →
    Ends H (parseAll cfg acc) s (fun r s' => ∀ rs, r = some rs → ∃ ss, rs = acc ++ ss ∧ s'.lex.type = .eof ∧ (s.status = false → s'.status = false) ∧
      AtPos src s false (fun ts => Gram cfg.strtod cfg.fold .stmts ts ss) s') := by
  induction n using Nat.strong_induction_on with
  | _ n ih =>
  intro acc s hi hn
  rw [parseAll]
  refine Ends.curtok ?_
  have st := AtPos.start hi
  split
  · rename_i ht
    refine AtPos.call st (main_meets hU hH n).program hn trivial fun r s1 h1 => Ends.getStatus ?_
    split
    · exact Ends.pure (by simp)
    · refine AtPos.eatSemi h1 ht fun s2 h2 => Ends.getStatus ?_
      split
      · exact Ends.pure (by simp)
      · rename_i hs2
        have m2 := h2.lt rfl
        refine (ih (n - 1) (by omega) (acc ++ [r]) s2 h2.inv (by omega)).mono fun rs s3 h3 => ?_
        rintro rs' rfl
        obtain ⟨ss, e, he, hst, h4⟩ := h3 _ rfl
        refine ⟨r :: ss, by simpa using e, he, fun _ => hst (by simpa using hs2), (h2.trans h4).imp (by simp) ?_⟩
        rintro _ ⟨_, _, rfl, ⟨_, _, rfl, ⟨_, _, rfl, rfl, hg⟩, _, rfl, nl, rfl⟩, hss⟩
        simpa using Gram.stmts hg hss
  · rename_i ht
    refine Ends.pure ?_
    rintro _ ⟨⟩
    refine ⟨[], by simp, by simpa using ht, fun h => h, st.imp (by simp) ?_⟩
    rintro _ rfl
    exact .stmtsEnd
end

/-- **The parser accepts exactly the grammar, with the tree that the grammar gives.** -/
theorem parseSource_iff (src : List Byte) (ss : List Node) :
    parseSource cfg src = some (.accepted ss) ↔ ∃ ts, TextItems src ts ∧ Gram cfg.strtod cfg.fold .stmts ts ss := by
  constructor
  · intro h
    have h1 := all_meets (cfg := cfg) (H := fun _ => True) (src := src) ⟨fun _ => trivial, fun _ _ => trivial⟩ (fun _ _ => trivial) _ [] ⟨gettok (Lex.new src), false⟩ (linv_start src) le_rfl
    unfold Ends at h1
    unfold parseSource at h
    split at h <;> simp only [reduceCtorEq, Option.some.injEq, Parsed.accepted.injEq] at h
    rename_i hp
    rw [hp] at h1
    obtain ⟨ss', e, he, hst, hA⟩ := h1 _ rfl
    obtain ⟨-, ts, hr, hg⟩ := hA.ok (hst rfl)
    obtain rfl : ss = ss' := by rw [← h, e]; rfl
    exact ⟨ts, ⟨_, hr, he⟩, hg⟩
  · rintro ⟨ts, ⟨l, hr, hl⟩, hg⟩
    have hk : (gettok (Lex.new src)).type ≠ .unknown := hr.known (by rw [hl]; decide)
    have hR : Ready l ⟨gettok (Lex.new src), false⟩ ts :=
      ⟨rfl, ((gettok_scan (Lex.new src) (Lex.new src) rfl rfl).err hk).trans rfl, gettok_good _, hr, by rw [hl]; decide⟩
    obtain ⟨s', h1, -⟩ := gram_all hg hl [] _ hR
    unfold parseSource
    rw [h1]
    rfl

/-- The parser ends; it hangs only with a `match` and a string with interpolation, and is undefined only with a `.` or where folding is. -/
theorem parseSource_ends (src : List Byte) : ∃ r, parseSource cfg src = some r ∧ (r = .hang → ch '#' ∈ src ∧ word "match" <:+: src) ∧
    (r = .ub → ch '.' ∈ src ∨ ∃ e, cfg.fold e = none) := by
  have h1 := all_meets (cfg := cfg) (src := src)
    (H := fun | .hang => ch '#' ∈ src ∧ word "match" <:+: src | .ub => ch '.' ∈ src ∨ ∃ e, cfg.fold e = none | .error => True)
    ⟨fun h => .inl h, fun e he => .inr ⟨e, he⟩⟩ (fun h1 h2 => ⟨h1, h2⟩) _ [] ⟨gettok (Lex.new src), false⟩ (linv_start src) le_rfl
  unfold Ends at h1
  unfold parseSource
  split
  · rename_i hp; rw [hp] at h1; exact h1.elim
  · exact ⟨_, rfl, by simp, by simp⟩
  · exact ⟨_, rfl, by simp, by simp⟩
  · exact ⟨_, rfl, by simp, by simp⟩
  · rename_i hp; rw [hp] at h1; exact ⟨_, rfl, by simp, fun _ => h1⟩
  · rename_i hp; rw [hp] at h1; exact ⟨_, rfl, fun _ => h1, by simp⟩
end Yasl
