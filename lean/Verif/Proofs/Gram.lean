import Verif.Proofs.LexScan
set_option autoImplicit false
/-! # Proofs about the grammar: first items -/
namespace Yasl

/-- The tokens an expression can start with. -/
def exprStarts : List Tok := [.dot, .id, .lpar, .lsqb, .lbrc, .str, .int, .float, .bool, .undef, .fn, .plus, .minus, .bang, .caret, .len]

/-- How an expression starts. -/
structure Starts (ts : List TextItem) : Prop where
  ex : ∃ i rest, ts = i :: rest ∧ i.isTok = true ∧ i.type ∈ exprStarts ∧ (i.type = .fn → rest.head? = some (.op .lpar))

theorem Starts.append {ts us : List TextItem} (h : Starts ts) : Starts (ts ++ us) := by
  obtain ⟨i, rest, rfl, h1, h2, h3⟩ := h.ex
  refine ⟨i, rest ++ us, rfl, h1, h2, fun hf => ?_⟩
  have := h3 hf
  cases rest with
  | nil => simp at this
  | cons a r => simpa using this

/-- How a statement starts. -/
def StmtStarts (ts : List TextItem) : Prop := ∃ i rest, ts = i :: rest ∧ i.isTok = true ∧ i.type ≠ .rbrc ∧ i.type ≠ .eof

theorem Starts.stmt {ts : List TextItem} (h : Starts ts) : StmtStarts ts := by
  obtain ⟨i, rest, rfl, h1, h2, -⟩ := h.ex
  refine ⟨i, rest, rfl, h1, ?_, ?_⟩ <;> intro e <;> rw [e] at h2 <;> revert h2 <;> decide

/-- The claim for each category. -/
def StartsCat : Cat → List TextItem → Prop
  | .expr, ts | .tern, ts | .bin _, ts | .unary, ts | .power, ts | .post, ts | .atom, ts | .string, ts | .simple, ts | .ifRest, ts => Starts ts
  | .stmt, ts => StmtStarts ts
  | .lval, ts => Starts ts ∨ ∃ i rest, ts = i :: rest ∧ (i = .op .let_ ∨ i = .op .const)
  | .body, ts => ∃ rest, ts = .op .lbrc :: rest
  | .more, ts | .pairs, ts | .lvals, ts => ts = [] ∨ ∃ rest, ts = .op .comma :: rest
  | .cond, ts => ts = [] ∨ ∃ rest, ts = .op .if_ :: rest
  | .iter, ts => ∃ x rest, ts = .word .id x :: rest
  | .args, ts => ts = [] ∨ ∃ i rest, ts = i :: rest ∧ i.isTok = true ∧ i.type ∈ exprStarts
  | _, _ => True

theorem gram_starts {flt : List Byte → BitVec 64} {fold : Node → Option Node} {c : Cat} {ts : List TextItem} {r : c.Res} (h : Gram flt fold c ts r) : StartsCat c ts := by
  have one : ∀ i : TextItem, i.isTok = true → i.type ∈ exprStarts → i.type ≠ .fn → ∀ rest : List TextItem, StartsCat .expr (i :: rest) :=
    fun i h1 h2 h3 rest => ⟨i, rest, rfl, h1, h2, fun h => absurd h h3⟩
  induction h with
  | expr _ _ ih => exact ih
  | ternOne _ ih => exact ih
  | tern _ _ _ ih _ _ => exact Starts.append ih
  | binUp _ _ ih => exact ih
  | binLeft _ _ _ ih _ => exact Starts.append ih
  | binRight _ _ _ ih _ => exact Starts.append ih
  | binUnary _ ih => exact ih
  | unaryOne _ ih => exact ih
  | @unary ts e t ht _ ih =>
    refine one (.op t) rfl ?_ ?_ _
    · simp only [unaryOps, List.mem_cons, List.not_mem_nil, or_false] at ht
      rcases ht with rfl | rfl | rfl | rfl | rfl <;> decide
    · simp only [unaryOps, List.mem_cons, List.not_mem_nil, or_false] at ht
      rcases ht with rfl | rfl | rfl | rfl | rfl <;> decide
  | powerOne _ ih => exact ih
  | power _ _ ih _ => exact Starts.append ih
  | postOne _ ih => exact ih
  | call _ _ ih _ => exact Starts.append ih
  | mcall _ _ _ ih _ _ => exact Starts.append ih
  | dot _ _ ih _ => exact Starts.append ih
  | dotCall _ _ ih _ => exact Starts.append ih
  | index _ _ ih _ => exact Starts.append ih
  | slice _ _ _ ih _ _ => exact Starts.append ih
  | sliceFrom _ _ ih _ => exact Starts.append ih
  | sliceTo _ _ ih _ => exact Starts.append ih
  | sliceAll _ ih => exact Starts.append ih
  | field => exact one _ rfl (by decide) (by decide) _
  | var => exact one _ rfl (by simp [TextItem.type]; decide) (by simp [TextItem.type]) _
  | paren _ ih => exact one _ rfl (by decide) (by decide) _
  | int => exact one _ rfl (by simp [TextItem.type]; decide) (by simp [TextItem.type]) _
  | float => exact one _ rfl (by simp [TextItem.type]; decide) (by simp [TextItem.type]) _
  | bool => exact one _ rfl (by simp [TextItem.type]; decide) (by simp [TextItem.type]) _
  | undef => exact one _ rfl (by decide) (by decide) _
  | string _ ih => exact ih
  | fn _ _ _ => exact ⟨_, _, rfl, rfl, by decide, fun _ => rfl⟩
  | listEmpty => exact one _ rfl (by decide) (by decide) _
  | list _ _ _ _ ih _ => exact one _ rfl (by decide) (by decide) _
  | listComp _ _ _ _ _ ih _ _ => exact one _ rfl (by decide) (by decide) _
  | tableEmpty => exact one _ rfl (by decide) (by decide) _
  | table _ _ _ _ _ ih _ _ => exact one _ rfl (by decide) (by decide) _
  | tableComp _ _ _ _ _ _ ih _ _ _ => exact one _ rfl (by decide) (by decide) _
  | strEnd => exact one _ rfl (by simp [TextItem.type]; decide) (by simp [TextItem.type]) _
  | strMore _ _ _ _ => exact one _ rfl (by simp [TextItem.type]; decide) (by simp [TextItem.type]) _
  | argsEnd => exact .inl rfl
  | argsLast _ ih =>
    obtain ⟨i, rest, rfl, h1, h2, h3⟩ := Starts.ex ih
    exact .inr ⟨i, rest, rfl, h1, h2⟩
  | args _ _ ih _ =>
    obtain ⟨i, rest, rfl, h1, h2, h3⟩ := Starts.ex ih
    exact .inr ⟨i, _, rfl, h1, h2⟩
  | moreEnd => exact .inl rfl
  | more _ _ _ _ => exact .inr ⟨_, rfl⟩
  | pairsEnd => exact .inl rfl
  | pairs _ _ _ _ _ _ => exact .inr ⟨_, rfl⟩
  | iter _ _ => exact ⟨_, _, rfl⟩
  | condNone => exact .inl rfl
  | cond _ _ => exact .inr ⟨_, rfl⟩
  | echo _ _ => exact ⟨_, _, rfl, rfl, by decide, by decide⟩
  | export_ _ _ => exact ⟨_, _, rfl, rfl, by decide, by decide⟩
  | assert _ _ => exact ⟨_, _, rfl, rfl, by decide, by decide⟩
  | brk => exact ⟨_, _, rfl, rfl, by decide, by decide⟩
  | cont => exact ⟨_, _, rfl, rfl, by decide, by decide⟩
  | ret _ _ => exact ⟨_, _, rfl, rfl, by decide, by decide⟩
  | multiRet _ _ _ _ => exact ⟨_, _, rfl, rfl, by decide, by decide⟩
  | fnDecl _ _ _ => exact ⟨_, _, rfl, rfl, by decide, by decide⟩
  | fnMember _ _ _ => exact ⟨_, _, rfl, rfl, by decide, by decide⟩
  | fnConst _ _ _ => exact ⟨_, _, rfl, rfl, by decide, by decide⟩
  | fnExpr _ _ => exact ⟨_, _, rfl, rfl, by decide, by decide⟩
  | declLet _ _ _ _ _ _ _ => exact ⟨_, _, rfl, rfl, by decide, by decide⟩
  | declConst _ _ _ _ _ _ _ => exact ⟨_, _, rfl, rfl, by decide, by decide⟩
  | declVar _ _ _ _ _ _ _ => exact ⟨_, _, rfl, rfl, by simp [TextItem.type], by simp [TextItem.type]⟩
  | simple _ _ _ ih => exact Starts.stmt ih
  | forLet _ _ _ _ _ _ _ _ => exact ⟨_, _, rfl, rfl, by simp [TextItem.type], by simp [TextItem.type]⟩
  | forIter _ _ _ _ => exact ⟨_, _, rfl, rfl, by simp [TextItem.type], by simp [TextItem.type]⟩
  | while_ _ _ _ _ => exact ⟨_, _, rfl, rfl, by decide, by decide⟩
  | if_ _ _ => exact ⟨_, _, rfl, rfl, by decide, by decide⟩
  | match_ _ _ _ _ => exact ⟨_, _, rfl, rfl, by decide, by decide⟩
  | exprStmt _ ih => exact ih
  | assign _ _ ih _ => exact Starts.append ih
  | set _ _ ih _ => exact Starts.append ih
  | augAssign _ _ _ ih _ => exact Starts.append ih
  | augSet _ _ _ ih _ => exact Starts.append ih
  | declSet _ _ _ _ _ ih _ _ _ => exact Starts.append ih
  | lvalLet => exact .inr ⟨_, _, rfl, .inl rfl⟩
  | lvalConst => exact .inr ⟨_, _, rfl, .inr rfl⟩
  | lvalVar _ ih => exact .inl ih
  | lvalGet _ ih => exact .inl ih
  | lvalsEnd => exact .inl rfl
  | lvals _ _ _ _ => exact .inr ⟨_, rfl⟩
  | ifEnd _ _ ih ihb => obtain ⟨r, hb⟩ := ihb; subst hb; exact Starts.append ih
  | ifElse _ _ _ ih ihb _ => obtain ⟨r, hb⟩ := ihb; subst hb; exact Starts.append ih
  | ifElseif _ _ _ ih ihb _ => obtain ⟨r, hb⟩ := ihb; subst hb; exact Starts.append ih
  | clausesEnd => trivial
  | clauses _ _ _ _ _ _ _ => trivial
  | body _ _ => exact ⟨_, rfl⟩
  | stmtsEnd => trivial
  | stmts _ _ _ _ => trivial

/-- The tokens a pattern can start with. -/
def patStarts : List Tok := [.int, .float, .bool, .minus, .str, .dot, .id, .star, .undef, .let_, .const, .lbrc, .lsqb, .lpar]

/-- How a pattern starts. -/
def PStarts (ts : List TextItem) : Prop := ∃ i rest, ts = i :: rest ∧ i.isTok = true ∧ i.type ∈ patStarts

/-- The claim for each category. -/
def PStartsCat : PCat → List TextItem → Prop
  | .key, ts | .single, ts | .pat, ts => PStarts ts
  | .pairs, ts | .pats, ts => ts = [] ∨ ∃ rest, ts = .op .comma :: rest

theorem pgram_starts {flt : List Byte → BitVec 64} {c : PCat} {ts : List TextItem} {r : c.Res} (h : PGram flt c ts r) : PStartsCat c ts := by
  induction h with
  | key _ ih => exact ih
  | one _ ih => exact ih
  | alt _ _ ih _ => obtain ⟨i, rest, rfl, h1, h2⟩ := ih; exact ⟨i, _, rfl, h1, h2⟩
  | pairsEnd => exact .inl rfl
  | patsEnd => exact .inl rfl
  | pairsRest => exact .inr ⟨_, rfl⟩
  | patsRest => exact .inr ⟨_, rfl⟩
  | pairs _ _ _ _ _ _ => exact .inr ⟨_, rfl⟩
  | pats _ _ _ _ => exact .inr ⟨_, rfl⟩
  | _ => exact ⟨_, _, rfl, rfl, by simp [TextItem.type, patStarts]⟩

end Yasl
