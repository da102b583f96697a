import Verif.Proofs.ParseComplete
set_option autoImplicit false
/-! # Proofs about the parser: what is in the grammar is parsed: expressions and statements -/
namespace Yasl
variable {E : Lex} {cfg : ParseCfg}

/-- No operator of level `k` or tighter. -/
def Free (k : Nat) (t : Tok) : Prop := t ≠ .rightArr ∧ t ≠ .dot ∧ t ≠ .lsqb ∧ t ≠ .lpar ∧ t ≠ .dstar ∧ ∀ j < 12, k ≤ j → t ∉ binToks j

instance (k : Nat) (t : Tok) : Decidable (Free k t) := by unfold Free; infer_instance

/-- An expression ends here. -/
def ExprEnd (t : Tok) : Prop := t ≠ .qmark ∧ Free 0 t

instance (t : Tok) : Decidable (ExprEnd t) := by unfold ExprEnd; infer_instance

theorem Free.mono {j k : Nat} {t : Tok} (h : Free j t) (hk : j ≤ k) : Free k t :=
  ⟨h.1, h.2.1, h.2.2.1, h.2.2.2.1, h.2.2.2.2.1, fun i hi hki => h.2.2.2.2.2 i hi (hk.trans hki)⟩

theorem exprEnd_of {t : Tok} (h : t ∉ contToks) : ExprEnd t := by
  revert h
  cases t <;> decide

/-- An operator of a level is none of a tighter one. -/
theorem opAt_free {k : Nat} {a : Assoc} {t : Tok} (h : OpAt k a t) : k < 12 ∧ t ∈ binToks k ∧ binRight k = (a == .right) ∧ Free (k + 1) t := by
  obtain ⟨ts, h1, h2⟩ := h
  have hk : k < 12 := by
    by_contra hc
    have : operatorLevels[k]? = none := List.getElem?_eq_none (by simp [operatorLevels]; omega)
    rw [this] at h1; cases h1
  have : k = 0 ∨ k = 1 ∨ k = 2 ∨ k = 3 ∨ k = 4 ∨ k = 5 ∨ k = 6 ∨ k = 7 ∨ k = 8 ∨ k = 9 ∨ k = 10 ∨ k = 11 := by omega
  rcases this with rfl | rfl | rfl | rfl | rfl | rfl | rfl | rfl | rfl | rfl | rfl | rfl <;>
    simp only [operatorLevels, List.getElem?_cons_zero, List.getElem?_cons_succ, Option.some.injEq, Prod.mk.injEq] at h1 <;>
    obtain ⟨rfl, rfl⟩ := h1 <;>
    simp only [List.mem_cons, List.not_mem_nil, or_false] at h2 <;>
    rcases h2 with rfl | rfl | rfl | rfl <;> decide

/-- The rest of `parse_var_pack` after an expression. -/
def packTail (cfg : ParseCfg) (k : Nat) (acc : List Node) (e : Node) : P (List Node) :=
  if acc.length < k then do
    let more ← matcheattok .comma
    if more then parseVarPack cfg k (acc ++ [e]) else pure (packEnd k (acc ++ [e]))
  else pure (packEnd k (acc ++ [e]))

theorem parseVarPack_eq (k : Nat) (acc : List Node) : parseVarPack cfg k acc = (parseExpr cfg >>= fun e => packTail cfg k acc e) := by
  rw [parseVarPack]; rfl

/-- What is proved of `.args`. -/
def CompArgs (E : Lex) (cfg : ParseCfg) (ts : List TextItem) (r : List Node) : Prop :=
  ∀ acc s us, Ready E s (ts ++ us) → Hd E us (· = .rpar) → Goes E (parseArgs cfg acc) s (acc ++ r) us

/-- What is proved of `.more`. -/
def CompMore (E : Lex) (cfg : ParseCfg) (ts : List TextItem) (r : List Node) : Prop :=
  ∀ s us, Ready E s (ts ++ us) → Hd E us (fun t => t = .semi ∨ t = .rsqb ∨ t = .lbrc) → (∀ acc, Goes E (parseCommaExprs cfg acc) s (acc ++ r) us) ∧
      ∀ k acc e, (acc ++ e :: r).length ≤ k + 1 → Goes E (packTail cfg k acc e) s (packEnd k (acc ++ e :: r)) us

/-- What is proved of `.pairs`. -/
def CompPairs (E : Lex) (cfg : ParseCfg) (ts : List TextItem) (r : List Node) : Prop :=
  ∀ acc s us, Ready E s (ts ++ us) → Hd E us (fun t => t = .semi ∨ t = .rbrc) → Goes E (parsePairs cfg acc) s (acc ++ r) us

/-- What is proved of `.lvals`. -/
def CompLvals (E : Lex) (cfg : ParseCfg) (ts : List TextItem) (r : List Node) : Prop :=
  ∀ lv k s us, Ready E s (ts ++ us) → Hd E us (· = .eq) → ∀ b vs, (∀ s', Ready E s' us → Goes E (parseDeclHelper cfg (lv ++ r) (k + r.length)) s' b vs) → Goes E (parseDeclHelper cfg lv k) s b vs

/-- What is proved of `.clauses`. -/
def CompClauses (E : Lex) (cfg : ParseCfg) (ts : List TextItem) (r : List (PatNode × Option Node × List Node)) : Prop :=
  ∀ e ps gs bs s us, Ready E s (ts ++ us) → Hd E us (· = .rbrc) →
      Goes E (parseClauses cfg e ps gs bs) s (.match_ e (ps ++ r.map (·.1)) (gs ++ r.map (·.2.1)) (bs ++ r.map (·.2.2))) us

/-- What is proved of `.stmts`. -/
def CompStmts (E : Lex) (cfg : ParseCfg) (ts : List TextItem) (r : List Node) : Prop :=
  ∀ acc s us, Ready E s (ts ++ us) → Hd E us (fun t => t = .rbrc) → Goes E (parseStmts cfg acc) s (acc ++ r) us

/-- What is proved of `.cond`. -/
def CompCond (E : Lex) (cfg : ParseCfg) (ts : List TextItem) (r : Option Node) : Prop :=
  (r = none ∧ ts = []) ∨ ∃ te e, r = some e ∧ ts = .op .if_ :: te ∧ ∀ s us, Ready E s (te ++ us) → Hd E us ExprEnd → Goes E (parseExpr cfg) s e us

/-- What is proved of each category. -/
def Comp (E : Lex) (cfg : ParseCfg) : (c : Cat) → List TextItem → c.Res → Prop
  | .expr, ts, r => ∀ s us, Ready E s (ts ++ us) → Hd E us ExprEnd → Goes E (parseExpr cfg) s r us
  | .tern, ts, r => ∀ s us, Ready E s (ts ++ us) → Hd E us ExprEnd → Goes E (parseTernary cfg) s r us
  | .bin k, ts, r => ∀ s us, Ready E s (ts ++ us) → if k < 12 ∧ binRight k = false then
        Hd E us (Free (k + 1)) → ∀ b vs, (∀ s', Ready E s' us → Goes E (parseBinLoop cfg k r) s' b vs) → Goes E (parseBin cfg k) s b vs
      else Hd E us (Free k) → Goes E (parseBin cfg k) s r us
  | .unary, ts, r => ∀ s us, Ready E s (ts ++ us) → Hd E us (Free 12) → Goes E (parseUnary cfg) s r us
  | .power, ts, r => ∀ s us, Ready E s (ts ++ us) → Hd E us (Free 12) → Goes E (parsePower cfg) s r us
  | .post, ts, r => ∀ s us, Ready E s (ts ++ us) → ∀ b vs, (∀ s', Ready E s' us → Goes E (parseCallLoop cfg r) s' b vs) → Goes E (parseCall cfg) s b vs
  | .atom, ts, r => ∀ s us, Ready E s (ts ++ us) → Goes E (parseConstant cfg) s r us
  | .string, ts, r => (∃ m rest, ts = .str r.1 m :: rest) ∧ ∀ cur s us, Ready E s (ts ++ us) →
      Goes E (parseString cfg cur) s (r.2.foldl (fun n p => .bin .tilde (.bin .tilde n p.1) (.str p.2)) cur) us
  | .args, ts, r => CompArgs E cfg ts r
  | .more, ts, r => CompMore E cfg ts r
  | .pairs, ts, r => CompPairs E cfg ts r
  | .iter, ts, r => ∀ s us, Ready E s (ts ++ us) → Hd E us ExprEnd → Goes E (parseIterate cfg) s r us
  | .cond, ts, r => CompCond E cfg ts r
  | .stmt, ts, r => ∀ s us, Ready E s (ts ++ us) → Hd E us (· = .semi) → Goes E (parseProgram cfg) s r us
  | .simple, ts, r => ∀ s us, Ready E s (ts ++ us) → Hd E us (fun t => t = .semi ∨ t = .lbrc) → Goes E (parseAssignOrExpr cfg) s r us
  | .lval, ts, r => ∀ s us, Ready E s (ts ++ us) → Hd E us (fun t => t = .eq ∨ t = .comma) → Goes E (parseLVal cfg) s r us
  | .lvals, ts, r => CompLvals E cfg ts r
  | .ifRest, ts, r => ∀ t s us, t = .if_ ∨ t = .elseif → Ready E s (.op t :: (ts ++ us)) → Hd E us (· = .semi) → Goes E (parseIf cfg) s r us
  | .clauses, ts, r => CompClauses E cfg ts r
  | .body, ts, r => ∀ s us, Ready E s (ts ++ us) → Goes E (parseBody cfg) s r us
  | .stmts, ts, r => CompStmts E cfg ts r

section
variable {s : PSt} {us : List TextItem}

theorem bin_of {k : Nat} {ts : List TextItem} {r : Node} (h : Comp E cfg (.bin k) ts r) (hs : Ready E s (ts ++ us)) (hu : Hd E us (Free k)) :
    Goes E (parseBin cfg k) s r us := by
  have h1 := h s us hs
  split at h1
  · rename_i hk
    refine h1 (hu.imp fun _ h => h.mono (by omega)) _ _ fun s' h3 => ?_
    rw [parseBinLoop]
    refine Goes.curtok ?_
    rw [if_neg ((h3.hd hu).2.2.2.2.2 k hk.1 le_rfl)]
    exact Goes.pure h3
  · exact h1 hu

/-- The token after a phrase that may be called. -/
def PostEnd (t : Tok) : Prop := t ≠ .rightArr ∧ t ≠ .dot ∧ t ≠ .lsqb ∧ t ≠ .lpar

theorem callLoop_end {r : Node} (hs : Ready E s us) (hu : Hd E us PostEnd) : Goes E (parseCallLoop cfg r) s r us := by
  rw [parseCallLoop]
  refine Goes.curtok ?_
  obtain ⟨h1, h2, h3, h4⟩ := hs.hd hu
  generalize s.lex.type = t at h1 h2 h3 h4
  cases t <;> first | exact Goes.pure hs | exact absurd rfl h1 | exact absurd rfl h2 | exact absurd rfl h3 | exact absurd rfl h4

theorem post_of {ts : List TextItem} {r : Node} (h : Comp E cfg .post ts r) (hs : Ready E s (ts ++ us)) (hu : Hd E us PostEnd) :
    Goes E (parseCall cfg) s r us := h s us hs _ _ fun _ h3 => callLoop_end h3 hu
end

theorem Free.post {k : Nat} {t : Tok} (h : Free k t) : PostEnd t := ⟨h.1, h.2.1, h.2.2.1, h.2.2.2.1⟩

/-- The first token is that of an expression. -/
theorem Ready.exprStart {s : PSt} {ts us : List TextItem} (h : Ready E s (ts ++ us)) (hs : Starts ts) : s.lex.type ∈ exprStarts := by
  obtain ⟨i, rest, rfl, h1, h2, -⟩ := hs.ex
  rw [(h.cons h1).2.1]; exact h2

theorem not_exprStart {s : PSt} {ts us : List TextItem} {t : Tok} (h : Ready E s (ts ++ us)) (hs : Starts ts) (ht : t ∉ exprStarts) : s.lex.type ≠ t :=
  fun e => ht (e ▸ h.exprStart hs)

theorem main_expr {ts : List TextItem} {e e' : Node} (hf : cfg.fold e = some e') (ih : Comp E cfg .tern ts e) : Comp E cfg .expr ts e' := by
  intro s us h hu
  rw [parseExpr]
  refine Goes.bind (ih s us h hu) fun s1 h1 => ?_
  rw [hf]
  exact Goes.pure h1

theorem main_tern {tc ta tb : List TextItem} {c a b : Node} (ih1 : Comp E cfg (.bin 0) tc c) (ih2 : Comp E cfg .tern ta a) (ih3 : Comp E cfg .tern tb b) :
    Comp E cfg .tern (tc ++ .op .qmark :: (ta ++ .op .colon :: tb)) (.tri c a b) := by
  intro s us h hu
  rw [parseTernary]
  have h : Ready E s (tc ++ .op .qmark :: (ta ++ .op .colon :: (tb ++ us))) := by simpa using h
  refine Goes.bind (bin_of ih1 h (by decide : Free 0 .qmark)) fun s1 h1 => Goes.ifYes h1 rfl rfl fun s2 h2 => ?_
  exact Goes.bind (ih2 s2 _ h2 (by decide : ExprEnd .colon)) fun s3 h3 => Goes.eatOp h3 fun s4 h4 => Goes.bind (ih3 s4 us h4 hu) fun s5 h5 => Goes.pure h5

theorem main_ternOne {ts : List TextItem} {e : Node} (ih : Comp E cfg (.bin 0) ts e) : Comp E cfg .tern ts e := by
  intro s us h hu
  rw [parseTernary]
  exact Goes.bind (bin_of ih h (hu.imp fun _ h => h.2)) fun s1 h1 => Goes.ifNo (h1.hd hu).1 (Goes.pure h1)

theorem main_binUp {k : Nat} {ts : List TextItem} {e : Node} (hk : k < 12) (ih : Comp E cfg (.bin (k + 1)) ts e) : Comp E cfg (.bin k) ts e := by
  intro s us h
  split
  · rename_i hr
    intro hu b vs hf
    rw [parseBin, if_pos hk]
    refine Goes.bind (bin_of ih h hu) fun s1 h1 => ?_
    rw [if_neg (by simp [hr.2])]
    exact hf s1 h1
  · rename_i hr
    intro hu
    rw [parseBin, if_pos hk]
    have hr : binRight k = true := by by_contra hc; exact hr ⟨hk, by simpa using hc⟩
    refine Goes.bind (bin_of ih h (hu.imp fun _ h => h.mono (by omega))) fun s1 h1 => ?_
    rw [if_pos hr]
    refine Goes.curtok ?_
    rw [if_neg ((h1.hd hu).2.2.2.2.2 k hk le_rfl)]
    exact Goes.pure h1

theorem main_binLeft {k : Nat} {tl tr : List TextItem} {l r : Node} {t : Tok} (ho : OpAt k .left t) (ih1 : Comp E cfg (.bin k) tl l) (ih2 : Comp E cfg (.bin (k + 1)) tr r) :
    Comp E cfg (.bin k) (tl ++ .op t :: tr) (.bin t l r) := by
  obtain ⟨hk, hm, hr, hf⟩ := opAt_free ho
  have hr : binRight k = false := hr
  intro s us h
  rw [if_pos ⟨hk, hr⟩]
  intro hu b vs hb
  have h : Ready E s (tl ++ .op t :: (tr ++ us)) := by simpa using h
  have h1 := ih1 s _ h
  rw [if_pos ⟨hk, hr⟩] at h1
  refine h1 hf b vs fun s1 h1 => ?_
  rw [parseBinLoop]
  refine Goes.curtok ?_
  rw [h1.op, if_pos hm]
  exact Goes.eatOp h1 fun s2 h2 => Goes.bind (bin_of ih2 h2 hu) fun s3 h3 => hb s3 h3

theorem main_binRight {k : Nat} {tl tr : List TextItem} {l r : Node} {t : Tok} (ho : OpAt k .right t) (ih1 : Comp E cfg (.bin (k + 1)) tl l) (ih2 : Comp E cfg (.bin k) tr r) :
    Comp E cfg (.bin k) (tl ++ .op t :: tr) (.bin t l r) := by
  obtain ⟨hk, hm, hr, hf⟩ := opAt_free ho
  have hr : binRight k = true := hr
  intro s us h
  rw [if_neg (by simp [hr])]
  intro hu
  have h : Ready E s (tl ++ .op t :: (tr ++ us)) := by simpa using h
  rw [parseBin, if_pos hk]
  refine Goes.bind (bin_of ih1 h hf) fun s1 h1 => ?_
  rw [if_pos hr]
  refine Goes.curtok ?_
  rw [h1.op, if_pos hm]
  exact Goes.eatOp h1 fun s2 h2 => Goes.bind (bin_of ih2 h2 hu) fun s3 h3 => Goes.pure h3

theorem main_binUnary {ts : List TextItem} {e : Node} (ih : Comp E cfg .unary ts e) : Comp E cfg (.bin 12) ts e := by
  intro s us h
  rw [if_neg (by simp)]
  intro hu
  rw [parseBin, if_neg (by simp)]
  exact ih s us h hu

theorem main_unaryOne {ts : List TextItem} {e : Node} (hs : AtomCat .power ts) (ih : Comp E cfg .power ts e) : Comp E cfg .unary ts e := by
  intro s us h hu
  rw [parseUnary]
  refine Goes.curtok ?_
  have ht : s.lex.type ∈ atomStarts := by
    obtain ⟨i, rest, rfl, h1, h2⟩ := hs
    rw [(h.cons h1).2.1]; exact h2
  rw [if_neg (by rintro (e | e | e | e | e) <;> rw [e] at ht <;> revert ht <;> decide)]
  exact ih s us h hu

theorem main_unary {ts : List TextItem} {e : Node} {t : Tok} (ht : t ∈ unaryOps) (ih : Comp E cfg .unary ts e) : Comp E cfg .unary (.op t :: ts) (.un t e) := by
  intro s us h hu
  rw [parseUnary]
  refine Goes.curtok ?_
  have h : Ready E s (.op t :: (ts ++ us)) := h
  rw [h.op, if_pos (by simpa [unaryOps] using ht)]
  exact Goes.eatOp h fun s1 h1 => Goes.bind (ih s1 us h1 hu) fun s2 h2 => Goes.pure h2

theorem main_powerOne {ts : List TextItem} {e : Node} (ih : Comp E cfg .post ts e) : Comp E cfg .power ts e := by
  intro s us h hu
  rw [parsePower]
  exact Goes.bind (post_of ih h (hu.imp fun _ h => h.post)) fun s1 h1 => Goes.ifNo (h1.hd hu).2.2.2.2.1 (Goes.pure h1)

theorem main_power {tl tr : List TextItem} {l r : Node} (ih1 : Comp E cfg .post tl l) (ih2 : Comp E cfg .unary tr r) :
    Comp E cfg .power (tl ++ .op .dstar :: tr) (.bin .dstar l r) := by
  intro s us h hu
  rw [parsePower]
  have h : Ready E s (tl ++ .op .dstar :: (tr ++ us)) := by simpa using h
  exact Goes.bind (post_of ih1 h (by unfold Hd PostEnd; simp [TextItem.type])) fun s1 h1 => Goes.ifYes h1 rfl rfl fun s2 h2 => Goes.bind (ih2 s2 us h2 hu) fun s3 h3 => Goes.pure h3

theorem main_postOne {ts : List TextItem} {e : Node} (ih : Comp E cfg .atom ts e) : Comp E cfg .post ts e := by
  intro s us h b vs hf
  rw [parseCall]
  exact Goes.bind (ih s us h) fun s1 h1 => hf s1 h1

theorem main_call {tf ta : List TextItem} {f : Node} {as : List Node} (ih1 : Comp E cfg .post tf f) (ih2 : CompArgs E cfg ta as) :
    Comp E cfg .post (tf ++ .op .lpar :: (ta ++ [.op .rpar])) (.call f (lastSpread (-1) as)) := by
  intro s us h b vs hf
  have h : Ready E s (tf ++ .op .lpar :: (ta ++ .op .rpar :: us)) := by simpa using h
  refine ih1 s _ h b vs fun s1 h1 => ?_
  rw [parseCallLoop]
  refine Goes.curtok ?_
  rw [h1.op]
  refine Goes.eatOp h1 fun s2 h2 => Goes.bind (ih2 [] s2 _ h2 rfl) fun s3 h3 => Goes.eatOp h3 fun s4 h4 => ?_
  rw [lastSpread_eq] at hf
  exact hf s4 h4

theorem main_mcall {tq tm ta : List TextItem} {o : Node} {m : Name} {as : List Node} (ih1 : Comp E cfg .post tq o) (ih2 : Comp E cfg .atom tm (.var m))
    (ih3 : CompArgs E cfg ta as) :
    Comp E cfg .post (tq ++ .op .rightArr :: (tm ++ .op .lpar :: (ta ++ [.op .rpar]))) (.mcall o m (lastSpread (-1) as)) := by
  intro s us h b vs hf
  have h : Ready E s (tq ++ .op .rightArr :: (tm ++ .op .lpar :: (ta ++ .op .rpar :: us))) := by simpa using h
  refine ih1 s _ h b vs fun s1 h1 => ?_
  rw [parseCallLoop]
  refine Goes.curtok ?_
  rw [h1.op]
  refine Goes.eatOp h1 fun s2 h2 => Goes.bind (ih2 s2 _ h2) fun s2' h2' => Goes.eatOp h2' fun s2'' h2'' => Goes.bind (ih3 [] s2'' _ h2'' rfl) fun s3 h3 =>
    Goes.eatOp h3 fun s4 h4 => ?_
  rw [lastSpread_eq] at hf
  exact hf s4 h4

theorem main_dot {tc tm : List TextItem} {c : Node} {m : Name} (ih1 : Comp E cfg .post tc c) (ih2 : Comp E cfg .atom tm (.var m)) :
    Comp E cfg .post (tc ++ .op .dot :: tm) (.get c (.str m)) := by
  intro s us h b vs hf
  have h : Ready E s (tc ++ .op .dot :: (tm ++ us)) := by simpa using h
  refine ih1 s _ h b vs fun s1 h1 => ?_
  rw [parseCallLoop]
  refine Goes.curtok ?_
  rw [h1.op]
  exact Goes.eatOp h1 fun s2 h2 => Goes.bind (ih2 s2 _ h2) fun s3 h3 => hf s3 h3

theorem main_dotCall {tc tm : List TextItem} {c f k v : Node} {as : List Node} (ih1 : Comp E cfg .post tc c) (ih2 : Comp E cfg .atom tm (.call f (k :: v :: as))) :
    Comp E cfg .post (tc ++ .op .dot :: tm) (.set c k (some v)) := by
  intro s us h b vs hf
  have h : Ready E s (tc ++ .op .dot :: (tm ++ us)) := by simpa using h
  refine ih1 s _ h b vs fun s1 h1 => ?_
  rw [parseCallLoop]
  refine Goes.curtok ?_
  rw [h1.op]
  exact Goes.eatOp h1 fun s2 h2 => Goes.bind (ih2 s2 _ h2) fun s3 h3 => hf s3 h3

theorem main_index {tc tk : List TextItem} {c k : Node} (hs : Starts tk) (ih1 : Comp E cfg .post tc c) (ih2 : Comp E cfg .expr tk k) :
    Comp E cfg .post (tc ++ .op .lsqb :: (tk ++ [.op .rsqb])) (.get c k) := by
  intro s us h b vs hf
  have h : Ready E s (tc ++ .op .lsqb :: (tk ++ .op .rsqb :: us)) := by simpa using h
  refine ih1 s _ h b vs fun s1 h1 => ?_
  rw [parseCallLoop]
  refine Goes.curtok ?_
  rw [h1.op]
  refine Goes.eatOp h1 fun s2 h2 => Goes.ifNo (not_exprStart h2 hs (by decide)) (Goes.bind (ih2 s2 _ h2 (by decide : ExprEnd .rsqb)) fun s3 h3 => ?_)
  exact Goes.ifNo (by rw [h3.op]; decide) (Goes.eatOp h3 fun s4 h4 => hf s4 h4)

theorem main_slice {tc ta tb : List TextItem} {c x y : Node} (hs : Starts ta) (hs2 : Starts tb) (ih1 : Comp E cfg .post tc c) (ih2 : Comp E cfg .expr ta x)
    (ih3 : Comp E cfg .expr tb y) : Comp E cfg .post (tc ++ .op .lsqb :: (ta ++ .op .colon :: (tb ++ [.op .rsqb]))) (.slice c x y) := by
  intro s us h b vs hf
  have h : Ready E s (tc ++ .op .lsqb :: (ta ++ .op .colon :: (tb ++ .op .rsqb :: us))) := by simpa using h
  refine ih1 s _ h b vs fun s1 h1 => ?_
  rw [parseCallLoop]
  refine Goes.curtok ?_
  rw [h1.op]
  refine Goes.eatOp h1 fun s2 h2 => Goes.ifNo (not_exprStart h2 hs (by decide)) (Goes.bind (ih2 s2 _ h2 (by decide : ExprEnd .colon)) fun s3 h3 => ?_)
  refine Goes.ifYes h3 rfl rfl fun s4 h4 => Goes.curtok ?_
  rw [if_neg (not_exprStart h4 hs2 (by decide))]
  exact Goes.bind (ih3 s4 _ h4 (by decide : ExprEnd .rsqb)) fun s5 h5 => Goes.eatOp h5 fun s6 h6 => hf s6 h6

theorem main_sliceFrom {tc ta : List TextItem} {c x : Node} (hs : Starts ta) (ih1 : Comp E cfg .post tc c) (ih2 : Comp E cfg .expr ta x) :
    Comp E cfg .post (tc ++ .op .lsqb :: (ta ++ [.op .colon, .op .rsqb])) (.slice c x .undef) := by
  intro s us h b vs hf
  have h : Ready E s (tc ++ .op .lsqb :: (ta ++ .op .colon :: .op .rsqb :: us)) := by simpa using h
  refine ih1 s _ h b vs fun s1 h1 => ?_
  rw [parseCallLoop]
  refine Goes.curtok ?_
  rw [h1.op]
  refine Goes.eatOp h1 fun s2 h2 => Goes.ifNo (not_exprStart h2 hs (by decide)) (Goes.bind (ih2 s2 _ h2 (by decide : ExprEnd .colon)) fun s3 h3 => ?_)
  refine Goes.ifYes h3 rfl rfl fun s4 h4 => Goes.curtok ?_
  rw [if_pos h4.op]
  exact Goes.eatOp h4 fun s6 h6 => hf s6 h6

theorem main_sliceTo {tc tb : List TextItem} {c y : Node} (hs2 : Starts tb) (ih1 : Comp E cfg .post tc c) (ih3 : Comp E cfg .expr tb y) :
    Comp E cfg .post (tc ++ .op .lsqb :: .op .colon :: (tb ++ [.op .rsqb])) (.slice c .undef y) := by
  intro s us h b vs hf
  have h : Ready E s (tc ++ .op .lsqb :: .op .colon :: (tb ++ .op .rsqb :: us)) := by simpa using h
  refine ih1 s _ h b vs fun s1 h1 => ?_
  rw [parseCallLoop]
  refine Goes.curtok ?_
  rw [h1.op]
  refine Goes.eatOp h1 fun s2 h2 => Goes.ifYes h2 rfl rfl fun s4 h4 => Goes.curtok ?_
  rw [if_neg (not_exprStart h4 hs2 (by decide))]
  exact Goes.bind (ih3 s4 _ h4 (by decide : ExprEnd .rsqb)) fun s5 h5 => Goes.eatOp h5 fun s6 h6 => hf s6 h6

theorem main_sliceAll {tc : List TextItem} {c : Node} (ih1 : Comp E cfg .post tc c) :
    Comp E cfg .post (tc ++ [.op .lsqb, .op .colon, .op .rsqb]) (.slice c .undef .undef) := by
  intro s us h b vs hf
  have h : Ready E s (tc ++ .op .lsqb :: .op .colon :: .op .rsqb :: us) := by simpa using h
  refine ih1 s _ h b vs fun s1 h1 => ?_
  rw [parseCallLoop]
  refine Goes.curtok ?_
  rw [h1.op]
  refine Goes.eatOp h1 fun s2 h2 => Goes.ifYes h2 rfl rfl fun s4 h4 => Goes.curtok ?_
  rw [if_pos h4.op]
  exact Goes.eatOp h4 fun s6 h6 => hf s6 h6

end Yasl
