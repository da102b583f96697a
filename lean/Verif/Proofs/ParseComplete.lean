import Verif.Proofs.ParseGoes
set_option autoImplicit false
/-! # Proofs about the parser: what is in the grammar is parsed -/
namespace Yasl
variable {E : Lex} {cfg : ParseCfg}

theorem params_goes {ts : List TextItem} {ps : List Node} (h : Params ts ps) : ∀ (acc : List Node) (s : PSt) (us : List TextItem), Ready E s (ts ++ us) →
    Hd E us (· = .rpar) → Goes E (parseParams acc) s (acc ++ ps) us := by
  induction h with
  | nil =>
    intro acc s us h hu
    rw [parseParams]
    refine Goes.curtok ?_
    rw [h.hd hu, if_neg (by decide), if_neg (by decide), List.append_nil]
    exact Goes.pure h
  | let_ =>
    intro acc s us h hu
    rw [parseParams]
    refine Goes.curtok ?_
    rw [if_pos h.word]
    exact Goes.name h fun s1 h1 => Goes.ifNo (by rw [h1.hd hu]; decide) (Goes.pure h1)
  | const_ =>
    intro acc s us h hu
    rw [parseParams]
    refine Goes.curtok ?_
    rw [h.op, if_neg (by decide), if_pos rfl]
    exact Goes.eatOp h fun s0 h0 => Goes.name h0 fun s1 h1 => Goes.ifNo (by rw [h1.hd hu]; decide) (Goes.pure h1)
  | @letMore x ts ps _ ih =>
    intro acc s us h hu
    rw [parseParams]
    refine Goes.curtok ?_
    rw [if_pos h.word]
    refine Goes.name h fun s1 h1 => Goes.ifYes h1 rfl rfl fun s2 h2 => ?_
    have := ih (acc ++ [.let_ x none]) s2 us h2 hu
    simpa using this
  | @constMore x ts ps _ ih =>
    intro acc s us h hu
    rw [parseParams]
    refine Goes.curtok ?_
    rw [h.op, if_neg (by decide), if_pos rfl]
    refine Goes.eatOp h fun s0 h0 => Goes.name h0 fun s1 h1 => Goes.ifYes h1 rfl rfl fun s2 h2 => ?_
    have := ih (acc ++ [.const_ x none]) s2 us h2 hu
    simpa using this

/-! ## Words -/
section
variable {s : PSt} {us : List TextItem} {v : List Byte}

theorem value_int (h : Ready E s (.word .int v :: us)) : s.lex.value = v := by
  obtain ⟨h1, h2, -, -⟩ := h.cons rfl
  have h2 : s.lex.type = .int := h2
  unfold Lex.item at h1
  rw [h2] at h1
  simpa using h1

theorem value_float (h : Ready E s (.word .float v :: us)) : s.lex.value = v := by
  obtain ⟨h1, h2, -, -⟩ := h.cons rfl
  have h2 : s.lex.type = .float := h2
  unfold Lex.item at h1
  rw [h2] at h1
  simpa using h1

theorem value_bool (h : Ready E s (.word .bool v :: us)) : s.lex.value = v := by
  obtain ⟨h1, h2, -, -⟩ := h.cons rfl
  have h2 : s.lex.type = .bool := h2
  unfold Lex.item at h1
  rw [h2] at h1
  simpa using h1

theorem value_str {m : Bool} (h : Ready E s (.str v m :: us)) : s.lex.value = v ∧ s.lex.interp = m := by
  obtain ⟨h1, h2, -, -⟩ := h.cons rfl
  have h2 : s.lex.type = .str := h2
  unfold Lex.item at h1
  rw [h2] at h1
  simpa using h1

theorem parseInteger_goes (h : Ready E s (.word .int v :: us)) : Goes E parseInteger s (getInt v) us := by
  unfold parseInteger
  refine Goes.getLex ?_
  rw [value_int h]
  exact Goes.eat h rfl rfl fun s1 h1 => Goes.pure h1

theorem parseFloat_goes (h : Ready E s (.word .float v :: us)) : Goes E (parseFloat cfg) s (cfg.strtod v) us := by
  unfold parseFloat
  refine Goes.getLex ?_
  rw [value_float h]
  exact Goes.eat h rfl rfl fun s1 h1 => Goes.pure h1

theorem parseBoolean_goes (h : Ready E s (.word .bool v :: us)) : Goes E parseBoolean s (v == word "true") us := by
  unfold parseBoolean
  refine Goes.getLex ?_
  rw [value_bool h]
  exact Goes.eat h rfl rfl fun s1 h1 => Goes.pure h1
end

/-! ## Patterns -/

/-- What is proved of each category of patterns. -/
def PComp (E : Lex) (cfg : ParseCfg) : (c : PCat) → List TextItem → c.Res → Prop
  | .key, ts, r => ∀ s us, Ready E s (ts ++ us) → Goes E (parsePrimitivePattern cfg) s r us
  | .single, ts, r => ∀ s us, Ready E s (ts ++ us) → Goes E (parsePatternSingle cfg) s r us
  | .pat, ts, r => ∀ s us, Ready E s (ts ++ us) → Hd E us (· ≠ .bar) → Goes E (parsePattern cfg) s r us
  | .pairs, ts, r => ∀ acc s us, Ready E s (ts ++ us) → Hd E us (fun t => t = .semi ∨ t = .rbrc) → Goes E (parseTablePats cfg acc) s (r.1, acc ++ r.2) us
  | .pats, ts, r => ∀ acc s us, Ready E s (ts ++ us) → Hd E us (fun t => t = .semi ∨ t = .rsqb) → Goes E (parseListPats cfg acc) s (r.1, acc ++ r.2) us

/-- Two rows of ends of lines with something in between: if there is nothing in between, they are one. -/
theorem newlines_split (n1 tm n2 : List TextItem) (h1 : Newlines n1) (h2 : Newlines n2) : ∃ m1 m2, Newlines m1 ∧ Newlines m2 ∧ n1 ++ (tm ++ n2) = m1 ++ (tm ++ m2) ∧ (tm = [] → m2 = []) := by
  by_cases ht : tm = []
  · subst ht
    exact ⟨n1 ++ n2, [], fun i hi => by rcases List.mem_append.1 hi with hi | hi; exacts [h1 i hi, h2 i hi], fun i hi => by simp at hi, by simp, fun _ => rfl⟩
  · exact ⟨n1, n2, h1, h2, rfl, fun h => absurd h ht⟩

theorem pgram_goes {c : PCat} {ts : List TextItem} {r : c.Res} (h : PGram cfg.strtod c ts r) : PComp E cfg c ts r := by
  induction h with
  | int =>
    intro s us h
    rw [parsePrimitivePattern]
    refine Goes.curtok ?_
    rw [(h.cons rfl).2.1]
    exact Goes.bind (parseInteger_goes h) fun s1 h1 => Goes.pure h1
  | float =>
    intro s us h
    rw [parsePrimitivePattern]
    refine Goes.curtok ?_
    rw [(h.cons rfl).2.1]
    exact Goes.bind (parseFloat_goes h) fun s1 h1 => Goes.pure h1
  | bool =>
    intro s us h
    rw [parsePrimitivePattern]
    refine Goes.curtok ?_
    rw [(h.cons rfl).2.1]
    exact Goes.bind (parseBoolean_goes h) fun s1 h1 => Goes.pure h1
  | negInt =>
    intro s us h
    rw [parsePrimitivePattern]
    refine Goes.curtok ?_
    rw [(h.cons rfl).2.1]
    refine Goes.eatOp h fun s1 h1 => Goes.curtok ?_
    rw [(h1.cons rfl).2.1]
    exact Goes.bind (parseInteger_goes h1) fun s1 h1 => Goes.pure h1
  | negFloat =>
    intro s us h
    rw [parsePrimitivePattern]
    refine Goes.curtok ?_
    rw [(h.cons rfl).2.1]
    refine Goes.eatOp h fun s1 h1 => Goes.curtok ?_
    rw [(h1.cons rfl).2.1]
    exact Goes.bind (parseFloat_goes h1) fun s1 h1 => Goes.pure h1
  | str =>
    intro s us h
    rw [parsePrimitivePattern]
    refine Goes.curtok ?_
    rw [(h.cons rfl).2.1]
    refine Goes.getLex ?_
    obtain ⟨h1, h2⟩ := value_str h
    rw [h1, h2]
    exact Goes.eat h rfl rfl fun s1 h1 => Goes.pure h1
  | dot =>
    intro s us h
    rw [parsePrimitivePattern]
    refine Goes.curtok ?_
    rw [(h.cons rfl).2.1]
    exact Goes.eatOp h fun s1 h1 => Goes.name h1 fun s2 h2 => Goes.pure h2
  | tbool | tint | tfloat | tstr | tlist | ttable =>
    intro s us h
    rw [parsePrimitivePattern]
    refine Goes.curtok ?_
    rw [(h.cons rfl).2.1]
    exact Goes.name h fun s2 h2 => Goes.pure h2
  | @key ts p hp ih =>
    intro s us h
    rw [parsePatternSingle]
    refine Goes.curtok ?_
    have hk : ∃ i rest, ts = i :: rest ∧ i.isTok = true ∧ i.type ∈ [Tok.int, .float, .bool, .minus, .str, .dot, .id] := by
      cases hp <;> exact ⟨_, _, rfl, rfl, by simp [TextItem.type]⟩
    obtain ⟨i, rest, rfl, hi, ht⟩ := hk
    have hg := ih s us h
    rw [(h.cons hi).2.1]
    simp only [List.mem_cons, List.not_mem_nil, or_false] at ht
    rcases ht with ht | ht | ht | ht | ht | ht | ht <;> rw [ht] <;> exact hg
  | any =>
    intro s us h
    rw [parsePatternSingle]
    refine Goes.curtok ?_
    rw [(h.cons rfl).2.1]
    exact Goes.eatOp h fun s1 h1 => Goes.pure h1
  | undef =>
    intro s us h
    rw [parsePatternSingle]
    refine Goes.curtok ?_
    rw [(h.cons rfl).2.1]
    exact Goes.eatOp h fun s1 h1 => Goes.pure h1
  | let_ =>
    intro s us h
    rw [parsePatternSingle]
    refine Goes.curtok ?_
    rw [(h.cons rfl).2.1]
    exact Goes.eatOp h fun s1 h1 => Goes.name h1 fun s2 h2 => Goes.pure h2
  | const_ =>
    intro s us h
    rw [parsePatternSingle]
    refine Goes.curtok ?_
    rw [(h.cons rfl).2.1]
    exact Goes.eatOp h fun s1 h1 => Goes.name h1 fun s2 h2 => Goes.pure h2
  | tableEmpty =>
    intro s us h
    rw [parsePatternSingle]
    refine Goes.curtok ?_
    rw [(h.cons rfl).2.1]
    refine Goes.eatOp h fun s1 h1 => Goes.ifNo (by rw [(h1.cons rfl).2.1]; decide) (Goes.curtok ?_)
    rw [(h1.cons rfl).2.1, if_neg (by decide)]
    exact Goes.eatOp h1 fun s2 h2 => Goes.pure h2
  | tableRest =>
    intro s us h
    rw [parsePatternSingle]
    refine Goes.curtok ?_
    rw [(h.cons rfl).2.1]
    exact Goes.eatOp h fun s1 h1 => Goes.ifYes h1 rfl rfl fun s2 h2 => Goes.eatOp h2 fun s3 h3 => Goes.pure h3
  | @table tk tp n1 tr n2 k p rest ps hk hp hn1 hr hn2 ihk ihp ihr =>
    intro s us h
    rw [parsePatternSingle]
    refine Goes.curtok ?_
    rw [(h.cons rfl).2.1]
    obtain ⟨m1, m2, hm1, hm2, hme, hm0⟩ := newlines_split n1 tr n2 hn1 hn2
    refine Goes.eatOp h fun s1 h1 => ?_
    obtain ⟨i, ri, rfl, hi, hit⟩ := pgram_starts hk
    have ht1 := (h1.cons hi).2.1
    refine Goes.ifNo (by rw [ht1]; intro hc; rw [hc] at hit; revert hit; decide) (Goes.curtok ?_)
    rw [if_pos (by rw [ht1]; intro hc; rw [hc] at hit; revert hit; decide)]
    have e : (((i :: ri) ++ .op .colon :: (tp ++ (n1 ++ (tr ++ (n2 ++ [.op .rbrc]))))) ++ us) =
        (i :: ri) ++ .op .colon :: (tp ++ (m1 ++ (tr ++ (m2 ++ .op .rbrc :: us)))) := by
      have : n1 ++ (tr ++ (n2 ++ .op .rbrc :: us)) = m1 ++ (tr ++ (m2 ++ .op .rbrc :: us)) := by
        have := congrArg (· ++ (.op .rbrc :: us)) hme
        simpa using this
      simpa using this
    have h1' : Ready E s1 ((i :: ri) ++ .op .colon :: (tp ++ (m1 ++ (tr ++ (m2 ++ .op .rbrc :: us))))) := by rw [← e]; exact h1
    have hst : Stops (tr ++ (m2 ++ .op .rbrc :: us)) := by
      rcases pgram_starts hr with h0 | ⟨r, h0⟩
      · subst h0; rw [hm0 rfl]; exact ⟨_, _, rfl, by simp⟩
      · subst h0; exact ⟨_, _, rfl, by simp⟩
    refine Goes.bind (ihk s1 _ h1') fun s2 h2 => Goes.eatOp h2 fun s3 h3 => Goes.bind (ihp s3 _ h3 ?_) fun s4 h4 => Goes.newlines h4 hm1 hst fun s5 h5 =>
      Goes.bind (ihr _ s5 _ h5 (Hd.newlines hm2 (.inl rfl) (.inr rfl))) fun s6 h6 => Goes.newlines h6 hm2 ⟨_, _, rfl, by simp⟩ fun s7 h7 =>
      Goes.eatOp h7 fun s8 h8 => Goes.pure h8
    refine Hd.newlines hm1 (by decide) ?_
    obtain ⟨j, rj, e2, hj⟩ := hst
    rw [e2]
    rcases hj with rfl | rfl | rfl | rfl <;> simp [Hd, TextItem.type]
  | listEmpty =>
    intro s us h
    rw [parsePatternSingle]
    refine Goes.curtok ?_
    rw [(h.cons rfl).2.1]
    refine Goes.eatOp h fun s1 h1 => Goes.ifNo (by rw [(h1.cons rfl).2.1]; decide) (Goes.curtok ?_)
    rw [(h1.cons rfl).2.1, if_neg (by decide)]
    exact Goes.eatOp h1 fun s2 h2 => Goes.pure h2
  | listRest =>
    intro s us h
    rw [parsePatternSingle]
    refine Goes.curtok ?_
    rw [(h.cons rfl).2.1]
    exact Goes.eatOp h fun s1 h1 => Goes.ifYes h1 rfl rfl fun s2 h2 => Goes.eatOp h2 fun s3 h3 => Goes.pure h3
  | @list tp n1 tr n2 p rest ps hp hn1 hr hn2 ihp ihr =>
    intro s us h
    rw [parsePatternSingle]
    refine Goes.curtok ?_
    rw [(h.cons rfl).2.1]
    obtain ⟨m1, m2, hm1, hm2, hme, hm0⟩ := newlines_split n1 tr n2 hn1 hn2
    refine Goes.eatOp h fun s1 h1 => ?_
    obtain ⟨i, ri, rfl, hi, hit⟩ := pgram_starts hp
    have ht1 := (h1.cons hi).2.1
    refine Goes.ifNo (by rw [ht1]; intro hc; rw [hc] at hit; revert hit; decide) (Goes.curtok ?_)
    rw [if_pos (by rw [ht1]; intro hc; rw [hc] at hit; revert hit; decide)]
    have e : (((i :: ri) ++ (n1 ++ (tr ++ (n2 ++ [.op .rsqb])))) ++ us) = (i :: ri) ++ (m1 ++ (tr ++ (m2 ++ .op .rsqb :: us))) := by
      have : n1 ++ (tr ++ (n2 ++ .op .rsqb :: us)) = m1 ++ (tr ++ (m2 ++ .op .rsqb :: us)) := by
        have := congrArg (· ++ (.op .rsqb :: us)) hme
        simpa using this
      simpa using this
    have h1' : Ready E s1 ((i :: ri) ++ (m1 ++ (tr ++ (m2 ++ .op .rsqb :: us)))) := by rw [← e]; exact h1
    have hst : Stops (tr ++ (m2 ++ .op .rsqb :: us)) := by
      rcases pgram_starts hr with h0 | ⟨r, h0⟩
      · subst h0; rw [hm0 rfl]; exact ⟨_, _, rfl, by simp⟩
      · subst h0; exact ⟨_, _, rfl, by simp⟩
    refine Goes.bind (ihp s1 _ h1' ?_) fun s4 h4 => Goes.newlines h4 hm1 hst fun s5 h5 =>
      Goes.bind (ihr _ s5 _ h5 (Hd.newlines hm2 (.inl rfl) (.inr rfl))) fun s6 h6 => Goes.newlines h6 hm2 ⟨_, _, rfl, by simp⟩ fun s7 h7 =>
      Goes.eatOp h7 fun s8 h8 => Goes.pure h8
    refine Hd.newlines hm1 (by decide) ?_
    obtain ⟨j, rj, e2, hj⟩ := hst
    rw [e2]
    rcases hj with rfl | rfl | rfl | rfl <;> simp [Hd, TextItem.type]
  | @paren ts p _ ih =>
    intro s us h
    have h : Ready E s (.op .lpar :: (ts ++ .op .rpar :: us)) := by simpa using h
    rw [parsePatternSingle]
    refine Goes.curtok ?_
    rw [(h.cons rfl).2.1]
    refine Goes.eatOp h fun s1 h1 => ?_
    exact Goes.bind (ih s1 _ h1 (by decide : Tok.rpar ≠ .bar)) fun s2 h2 => Goes.eatOp h2 fun s3 h3 => Goes.pure h3
  | one _ ih =>
    intro s us h hu
    rw [parsePattern]
    exact Goes.bind (ih s us h) fun s1 h1 => Goes.ifNo (h1.hd hu) (Goes.pure h1)
  | alt _ _ ih1 ih2 =>
    intro s us h hu
    rw [parsePattern]
    rw [List.append_assoc] at h
    exact Goes.bind (ih1 s _ h) fun s1 h1 => Goes.ifYes h1 rfl rfl fun s2 h2 => Goes.bind (ih2 s2 us h2 hu) fun s3 h3 => Goes.pure h3
  | pairsEnd =>
    intro acc s us h hu
    rw [parseTablePats]
    refine Goes.ifNo ?_ ?_
    · rcases h.hd hu with h | h <;> rw [h] <;> decide
    · simpa using Goes.pure h
  | pairsRest =>
    intro acc s us h hu
    rw [parseTablePats]
    refine Goes.ifYes h rfl rfl fun s1 h1 => Goes.ifYes h1 rfl rfl fun s2 h2 => ?_
    simpa using Goes.pure h2
  | @pairs tk tp tr k p rest ps hk hp hr ihk ihp ihr =>
    intro acc s us h hu
    rw [parseTablePats]
    have h : Ready E s (.op .comma :: (tk ++ .op .colon :: (tp ++ (tr ++ us)))) := by simpa using h
    refine Goes.ifYes h rfl rfl fun s1 h1 => ?_
    have hnt : s1.lex.type ≠ .tdot := by
      obtain ⟨i, ri, rfl, hi, hit⟩ := pgram_starts hk
      rw [(h1.cons hi).2.1]; intro hc; rw [hc] at hit; revert hit; decide
    refine Goes.ifNo hnt (Goes.bind (ihk s1 _ h1) fun s2 h2 => Goes.eatOp h2 fun s3 h3 => Goes.bind (ihp s3 _ h3 ?_) fun s4 h4 => ?_)
    · rcases pgram_starts hr with h0 | ⟨r, h0⟩
      · subst h0; exact Hd.imp (us := us) hu (by rintro t (rfl | rfl) <;> decide)
      · subst h0; exact (by decide : Tok.comma ≠ .bar)
    · have := ihr (acc ++ [k, p]) s4 us h4 hu
      simpa using this
  | patsEnd =>
    intro acc s us h hu
    rw [parseListPats]
    refine Goes.ifNo ?_ ?_
    · rcases h.hd hu with h | h <;> rw [h] <;> decide
    · simpa using Goes.pure h
  | patsRest =>
    intro acc s us h hu
    rw [parseListPats]
    refine Goes.ifYes h rfl rfl fun s1 h1 => Goes.ifYes h1 rfl rfl fun s2 h2 => ?_
    simpa using Goes.pure h2
  | @pats tp tr p rest ps hp hr ihp ihr =>
    intro acc s us h hu
    rw [parseListPats]
    have h : Ready E s (.op .comma :: (tp ++ (tr ++ us))) := by simpa using h
    refine Goes.ifYes h rfl rfl fun s1 h1 => ?_
    have hnt : s1.lex.type ≠ .tdot := by
      obtain ⟨i, ri, rfl, hi, hit⟩ := pgram_starts hp
      rw [(h1.cons hi).2.1]; intro hc; rw [hc] at hit; revert hit; decide
    refine Goes.ifNo hnt (Goes.bind (ihp s1 _ h1 ?_) fun s4 h4 => ?_)
    · rcases pgram_starts hr with h0 | ⟨r, h0⟩
      · subst h0; exact Hd.imp (us := us) hu (by rintro t (rfl | rfl) <;> decide)
      · subst h0; exact (by decide : Tok.comma ≠ .bar)
    · have := ihr (acc ++ [p]) s4 us h4 hu
      simpa using this

end Yasl
