import Verif.Proofs.ParseMain
set_option autoImplicit false
/-! # Proofs about the parser: what is in the grammar is parsed: the rest of the expressions -/
namespace Yasl
variable {E : Lex} {cfg : ParseCfg}

theorem main_field {x : Name} : Comp E cfg .atom [.op .dot, .word .id x] (.str x) := by
  intro s us h
  rw [parseConstant]
  refine Goes.curtok ?_
  have h : Ready E s (.op .dot :: .word .id x :: us) := h
  rw [h.op]
  exact Goes.eatOp h fun s1 h1 => Goes.name h1 fun s2 h2 => Goes.pure h2

theorem main_var {x : Name} : Comp E cfg .atom [.word .id x] (.var x) := by
  intro s us h
  rw [parseConstant]
  refine Goes.curtok ?_
  have h : Ready E s (.word .id x :: us) := h
  rw [h.word]
  dsimp only
  rw [parseId]
  exact Goes.name h fun s2 h2 => Goes.pure h2

theorem main_paren {ts : List TextItem} {e : Node} (ih : Comp E cfg .expr ts e) : Comp E cfg .atom (.op .lpar :: (ts ++ [.op .rpar])) e := by
  intro s us h
  rw [parseConstant]
  refine Goes.curtok ?_
  have h : Ready E s (.op .lpar :: (ts ++ .op .rpar :: us)) := by simpa using h
  rw [h.op]
  exact Goes.eatOp h fun s1 h1 => Goes.bind (ih s1 _ h1 (by decide : ExprEnd .rpar)) fun s2 h2 => Goes.eatOp h2 fun s3 h3 => Goes.pure h3

theorem main_int {v : List Byte} : Comp E cfg .atom [.word .int v] (.int (getInt v)) := by
  intro s us h
  rw [parseConstant]
  refine Goes.curtok ?_
  have h : Ready E s (.word .int v :: us) := h
  rw [h.word]
  exact Goes.bind (parseInteger_goes h) fun s2 h2 => Goes.pure h2

theorem main_float {v : List Byte} : Comp E cfg .atom [.word .float v] (.float (cfg.strtod v)) := by
  intro s us h
  rw [parseConstant]
  refine Goes.curtok ?_
  have h : Ready E s (.word .float v :: us) := h
  rw [h.word]
  exact Goes.bind (parseFloat_goes h) fun s2 h2 => Goes.pure h2

theorem main_bool {v : List Byte} : Comp E cfg .atom [.word .bool v] (.bool (v == word "true")) := by
  intro s us h
  rw [parseConstant]
  refine Goes.curtok ?_
  have h : Ready E s (.word .bool v :: us) := h
  rw [h.word]
  exact Goes.bind (parseBoolean_goes h) fun s2 h2 => Goes.pure h2

theorem main_undef : Comp E cfg .atom [.op .undef] .undef := by
  intro s us h
  rw [parseConstant]
  refine Goes.curtok ?_
  have h : Ready E s (.op .undef :: us) := h
  rw [h.op]
  exact Goes.eatOp h fun s1 h1 => Goes.pure h1

theorem main_string {ts : List TextItem} {v : List Byte} {ps : List (Node × List Byte)} (ih : Comp E cfg .string ts (v, ps)) : Comp E cfg .atom ts (interpolated v ps) := by
  intro s us h
  obtain ⟨⟨m, rest, h0⟩, hf⟩ := ih
  have h0 : ts = .str v m :: rest := h0
  rw [parseConstant]
  refine Goes.curtok ?_
  have h1 : Ready E s (.str v m :: (rest ++ us)) := by rw [h0] at h; exact h
  rw [show s.lex.type = .str from (h1.cons rfl).2.1]
  refine Goes.getLex ?_
  rw [(value_str h1).1]
  exact hf (.str v) s us h

theorem main_fn {tp tb : List TextItem} {ps ss : List Node} (hp : Params tp ps) (ih : Comp E cfg .body tb ss) :
    Comp E cfg .atom (.op .fn :: .op .lpar :: (tp ++ .op .rpar :: tb)) (.fn ps ss none) := by
  intro s us h
  rw [parseConstant]
  refine Goes.curtok ?_
  have h : Ready E s (.op .fn :: .op .lpar :: (tp ++ .op .rpar :: (tb ++ us))) := by simpa using h
  rw [h.op]
  dsimp only
  rw [parseLambda]
  exact Goes.eatOp h fun s1 h1 => Goes.eatOp h1 fun s2 h2 => Goes.bind (params_goes hp [] s2 _ h2 rfl) fun s3 h3 => Goes.eatOp h3 fun s4 h4 =>
    Goes.bind (ih s4 us h4) fun s5 h5 => Goes.pure h5

theorem main_listEmpty : Comp E cfg .atom [.op .lsqb, .op .rsqb] (.list []) := by
  intro s us h
  rw [parseConstant]
  refine Goes.curtok ?_
  have h : Ready E s (.op .lsqb :: .op .rsqb :: us) := h
  rw [h.op]
  dsimp only
  rw [parseList]
  exact Goes.eatOp h fun s1 h1 => Goes.ifYes h1 rfl rfl fun s2 h2 => Goes.pure h2

theorem main_tableEmpty : Comp E cfg .atom [.op .lbrc, .op .rbrc] (.table []) := by
  intro s us h
  rw [parseConstant]
  refine Goes.curtok ?_
  have h : Ready E s (.op .lbrc :: .op .rbrc :: us) := h
  rw [h.op]
  dsimp only
  rw [parseTable]
  exact Goes.eatOp h fun s1 h1 => Goes.ifYes h1 rfl rfl fun s2 h2 => Goes.pure h2

/-- What follows the first element of a list or table. -/
theorem seq_ready {s : PSt} {n1 tm n2 us : List TextItem} {t : Tok} (ht : t = .rsqb ∨ t = .rbrc) (hn1 : Newlines n1) (hn2 : Newlines n2) (hm : tm = [] ∨ ∃ rest, tm = .op .comma :: rest) :
    ∃ m1 m2, Newlines m1 ∧ Newlines m2 ∧ n1 ++ (tm ++ (n2 ++ .op t :: us)) = m1 ++ (tm ++ (m2 ++ .op t :: us)) ∧ Stops (tm ++ (m2 ++ .op t :: us)) ∧ Stops (.op t :: us) ∧
      Hd E (tm ++ (m2 ++ .op t :: us)) (· ≠ .for_) := by
  obtain ⟨m1, m2, hm1, hm2, hme, hm0⟩ := newlines_split n1 tm n2 hn1 hn2
  have hst : Stops (.op t :: us) := ⟨_, _, rfl, by rcases ht with rfl | rfl <;> simp⟩
  refine ⟨m1, m2, hm1, hm2, ?_, ?_, hst, ?_⟩
  · have := congrArg (· ++ (.op t :: us)) hme
    simpa using this
  · rcases hm with rfl | ⟨r, rfl⟩
    · rw [hm0 rfl]; exact hst
    · exact ⟨_, _, rfl, by simp⟩
  · rcases hm with rfl | ⟨r, rfl⟩
    · rw [hm0 rfl]; rcases ht with rfl | rfl <;> simp [Hd, TextItem.type]
    · simp [Hd, TextItem.type]

theorem Stops.exprEnd {us : List TextItem} (h : Stops us) : Hd E us ExprEnd := by
  obtain ⟨i, r, rfl, h⟩ := h
  rcases h with rfl | rfl | rfl | rfl <;> (unfold Hd; simp only [TextItem.type]; decide)

theorem main_list {te n1 tm n2 : List TextItem} {e : Node} {es : List Node} (hs : Starts te) (hm : tm = [] ∨ ∃ rest, tm = .op .comma :: rest) (hn1 : Newlines n1) (hn2 : Newlines n2)
    (ih1 : Comp E cfg .expr te e) (ih2 : CompMore E cfg tm es) :
    Comp E cfg .atom (.op .lsqb :: (te ++ (n1 ++ (tm ++ (n2 ++ [.op .rsqb]))))) (.list (e :: es)) := by
  intro s us h
  rw [parseConstant]
  refine Goes.curtok ?_
  obtain ⟨m1, m2, hm1, hm2, he, hst, hst2, hfor⟩ := seq_ready (E := E) (s := s) (us := us) (t := .rsqb) (.inl rfl) hn1 hn2 hm
  have h : Ready E s (.op .lsqb :: (te ++ (m1 ++ (tm ++ (m2 ++ .op .rsqb :: us))))) := by rw [← he]; simpa using h
  rw [h.op]
  dsimp only
  rw [parseList]
  refine Goes.eatOp h fun s1 h1 => Goes.ifNo (not_exprStart h1 hs (by decide)) (Goes.bind (ih1 s1 _ h1 (Hd.newlines hm1 (by decide) hst.exprEnd)) fun s2 h2 =>
    Goes.newlines h2 hm1 hst fun s3 h3 => Goes.ifNo (h3.hd hfor) ?_)
  exact Goes.bind ((ih2 s3 _ h3 (Hd.newlines hm2 (.inl rfl) (.inr (.inl rfl)))).1 [e]) fun s4 h4 => Goes.newlines h4 hm2 hst2 fun s5 h5 => Goes.eatOp h5 fun s6 h6 => Goes.pure h6

theorem main_table {tk tv n1 tm n2 : List TextItem} {k v : Node} {es : List Node} (hs : Starts tk) (hm : tm = [] ∨ ∃ rest, tm = .op .comma :: rest) (hn1 : Newlines n1) (hn2 : Newlines n2)
    (ih1 : Comp E cfg .expr tk k) (ih1' : Comp E cfg .expr tv v) (ih2 : CompPairs E cfg tm es) :
    Comp E cfg .atom (.op .lbrc :: (tk ++ .op .colon :: (tv ++ (n1 ++ (tm ++ (n2 ++ [.op .rbrc])))))) (.table (k :: v :: es)) := by
  intro s us h
  rw [parseConstant]
  refine Goes.curtok ?_
  obtain ⟨m1, m2, hm1, hm2, he, hst, hst2, hfor⟩ := seq_ready (E := E) (s := s) (us := us) (t := .rbrc) (.inr rfl) hn1 hn2 hm
  have h : Ready E s (.op .lbrc :: (tk ++ .op .colon :: (tv ++ (m1 ++ (tm ++ (m2 ++ .op .rbrc :: us)))))) := by rw [← he]; simpa using h
  rw [h.op]
  dsimp only
  rw [parseTable]
  refine Goes.eatOp h fun s1 h1 => Goes.ifNo (not_exprStart h1 hs (by decide)) (Goes.bind (ih1 s1 _ h1 (by decide : ExprEnd .colon)) fun s1' h1' => Goes.eatOp h1' fun s1'' h1'' =>
    Goes.bind (ih1' s1'' _ h1'' (Hd.newlines hm1 (by decide) hst.exprEnd)) fun s2 h2 => Goes.newlines h2 hm1 hst fun s3 h3 => Goes.ifNo (h3.hd hfor) ?_)
  exact Goes.bind (ih2 [k, v] s3 _ h3 (Hd.newlines hm2 (.inl rfl) (.inr rfl))) fun s4 h4 => Goes.newlines h4 hm2 hst2 fun s5 h5 => Goes.eatOp h5 fun s6 h6 => Goes.pure h6

theorem cond_goes {s : PSt} {tc us : List TextItem} {c : Option Node} (h : CompCond E cfg tc c) (hs : Ready E s (tc ++ us)) (hu : Hd E us ExprEnd) (hi : Hd E us (· ≠ .if_)) :
    Goes E (parseCompCond cfg) s c us := by
  rw [parseCompCond]
  rcases h with ⟨rfl, rfl⟩ | ⟨te, e, rfl, rfl, hf⟩
  · exact Goes.ifNo (hs.hd hi) (Goes.pure hs)
  · exact Goes.ifYes hs rfl rfl fun s1 h1 => Goes.bind (hf s1 us h1 hu) fun s2 h2 => Goes.pure h2

theorem cond_end {tc us : List TextItem} {c : Option Node} (h : CompCond E cfg tc c) (hu : Hd E us ExprEnd) : Hd E (tc ++ us) ExprEnd := by
  rcases h with ⟨rfl, rfl⟩ | ⟨te, e, rfl, rfl, hf⟩
  · exact hu
  · exact (by decide : ExprEnd .if_)

theorem main_listComp {te n1 ti tc n2 : List TextItem} {e i : Node} {c : Option Node} (hs : Starts te) (hn1 : Newlines n1) (hn2 : Newlines n2)
    (ih1 : Comp E cfg .expr te e) (ih2 : Comp E cfg .iter ti i) (ih3 : CompCond E cfg tc c) :
    Comp E cfg .atom (.op .lsqb :: (te ++ (n1 ++ .sep .for_ false :: (ti ++ (tc ++ (n2 ++ [.op .rsqb])))))) (.listComp e i c) := by
  intro s us h
  rw [parseConstant]
  refine Goes.curtok ?_
  have h : Ready E s (.op .lsqb :: (te ++ (n1 ++ .sep .for_ false :: (ti ++ (tc ++ (n2 ++ .op .rsqb :: us)))))) := by simpa using h
  rw [h.op]
  dsimp only
  rw [parseList]
  have hst : Stops (.sep .for_ false :: (ti ++ (tc ++ (n2 ++ .op .rsqb :: us)))) := ⟨_, _, rfl, by simp⟩
  have he : Hd E (n2 ++ .op .rsqb :: us) ExprEnd := Hd.newlines hn2 (by decide) (by decide : ExprEnd .rsqb)
  refine Goes.eatOp h fun s1 h1 => Goes.ifNo (not_exprStart h1 hs (by decide)) (Goes.bind (ih1 s1 _ h1 (Hd.newlines hn1 (by decide) hst.exprEnd)) fun s2 h2 =>
    Goes.newlines h2 hn1 hst fun s3 h3 => Goes.ifYes h3 rfl rfl fun s4 h4 => ?_)
  refine Goes.bind (ih2 s4 _ h4 (cond_end ih3 he)) fun s5 h5 => Goes.bind (cond_goes ih3 h5 he (Hd.newlines hn2 (by decide) (by decide : Tok.rsqb ≠ .if_))) fun s6 h6 => ?_
  exact Goes.newlines h6 hn2 ⟨_, _, rfl, by simp⟩ fun s7 h7 => Goes.eatOp h7 fun s8 h8 => Goes.pure h8

theorem main_tableComp {tk tv n1 ti tc n2 : List TextItem} {k v i : Node} {c : Option Node} (hs : Starts tk) (hn1 : Newlines n1) (hn2 : Newlines n2)
    (ih1 : Comp E cfg .expr tk k) (ih1' : Comp E cfg .expr tv v) (ih2 : Comp E cfg .iter ti i) (ih3 : CompCond E cfg tc c) :
    Comp E cfg .atom (.op .lbrc :: (tk ++ .op .colon :: (tv ++ (n1 ++ .sep .for_ false :: (ti ++ (tc ++ (n2 ++ [.op .rbrc]))))))) (.tableComp [k, v] i c) := by
  intro s us h
  rw [parseConstant]
  refine Goes.curtok ?_
  have h : Ready E s (.op .lbrc :: (tk ++ .op .colon :: (tv ++ (n1 ++ .sep .for_ false :: (ti ++ (tc ++ (n2 ++ .op .rbrc :: us))))))) := by simpa using h
  rw [h.op]
  dsimp only
  rw [parseTable]
  have hst : Stops (.sep .for_ false :: (ti ++ (tc ++ (n2 ++ .op .rbrc :: us)))) := ⟨_, _, rfl, by simp⟩
  have he : Hd E (n2 ++ .op .rbrc :: us) ExprEnd := Hd.newlines hn2 (by decide) (by decide : ExprEnd .rbrc)
  refine Goes.eatOp h fun s1 h1 => Goes.ifNo (not_exprStart h1 hs (by decide)) (Goes.bind (ih1 s1 _ h1 (by decide : ExprEnd .colon)) fun s1' h1' => Goes.eatOp h1' fun s1'' h1'' =>
    Goes.bind (ih1' s1'' _ h1'' (Hd.newlines hn1 (by decide) hst.exprEnd)) fun s2 h2 => Goes.newlines h2 hn1 hst fun s3 h3 => Goes.ifYes h3 rfl rfl fun s4 h4 => ?_)
  refine Goes.bind (ih2 s4 _ h4 (cond_end ih3 he)) fun s5 h5 => Goes.bind (cond_goes ih3 h5 he (Hd.newlines hn2 (by decide) (by decide : Tok.rbrc ≠ .if_))) fun s6 h6 => ?_
  exact Goes.newlines h6 hn2 ⟨_, _, rfl, by simp⟩ fun s7 h7 => Goes.eatOp h7 fun s8 h8 => Goes.pure h8

theorem main_strEnd {v : List Byte} : Comp E cfg .string [.str v false] (v, []) := by
  refine ⟨⟨false, [], rfl⟩, fun cur s us h => ?_⟩
  rw [parseString]
  refine Goes.getLex ?_
  have h : Ready E s (.str v false :: us) := h
  rw [(value_str h).2, if_neg (by simp)]
  exact Goes.eat h rfl rfl fun s1 h1 => Goes.pure h1

theorem reads_enter {l l' : Lex} {is : List TextItem} (h : Reads l (.enter :: is) l') : Reads { l with interp := false } is l' := by
  generalize hts : TextItem.enter :: is = ts at h
  cases h with
  | done => cases hts
  | tok _ _ =>
    have := l.item_isTok
    rw [← (List.cons.inj hts).1] at this
    cases this
  | enter h => cases hts; exact h
  | resume _ _ _ => cases hts

theorem reads_resume {l l' : Lex} {is : List TextItem} {t : Tok} (h : Reads l (.resume t :: is) l') : l.c = some (ch '}') ∧ l.type = t ∧
    Reads (eatInterpBody { l with interp := true } l.rest) is l' := by
  generalize hts : TextItem.resume t :: is = ts at h
  cases h with
  | done => cases hts
  | tok _ _ =>
    have := l.item_isTok
    rw [← (List.cons.inj hts).1] at this
    cases this
  | enter h => cases hts
  | resume h1 _ h2 => cases hts; exact ⟨h1, rfl, h2⟩

theorem main_strMore {te tr : List TextItem} {v v' : List Byte} {e : Node} {ps : List (Node × List Byte)} {t : Tok} (ih1 : Comp E cfg .expr te e)
    (ih2 : Comp E cfg .string tr (v', ps)) : Comp E cfg .string (.str v true :: .op .lbrc :: .enter :: (te ++ .resume t :: tr)) (v, (e, v') :: ps) := by
  refine ⟨⟨true, _, rfl⟩, fun cur s us h => ?_⟩
  rw [parseString]
  refine Goes.getLex ?_
  have h : Ready E s (.str v true :: .op .lbrc :: .enter :: (te ++ .resume t :: (tr ++ us))) := by simpa using h
  rw [(value_str h).2, if_pos rfl]
  refine Goes.eat h rfl rfl fun s1 h1 => Goes.eatOp h1 fun s2 h2 => Goes.getLex (Goes.setLex ?_)
  have hr := reads_enter h2.reads
  have h3 : Ready E { s2 with lex := { s2.lex with interp := false } } (te ++ .resume t :: (tr ++ us)) := ⟨h2.status, h2.err, ⟨h2.good.closer, h2.good.brace⟩, hr, h2.known⟩
  have hend : ExprEnd t := by
    obtain ⟨m, hm1, hm2⟩ := hr.split
    have hg := hm1.good h3.good
    obtain ⟨hc, rfl, _⟩ := reads_resume hm2
    exact exprEnd_of fun hmem => hg.brace hmem hc
  refine Goes.bind (ih1 _ _ h3 hend) fun s4 h4 => Goes.getLex ?_
  obtain ⟨hc, -, h5⟩ := reads_resume h4.reads
  rw [if_pos hc]
  refine Goes.setLex ?_
  obtain ⟨⟨m, rest, e0⟩, hf⟩ := ih2
  have e0 : tr = .str v' m :: rest := e0
  have hst : (eatInterpBody { s4.lex with interp := true } s4.lex.rest).type = .str := by
    rw [e0] at h5
    exact (h5.cons_inv rfl).2.1
  have herr : (eatInterpBody { s4.lex with interp := true } s4.lex.rest).err = none :=
    ((eatInterp_scan { s4.lex with interp := true } { s4.lex with interp := true } s4.lex.rest).err (by rw [hst]; decide)).trans h4.err
  have h6 : Ready E { s4 with lex := eatInterpBody { s4.lex with interp := true } s4.lex.rest } (tr ++ us) :=
    ⟨h4.status, herr, eatInterp_good _ _, h5, h4.known⟩
  have hv : (eatInterpBody { s4.lex with interp := true } s4.lex.rest).value = v' := by
    have h7 := h6
    rw [e0] at h7
    exact (value_str (us := rest ++ us) h7).1
  rw [herr, if_neg (by simp), hv]
  exact hf _ _ us h6

theorem main_argsEnd : CompArgs E cfg [] [] := by
  intro acc s us h hu
  rw [parseArgs]
  refine Goes.curtok ?_
  have h : Ready E s us := h
  rw [if_pos (.inl (h.hd hu)), List.append_nil]
  exact Goes.pure h

theorem main_argsLast {te : List TextItem} {e : Node} (hs : Starts te) (ih : Comp E cfg .expr te e) : CompArgs E cfg te [e] := by
  intro acc s us h hu
  rw [parseArgs]
  refine Goes.curtok ?_
  rw [if_neg (by rintro (hc | hc); exacts [not_exprStart h hs (by decide) hc, not_exprStart h hs (by decide) hc])]
  refine Goes.bind (ih s us h (hu.imp (by rintro t rfl; decide))) fun s1 h1 => Goes.curtok ?_
  rw [if_neg (by rw [h1.hd hu]; decide)]
  exact Goes.pure h1

theorem main_args {te ta : List TextItem} {e : Node} {as : List Node} (hs : Starts te) (ih : Comp E cfg .expr te e) (ih2 : CompArgs E cfg ta as) :
    CompArgs E cfg (te ++ .op .comma :: ta) (e :: as) := by
  intro acc s us h hu
  rw [parseArgs]
  refine Goes.curtok ?_
  have h : Ready E s (te ++ .op .comma :: (ta ++ us)) := by simpa using h
  rw [if_neg (by rintro (hc | hc); exacts [not_exprStart h hs (by decide) hc, not_exprStart h hs (by decide) hc])]
  refine Goes.bind (ih s _ h (by decide : ExprEnd .comma)) fun s1 h1 => Goes.curtok ?_
  rw [if_pos h1.op]
  refine Goes.eatOp h1 fun s2 h2 => ?_
  have := ih2 (acc ++ [e]) s2 us h2 hu
  simpa using this

theorem main_moreEnd : CompMore E cfg [] [] := by
  intro s us h hu
  have h : Ready E s us := h
  have hn : s.lex.type ≠ .comma := by rcases h.hd hu with e | e | e <;> rw [e] <;> decide
  refine ⟨fun acc => ?_, fun k acc e hl => ?_⟩
  · rw [parseCommaExprs]
    exact Goes.ifNo hn (by rw [List.append_nil]; exact Goes.pure h)
  · unfold packTail
    split
    · exact Goes.ifNo hn (Goes.pure h)
    · exact Goes.pure h

theorem main_more {te tm : List TextItem} {e : Node} {es : List Node} (hm : tm = [] ∨ ∃ rest, tm = .op .comma :: rest) (ih1 : Comp E cfg .expr te e) (ih2 : CompMore E cfg tm es) :
    CompMore E cfg (.op .comma :: (te ++ tm)) (e :: es) := by
  intro s us h hu
  have h : Ready E s (.op .comma :: (te ++ (tm ++ us))) := by simpa using h
  have hend : Hd E (tm ++ us) ExprEnd := by
    rcases hm with rfl | ⟨r, rfl⟩
    · exact hu.imp (by rintro t (rfl | rfl | rfl) <;> decide)
    · exact (by decide : ExprEnd .comma)
  refine ⟨fun acc => ?_, fun k acc e' hl => ?_⟩
  · rw [parseCommaExprs]
    refine Goes.ifYes h rfl rfl fun s1 h1 => Goes.bind (ih1 s1 _ h1 hend) fun s2 h2 => ?_
    have := (ih2 s2 us h2 hu).1 (acc ++ [e])
    simpa using this
  · unfold packTail
    rw [if_pos (by simp at hl; omega)]
    refine Goes.ifYes h rfl rfl fun s1 h1 => ?_
    rw [parseVarPack_eq]
    refine Goes.bind (ih1 s1 _ h1 hend) fun s2 h2 => ?_
    have := (ih2 s2 us h2 hu).2 k (acc ++ [e']) e (by simpa using hl)
    simpa using this

theorem main_pairsEnd : CompPairs E cfg [] [] := by
  intro acc s us h hu
  have h : Ready E s us := h
  rw [parsePairs]
  exact Goes.ifNo (by rcases h.hd hu with e | e <;> rw [e] <;> decide) (by rw [List.append_nil]; exact Goes.pure h)

theorem main_pairs {tk tv tm : List TextItem} {k v : Node} {es : List Node} (hm : tm = [] ∨ ∃ rest, tm = .op .comma :: rest) (ih1 : Comp E cfg .expr tk k)
    (ih1' : Comp E cfg .expr tv v) (ih2 : CompPairs E cfg tm es) : CompPairs E cfg (.op .comma :: (tk ++ .op .colon :: (tv ++ tm))) (k :: v :: es) := by
  intro acc s us h hu
  have h : Ready E s (.op .comma :: (tk ++ .op .colon :: (tv ++ (tm ++ us)))) := by simpa using h
  have hend : Hd E (tm ++ us) ExprEnd := by
    rcases hm with rfl | ⟨r, rfl⟩
    · exact hu.imp (by rintro t (rfl | rfl) <;> decide)
    · exact (by decide : ExprEnd .comma)
  rw [parsePairs]
  refine Goes.ifYes h rfl rfl fun s1 h1 => Goes.bind (ih1 s1 _ h1 (by decide : ExprEnd .colon)) fun s2 h2 => Goes.eatOp h2 fun s3 h3 => Goes.bind (ih1' s3 _ h3 hend) fun s4 h4 => ?_
  have := ih2 (acc ++ [k, v]) s4 us h4 hu
  simpa using this

theorem main_iter {x : Name} {te : List TextItem} {e : Node} (ih : Comp E cfg .expr te e) : Comp E cfg .iter (.word .id x :: .op .leftArr :: te) (.letIter x e) := by
  intro s us h hu
  rw [parseIterate]
  exact Goes.name h fun s1 h1 => Goes.eatOp h1 fun s2 h2 => Goes.bind (ih s2 us h2 hu) fun s3 h3 => Goes.pure h3

end Yasl
