import Verif.Proofs.ParsePat
set_option autoImplicit false
set_option linter.unusedSectionVars false
/-! # Proofs about the parser: what is parsed is in the grammar, and parsing ends -/
namespace Yasl
variable {src : List Byte} {H : Stop → Prop} {cfg : ParseCfg}

/-! ## The lists at the end of calls and declarations -/

theorem lastSpread_cons (n : Int) (e e' : Node) (es : List Node) : lastSpread n (e :: e' :: es) = e :: lastSpread n (e' :: es) := by rw [lastSpread]

theorem lastSpread_eq (n : Int) : ∀ es : List Node, lastSpread n es = spreadLast es n := by
  intro es
  induction es with
  | nil => rfl
  | cons e es ih =>
    cases es with
    | nil => cases e <;> rfl
    | cons e' es =>
      rw [lastSpread_cons, ih]
      unfold spreadLast
      rw [List.getLast?_cons_cons]
      split
      · split
        · simp
        · rfl
      · rfl

theorem padTo_eq (n : Nat) (es : List Node) (h : es ≠ []) : padTo n es = packEnd n es := by
  unfold padTo packEnd
  rw [lastSpread_eq]
  unfold spreadLast
  obtain ⟨e, he⟩ : ∃ e, es.getLast? = some e := ⟨es.getLast h, List.getLast?_eq_some_getLast h⟩
  rw [he]
  dsimp only
  have e1 : (n : Int) + 1 - es.length = n - es.length + 1 := by omega
  rw [e1]
  cases e <;> simp [Node.varExpands]

/-! ## Operators -/

theorem binToks_op : ∀ k < 12, ∀ t ∈ binToks k, t ≠ .unknown ∧ t ≠ .eof ∧ (∀ i, ItemOf t i → i = .op t) ∧ OpAt k (if binRight k then .right else .left) t := by
  intro k hk t ht
  have : k = 0 ∨ k = 1 ∨ k = 2 ∨ k = 3 ∨ k = 4 ∨ k = 5 ∨ k = 6 ∨ k = 7 ∨ k = 8 ∨ k = 9 ∨ k = 10 ∨ k = 11 := by omega
  rcases this with rfl | rfl | rfl | rfl | rfl | rfl | rfl | rfl | rfl | rfl | rfl | rfl <;>
    simp only [binToks, binLevel, List.getD, List.getElem?_cons_zero, List.getElem?_cons_succ, Option.getD_some, List.mem_cons, List.not_mem_nil, or_false] at ht <;>
    rcases ht with rfl | rfl | rfl | rfl <;>
    exact ⟨by decide, by decide, fun i h => h, _, rfl, by decide⟩

theorem augmented_op (t : Tok) (h : t.isAugmented = true) : t ≠ .unknown ∧ t ≠ .eof ∧ t ≠ .eq ∧ (∀ i, ItemOf t i → i = .op t) ∧ (t, t.pred) ∈ augmentedOps := by
  cases t <;> first | (exfalso; revert h; decide) | exact ⟨by decide, by decide, by decide, fun i h => h, by decide⟩

/-- What is proved of the functions of the parser together, for states of a measure of at most `n`. -/
structure MainSpec (src : List Byte) (H : Stop → Prop) (cfg : ParseCfg) (n : Nat) : Prop where
  program : Meets src H n (parseProgram cfg) (fun _ => True) false (fun _ r ts => Gram cfg.strtod cfg.fold .stmt ts r)
  simple : Meets src H n (parseAssignOrExpr cfg) (fun _ => True) true (fun _ r ts => Gram cfg.strtod cfg.fold .simple ts r)
  body : Meets src H n (parseBody cfg) (fun _ => True) false (fun _ r ts => Gram cfg.strtod cfg.fold .body ts r)
  stmts : ∀ acc, Meets src H n (parseStmts cfg acc) (fun _ => True) false (fun _ r ts => ∃ ss, r = acc ++ ss ∧ Gram cfg.strtod cfg.fold .stmts ts ss)
  more : ∀ acc, Meets src H n (parseCommaExprs cfg acc) (fun _ => True) false (fun s r ts => ∃ es, r = acc ++ es ∧ (s.lex.type = .comma → es ≠ []) ∧ Gram cfg.strtod cfg.fold .more ts es)
  lval : Meets src H n (parseLVal cfg) (fun _ => True) true (fun _ r ts => Gram cfg.strtod cfg.fold .lval ts r)
  pack : ∀ k acc, acc.length ≤ k → Meets src H n (parseVarPack cfg k acc) (fun _ => True) true (fun _ r ts => ∃ (te tm : List TextItem) (e : Node) (es : List Node), ts = te ++ tm ∧
    Gram cfg.strtod cfg.fold .expr te e ∧ Gram cfg.strtod cfg.fold .more tm es ∧ (acc ++ e :: es).length ≤ k + 1 ∧ r = packEnd k (acc ++ e :: es))
  decl : ∀ lv k, Meets src H n (parseDeclHelper cfg lv k) (fun _ => True) true (fun s r ts => ∃ (tl te tm : List TextItem) (ls : List Node) (e : Node) (es : List Node), (s.lex.type = .comma → ls ≠ []) ∧ ts = tl ++ .op .eq :: (te ++ tm) ∧
    Gram cfg.strtod cfg.fold .lvals tl ls ∧ Gram cfg.strtod cfg.fold .expr te e ∧ Gram cfg.strtod cfg.fold .more tm es ∧
    (e :: es).length ≤ k + ls.length + 1 ∧ r = .decl (lv ++ ls) (padTo (k + ls.length) (e :: es)))
  clauses : word "match" <:+: src → ∀ e ps gs bs, Meets src H n (parseClauses cfg e ps gs bs) (fun _ => True) false (fun _ r ts => ∃ cs : List (PatNode × Option Node × List Node),
    r = .match_ e (ps ++ cs.map (·.1)) (gs ++ cs.map (·.2.1)) (bs ++ cs.map (·.2.2)) ∧ Gram cfg.strtod cfg.fold .clauses ts cs)
  ifs : Meets src H n (parseIf cfg) (fun s => s.lex.type = .if_ ∨ s.lex.type = .elseif) true (fun s r ts => ∃ us, ts = .op s.lex.type :: us ∧
    Gram cfg.strtod cfg.fold .ifRest us r)
  expr : Meets src H n (parseExpr cfg) (fun _ => True) true (fun _ r ts => Gram cfg.strtod cfg.fold .expr ts r)
  tern : Meets src H n (parseTernary cfg) (fun _ => True) true (fun _ r ts => Gram cfg.strtod cfg.fold .tern ts r)
  bin : ∀ k ≤ 12, Meets src H n (parseBin cfg k) (fun _ => True) true (fun _ r ts => Gram cfg.strtod cfg.fold (.bin k) ts r)
  binLoop : ∀ k < 12, binRight k = false → ∀ e, Meets src H n (parseBinLoop cfg k e) (fun _ => True) false (fun _ r ts =>
    ∀ tl, Gram cfg.strtod cfg.fold (.bin k) tl e → Gram cfg.strtod cfg.fold (.bin k) (tl ++ ts) r)
  unary : Meets src H n (parseUnary cfg) (fun _ => True) true (fun _ r ts => Gram cfg.strtod cfg.fold .unary ts r)
  post : Meets src H n (parseCall cfg) (fun _ => True) true (fun _ r ts => Gram cfg.strtod cfg.fold .post ts r)
  postLoop : ∀ e, Meets src H n (parseCallLoop cfg e) (fun _ => True) false (fun _ r ts =>
    ∀ tl, Gram cfg.strtod cfg.fold .post tl e → Gram cfg.strtod cfg.fold .post (tl ++ ts) r)
  args : ∀ acc, Meets src H n (parseArgs cfg acc) (fun _ => True) false (fun _ r ts => ∃ es, r = acc ++ es ∧ Gram cfg.strtod cfg.fold .args ts es)
  atom : Meets src H n (parseConstant cfg) (fun _ => True) true (fun _ r ts => Gram cfg.strtod cfg.fold .atom ts r)
  string : ∀ cur, Meets src H n (parseString cfg cur) (fun s => s.lex.type = .str) true (fun s r ts => ∃ ps,
    r = ps.foldl (fun n p => .bin .tilde (.bin .tilde n p.1) (.str p.2)) cur ∧ Gram cfg.strtod cfg.fold .string ts (s.lex.value, ps))
  pairs : ∀ acc, Meets src H n (parsePairs cfg acc) (fun _ => True) false (fun _ r ts => ∃ es, r = acc ++ es ∧ Gram cfg.strtod cfg.fold .pairs ts es)

theorem item_for {l : Lex} (h : l.type = .for_) (hc : l.c ≠ some (ch '\n')) : l.item = .sep .for_ false := by
  unfold Lex.item; rw [h]; simp [hc]

/-! ## Expressions -/
/-- Where the parser may be undefined: at a `.`, or where folding is. -/
structure UbOk (src : List Byte) (cfg : ParseCfg) (H : Stop → Prop) : Prop where
  dot : ch '.' ∈ src → H .ub
  fold : ∀ e, cfg.fold e = none → H .ub

section
variable {n : Nat} (hU : UbOk src cfg H) (ih : ∀ m < n, MainSpec src H cfg m)
include hU ih

theorem args_step (he : Meets src H n (parseExpr cfg) (fun _ => True) true (fun _ r ts => Gram cfg.strtod cfg.fold .expr ts r)) (acc : List Node) :
    Meets src H n (parseArgs cfg acc) (fun _ => True) false (fun _ r ts => ∃ es, r = acc ++ es ∧ Gram cfg.strtod cfg.fold .args ts es) := by
  intro s hi hn _
  rw [parseArgs]
  refine Ends.curtok ?_
  have st := AtPos.start hi
  split
  · refine Ends.pure (st.imp (by simp) ?_)
    rintro _ rfl; exact ⟨[], by simp, .argsEnd⟩
  · refine AtPos.call st he hn trivial fun e s1 h1 => Ends.curtok ?_
    split
    · rename_i hc
      refine AtPos.eatSame h1 hc (by decide) (by decide) fun s2 _ h2 => ?_
      have m2 := h2.lt rfl
      refine AtPos.last h2 ((ih (n - 1) (by omega)).args _) (by omega) trivial fun r s3 h3 => h3.imp (by simp) ?_
      rintro _ ⟨_, _, rfl, ⟨_, _, rfl, ⟨_, _, rfl, rfl, hg⟩, _, rfl, rfl⟩, es, rfl, hes⟩
      exact ⟨e :: es, by simp, by simpa using Gram.args hg hes⟩
    · refine Ends.pure (h1.imp (by simp) ?_)
      rintro _ ⟨_, _, rfl, rfl, hg⟩
      exact ⟨[e], rfl, .argsLast hg⟩

theorem more_step (acc : List Node) :
    Meets src H n (parseCommaExprs cfg acc) (fun _ => True) false (fun s r ts => ∃ es, r = acc ++ es ∧ (s.lex.type = .comma → es ≠ []) ∧ Gram cfg.strtod cfg.fold .more ts es) := by
  intro s hi hn _
  rw [parseCommaExprs]
  have st := AtPos.start hi
  refine AtPos.matchTok st (by decide) (by decide) (fun s1 _ _ h1 => ?_) (fun hne => ?_)
  · have m1 := h1.lt rfl
    have ih1 := ih (n - 1) (by omega)
    refine AtPos.call h1 ih1.expr (by omega) trivial fun e s2 h2 => ?_
    have m2 := h2.lt rfl
    refine AtPos.last h2 (ih1.more _) (by omega) trivial fun r s3 h3 => h3.imp (by simp) ?_
    rintro _ ⟨_, _, rfl, ⟨_, _, rfl, ⟨_, _, rfl, rfl, _, rfl, rfl⟩, hg⟩, es, rfl, -, hes⟩
    exact ⟨e :: es, by simp, by simp, by simpa using Gram.more hg hes⟩
  · refine Ends.pure (st.imp (by simp) ?_)
    rintro _ rfl; exact ⟨[], by simp, fun h => absurd h hne, .moreEnd⟩

theorem pairs_step (acc : List Node) :
    Meets src H n (parsePairs cfg acc) (fun _ => True) false (fun _ r ts => ∃ es, r = acc ++ es ∧ Gram cfg.strtod cfg.fold .pairs ts es) := by
  intro s hi hn _
  rw [parsePairs]
  have st := AtPos.start hi
  refine AtPos.matchTok st (by decide) (by decide) (fun s1 _ _ h1 => ?_) (fun _ => ?_)
  · have m1 := h1.lt rfl
    have ih1 := ih (n - 1) (by omega)
    refine AtPos.call h1 ih1.expr (by omega) trivial fun k s2 h2 => ?_
    refine AtPos.eat h2 (by decide) (by decide) fun s3 h3 => ?_
    have m3 := h3.lt (by simp)
    refine AtPos.call h3 ih1.expr (by omega) trivial fun v s4 h4 => ?_
    have m4 := h4.lt (by simp)
    refine AtPos.last h4 (ih1.pairs _) (by omega) trivial fun r s5 h5 => h5.imp (by simp) ?_
    rintro _ ⟨_, _, rfl, ⟨_, _, rfl, ⟨_, _, rfl, ⟨_, _, rfl, ⟨_, _, rfl, rfl, _, rfl, rfl⟩, hk⟩, _, rfl, rfl⟩, hv⟩, es, rfl, hes⟩
    exact ⟨k :: v :: es, by simp, by simpa using Gram.pairs hk hv hes⟩
  · refine Ends.pure (st.imp (by simp) ?_)
    rintro _ rfl; exact ⟨[], by simp, .pairsEnd⟩

theorem iterate_step :
    ∀ m ≤ n, Meets src H m (parseIterate cfg) (fun _ => True) true (fun _ r ts => Gram cfg.strtod cfg.fold .iter ts r) := by
  intro m hm s hi hn _
  rw [parseIterate]
  refine AtPos.name (AtPos.start hi) fun x s1 _ h1 => ?_
  refine AtPos.eat h1 (by decide) (by decide) fun s2 h2 => ?_
  have m2 := h2.lt (by simp)
  refine AtPos.call h2 (ih (n - 1) (by omega)).expr (by omega) trivial fun e s3 h3 => Ends.pure (h3.imp (by simp) ?_)
  rintro _ ⟨_, _, rfl, ⟨_, _, rfl, ⟨_, _, rfl, rfl, rfl⟩, _, rfl, rfl⟩, hg⟩
  exact .iter hg

theorem cond_step (m : Nat) (hm : m ≤ n) : Meets src H m (parseCompCond cfg) (fun _ => True) false (fun _ r ts => Gram cfg.strtod cfg.fold .cond ts r) := by
  intro s hi hn _
  rw [parseCompCond]
  have st := AtPos.start hi
  refine AtPos.matchTok st (by decide) (by decide) (fun s1 _ _ h1 => ?_) (fun _ => ?_)
  · have m1 := h1.lt rfl
    refine AtPos.call h1 (ih (n - 1) (by omega)).expr (by omega) trivial fun e s2 h2 => Ends.pure (h2.imp (by simp) ?_)
    rintro _ ⟨_, _, rfl, ⟨_, _, rfl, rfl, _, rfl, rfl⟩, hg⟩
    exact .cond hg
  · refine Ends.pure (st.imp (by simp) ?_)
    rintro _ rfl; exact .condNone

theorem list_step : Meets src H n (parseList cfg) (fun s => s.lex.type = .lsqb) true (fun _ r ts => Gram cfg.strtod cfg.fold .atom ts r) := by
  intro s hi hn ht
  rw [parseList]
  refine AtPos.eatSame (AtPos.start hi) ht (by decide) (by decide) fun s1 _ h1 => ?_
  have m1 := h1.lt rfl
  have ih1 := ih (n - 1) (by omega)
  refine AtPos.matchTok h1 (by decide) (by decide) (fun s2 _ _ h2 => Ends.pure (h2.imp (by simp) ?_)) (fun _ => ?_)
  · rintro _ ⟨_, _, rfl, ⟨_, _, rfl, rfl, _, rfl, rfl⟩, _, rfl, rfl⟩
    exact .listEmpty
  · refine AtPos.call h1 ih1.expr (by omega) trivial fun e s2 h2 => AtPos.newlines h2 fun s3 h3 hnl => ?_
    have m3 := h3.lt rfl
    refine AtPos.matchVal h3 (by decide) (by decide) (fun s4 hf _ h4 => ?_) (fun _ => ?_)
    · have m4 := h4.lt rfl
      refine AtPos.call h4 (iterate_step hU ih (n - 1) (by omega)) (by omega) trivial fun it s5 h5 => ?_
      have m5 := h5.lt (by simp)
      refine AtPos.call h5 (cond_step hU ih (n - 1) (by omega)) (by omega) trivial fun c s6 h6 => ?_
      refine AtPos.newlines h6 fun s7 h7 _ => AtPos.eat h7 (by decide) (by decide) fun s8 h8 => Ends.pure (h8.imp (by simp) ?_)
      rintro _ ⟨_, _, rfl, ⟨_, _, rfl, ⟨_, _, rfl, ⟨_, _, rfl, ⟨_, _, rfl, ⟨_, _, rfl, ⟨_, _, rfl, ⟨_, _, rfl, rfl, _, rfl, rfl⟩, he⟩, hn1⟩, rfl⟩, hit⟩, hc⟩, hn2⟩, _, rfl, rfl⟩
      rw [item_for hf hnl]
      simpa using Gram.listComp he hn1 hit hc hn2
    · refine AtPos.call h3 (ih1.more _) (by omega) trivial fun es s4 h4 => AtPos.newlines h4 fun s5 h5 _ => AtPos.eat h5 (by decide) (by decide) fun s6 h6 => Ends.pure (h6.imp (by simp) ?_)
      rintro _ ⟨_, _, rfl, ⟨_, _, rfl, ⟨_, _, rfl, ⟨_, _, rfl, ⟨_, _, rfl, ⟨_, _, rfl, rfl, _, rfl, rfl⟩, he⟩, hn1⟩, es, rfl, -, hes⟩, hn2⟩, _, rfl, rfl⟩
      simpa using Gram.list he hn1 hes hn2

theorem table_step : Meets src H n (parseTable cfg) (fun s => s.lex.type = .lbrc) true (fun _ r ts => Gram cfg.strtod cfg.fold .atom ts r) := by
  intro s hi hn ht
  rw [parseTable]
  refine AtPos.eatSame (AtPos.start hi) ht (by decide) (by decide) fun s1 _ h1 => ?_
  have m1 := h1.lt rfl
  have ih1 := ih (n - 1) (by omega)
  refine AtPos.matchTok h1 (by decide) (by decide) (fun s2 _ _ h2 => Ends.pure (h2.imp (by simp) ?_)) (fun _ => ?_)
  · rintro _ ⟨_, _, rfl, ⟨_, _, rfl, rfl, _, rfl, rfl⟩, _, rfl, rfl⟩
    exact .tableEmpty
  · refine AtPos.call h1 ih1.expr (by omega) trivial fun k s2 h2 => AtPos.eat h2 (by decide) (by decide) fun s3 h3 => ?_
    have m3 := h3.lt rfl
    refine AtPos.call h3 ih1.expr (by omega) trivial fun v s4 h4 => AtPos.newlines h4 fun s5 h5 hnl => ?_
    have m5 := h5.lt rfl
    refine AtPos.matchVal h5 (by decide) (by decide) (fun s6 hf _ h6 => ?_) (fun _ => ?_)
    · have m6 := h6.lt rfl
      refine AtPos.call h6 (iterate_step hU ih (n - 1) (by omega)) (by omega) trivial fun it s7 h7 => ?_
      have m7 := h7.lt (by simp)
      refine AtPos.call h7 (cond_step hU ih (n - 1) (by omega)) (by omega) trivial fun c s8 h8 => ?_
      refine AtPos.newlines h8 fun s9 h9 _ => AtPos.eat h9 (by decide) (by decide) fun sa ha => Ends.pure (ha.imp (by simp) ?_)
      rintro _ ⟨_, _, rfl, ⟨_, _, rfl, ⟨_, _, rfl, ⟨_, _, rfl, ⟨_, _, rfl, ⟨_, _, rfl, ⟨_, _, rfl, ⟨_, _, rfl, ⟨_, _, rfl, ⟨_, _, rfl, rfl, _, rfl, rfl⟩, hk⟩, _, rfl, rfl⟩,
        hv⟩, hn1⟩, rfl⟩, hit⟩, hc⟩, hn2⟩, _, rfl, rfl⟩
      rw [item_for hf hnl]
      simpa using Gram.tableComp hk hv hn1 hit hc hn2
    · refine AtPos.call h5 (ih1.pairs _) (by omega) trivial fun es s6 h6 => AtPos.newlines h6 fun s7 h7 _ => AtPos.eat h7 (by decide) (by decide) fun s8 h8 =>
        Ends.pure (h8.imp (by simp) ?_)
      rintro _ ⟨_, _, rfl, ⟨_, _, rfl, ⟨_, _, rfl, ⟨_, _, rfl, ⟨_, _, rfl, ⟨_, _, rfl, ⟨_, _, rfl, ⟨_, _, rfl, rfl, _, rfl, rfl⟩, hk⟩, _, rfl, rfl⟩, hv⟩, hn1⟩, es, rfl, hes⟩,
        hn2⟩, _, rfl, rfl⟩
      simpa using Gram.table hk hv hn1 hes hn2

theorem lambda_step : Meets src H n (parseLambda cfg) (fun s => s.lex.type = .fn) true (fun _ r ts => Gram cfg.strtod cfg.fold .atom ts r) := by
  intro s hi hn ht
  rw [parseLambda]
  refine AtPos.eatSame (AtPos.start hi) ht (by decide) (by decide) fun s1 _ h1 => ?_
  refine AtPos.eat h1 (by decide) (by decide) fun s2 h2 => ?_
  have m2 := h2.lt rfl
  refine AtPos.call h2 (parseParams_meets n _) (by omega) trivial fun ps s3 h3 => AtPos.eat h3 (by decide) (by decide) fun s4 h4 => ?_
  have m4 := h4.lt rfl
  refine AtPos.call h4 (ih (n - 1) (by omega)).body (by omega) trivial fun ss s5 h5 => Ends.pure (h5.imp (by simp) ?_)
  rintro _ ⟨_, _, rfl, ⟨_, _, rfl, ⟨_, _, rfl, ⟨_, _, rfl, ⟨_, _, rfl, rfl, _, rfl, rfl⟩, _, rfl, rfl⟩, ps, rfl, hps⟩, _, rfl, rfl⟩, hb⟩
  simpa using Gram.fn hps hb

theorem string_step (cur : Node) : Meets src H n (parseString cfg cur) (fun s => s.lex.type = .str) true (fun s r ts => ∃ ps,
    r = ps.foldl (fun n p => .bin .tilde (.bin .tilde n p.1) (.str p.2)) cur ∧ Gram cfg.strtod cfg.fold .string ts (s.lex.value, ps)) := by
  intro s hi hn ht
  rw [parseString]
  refine Ends.getLex ?_
  have st := AtPos.start hi
  split
  · rename_i hint
    refine AtPos.eatVal st ht (by decide) (by decide) fun s1 _ h1 => AtPos.eat h1 (by decide) (by decide) fun s2 h2 => Ends.getLex (Ends.setLex ?_)
    have m2 := h2.lt rfl
    have ih1 := ih (n - 1) (by omega)
    have h3 : AtPos src s2 false (fun ts => ts = [.enter]) { s2 with lex := { s2.lex with interp := false } } := by
      refine ⟨⟨h2.inv.rest, by simp, h2.inv.kwMatch, h2.inv.unknown, h2.inv.eof, h2.inv.dot⟩, le_rfl, le_rfl, by simp, fun hs => ⟨hs, [.enter], .enter (.refl _), rfl⟩⟩
    refine AtPos.call (h2.trans h3) ih1.expr (by show s2.lex.mu ≤ _; omega) trivial fun e s4 h4 => Ends.getLex ?_
    split
    · rename_i hc
      refine Ends.setLex ?_
      split
      · exact Ends.error
      · rename_i herr
        have herr : (eatInterpBody { s4.lex with interp := true } s4.lex.rest).err = none := by simpa using herr
        have hty := eatInterp_str _ _ herr
        have tk := eatInterp_took (l := { s4.lex with interp := true }) (b := ch '"') (cs := s4.lex.rest) (by decide)
        have hf := eatInterp_facts { s4.lex with interp := true } s4.lex.rest
        have hsuf : (eatInterpBody { s4.lex with interp := true } s4.lex.rest).rest <:+ s4.lex.rest := eatInterp_rest _ _
        have hne : s4.lex.type ≠ .eof := fun he => by rw [(h4.inv.eof he).1] at hc; simp at hc
        have hun : s4.lex.type ≠ .unknown := by
          intro hu
          have h1 := h4.inv.unknown hu
          have h2 := (eatInterp_scan { s4.lex with interp := true } { s4.lex with interp := true } s4.lex.rest).err (by rw [hty]; decide)
          rw [herr] at h2
          have h2 : none = s4.lex.err := h2
          rw [← h2] at h1; cases h1
        have h5 : AtPos src s4 false (fun ts => ∃ t, ts = [.resume t]) { s4 with lex := eatInterpBody { s4.lex with interp := true } s4.lex.rest } := by
          refine ⟨⟨hsuf.trans h4.inv.rest, fun _ => hi.interp hint, fun h => ?_, hf.unknown, fun h => ?_, fun h => ?_⟩, hsuf.length_le, ?_, by simp,
            fun hs => ⟨hs, [.resume s4.lex.type], .resume hc hun (.refl _), _, rfl⟩⟩
          · rw [hty] at h; cases h
          · rw [hty] at h; cases h
          · rw [hty] at h; cases h
          · unfold Lex.mu
            have := hsuf.length_le
            rw [if_neg hne, if_neg (by show (eatInterpBody { s4.lex with interp := true } s4.lex.rest).type ≠ .eof; rw [hty]; decide)]
            exact Nat.add_le_add_right this 1
        have h6 := h4.trans h5
        have m6 : (eatInterpBody { s4.lex with interp := true } s4.lex.rest).mu < s.lex.mu := h6.lt rfl
        refine AtPos.last h6 (ih1.string _) (by show (eatInterpBody { s4.lex with interp := true } s4.lex.rest).mu ≤ n - 1; omega) hty fun r s7 h7 => h7.imp (by simp) ?_
        rintro _ ⟨_, _, rfl, ⟨_, _, rfl, ⟨_, _, rfl, ⟨_, _, rfl, ⟨_, _, rfl, ⟨_, _, rfl, rfl, rfl⟩, _, rfl, rfl⟩, rfl⟩, he⟩, t, rfl⟩, ps, rfl, hps⟩
        refine ⟨(e, (eatInterpBody { s4.lex with interp := true } s4.lex.rest).value) :: ps, rfl, ?_⟩
        rw [item_str ht, hint]
        simpa using Gram.strMore (t := t) (v := s.lex.value) he hps
    · exact Ends.error
  · rename_i hint
    refine AtPos.eatVal st ht (by decide) (by decide) fun s1 _ h1 => Ends.pure (h1.imp (by simp) ?_)
    rintro _ ⟨_, _, rfl, rfl, rfl⟩
    refine ⟨[], rfl, ?_⟩
    rw [item_str ht]
    simp only [Bool.not_eq_true] at hint
    rw [hint]
    exact .strEnd

theorem atom_step : Meets src H n (parseConstant cfg) (fun _ => True) true (fun _ r ts => Gram cfg.strtod cfg.fold .atom ts r) := by
  intro s hi hn _
  rw [parseConstant]
  refine Ends.curtok ?_
  have st := AtPos.start hi
  split
  · rename_i ht
    refine AtPos.eatSame st ht (by decide) (by decide) fun s1 _ h1 => AtPos.name h1 fun x s2 _ h2 => Ends.pure (h2.imp (by simp) ?_)
    rintro _ ⟨_, _, rfl, ⟨_, _, rfl, rfl, _, rfl, rfl⟩, rfl⟩; exact .field
  · unfold parseId
    refine AtPos.name st fun x s2 _ h2 => Ends.pure (h2.imp (by simp) ?_)
    rintro _ ⟨_, _, rfl, rfl, rfl⟩; exact .var
  · rename_i ht
    refine AtPos.eatSame st ht (by decide) (by decide) fun s1 _ h1 => ?_
    have m1 := h1.lt rfl
    refine AtPos.call h1 (ih (n - 1) (by omega)).expr (by omega) trivial fun e s2 h2 => AtPos.eat h2 (by decide) (by decide) fun s3 h3 => Ends.pure (h3.imp (by simp) ?_)
    rintro _ ⟨_, _, rfl, ⟨_, _, rfl, ⟨_, _, rfl, rfl, _, rfl, rfl⟩, he⟩, _, rfl, rfl⟩
    simpa using Gram.paren he
  · rename_i ht
    exact (list_step hU ih s hi hn ht).mono fun _ _ h => h
  · rename_i ht
    exact (table_step hU ih s hi hn ht).mono fun _ _ h => h
  · rename_i ht
    refine Ends.getLex ((string_step hU ih _ s hi hn ht).mono fun r s' h => h.imp (by simp) ?_)
    rintro ts ⟨ps, rfl, hps⟩
    exact .string hps
  · rename_i ht
    refine AtPos.call st (parseInteger_meets n) hn ht fun i s1 h1 => Ends.pure (h1.imp (by simp) ?_)
    rintro _ ⟨_, _, rfl, rfl, v, rfl, rfl⟩; exact .int
  · rename_i ht
    refine AtPos.call st (parseFloat_meets n) hn ht fun i s1 h1 => Ends.pure (h1.imp (by simp) ?_)
    rintro _ ⟨_, _, rfl, rfl, v, rfl, rfl⟩; exact .float
  · rename_i ht
    refine AtPos.call st (parseBoolean_meets n) hn ht fun i s1 h1 => Ends.pure (h1.imp (by simp) ?_)
    rintro _ ⟨_, _, rfl, rfl, v, rfl, rfl⟩; exact .bool
  · rename_i ht
    refine AtPos.eatSame st ht (by decide) (by decide) fun s1 _ h1 => Ends.pure (h1.imp (by simp) ?_)
    rintro _ ⟨_, _, rfl, rfl, _, rfl, rfl⟩; exact .undef
  · rename_i ht
    exact (lambda_step hU ih s hi hn ht).mono fun _ _ h => h
  · exact Ends.error

theorem postLoop_step (e : Node) : Meets src H n (parseCallLoop cfg e) (fun _ => True) false (fun _ r ts =>
    ∀ tl, Gram cfg.strtod cfg.fold .post tl e → Gram cfg.strtod cfg.fold .post (tl ++ ts) r) := by
  intro s hi hn _
  rw [parseCallLoop]
  refine Ends.curtok ?_
  have st := AtPos.start hi
  split
  · rename_i ht
    refine AtPos.eatSame st ht (by decide) (by decide) fun s1 _ h1 => ?_
    have m1 := h1.lt rfl
    have ih1 := ih (n - 1) (by omega)
    refine AtPos.call h1 ih1.atom (by omega) trivial fun r s2 h2 => ?_
    split
    · refine AtPos.eat h2 (by decide) (by decide) fun s3 h3 => ?_
      have m3 := h3.lt rfl
      refine AtPos.call h3 (ih1.args _) (by omega) trivial fun es s4 h4 => AtPos.eat h4 (by decide) (by decide) fun s5 h5 => ?_
      have m5 := h5.lt rfl
      refine AtPos.last h5 (ih1.postLoop _) (by omega) trivial fun r s6 h6 => h6.imp (by simp) ?_
      rintro _ ⟨_, _, rfl, ⟨_, _, rfl, ⟨_, _, rfl, ⟨_, _, rfl, ⟨_, _, rfl, ⟨_, _, rfl, rfl, _, rfl, rfl⟩, hm⟩, _, rfl, rfl⟩, as, rfl, has⟩, _, rfl, rfl⟩, hl⟩ tl htl
      have := hl _ (by rw [← lastSpread_eq]; exact Gram.mcall htl hm has)
      simpa using this
    · exact Ends.error
  · rename_i ht
    refine AtPos.eatSame st ht (by decide) (by decide) fun s1 _ h1 => ?_
    have m1 := h1.lt rfl
    have ih1 := ih (n - 1) (by omega)
    refine AtPos.call h1 ih1.atom (by omega) trivial fun r s2 h2 => ?_
    have m2 := h2.lt rfl
    split
    · refine AtPos.last h2 (ih1.postLoop _) (by omega) trivial fun r s6 h6 => h6.imp (by simp) ?_
      rintro _ ⟨_, _, rfl, ⟨_, _, rfl, ⟨_, _, rfl, rfl, _, rfl, rfl⟩, hm⟩, hl⟩ tl htl
      simpa using hl _ (Gram.dotCall htl hm)
    · exact Ends.ub (hU.dot (hi.dot ht))
    · refine AtPos.last h2 (ih1.postLoop _) (by omega) trivial fun r s6 h6 => h6.imp (by simp) ?_
      rintro _ ⟨_, _, rfl, ⟨_, _, rfl, ⟨_, _, rfl, rfl, _, rfl, rfl⟩, hm⟩, hl⟩ tl htl
      simpa using hl _ (Gram.dot htl hm)
    · exact Ends.error
  · rename_i ht
    refine AtPos.eatSame st ht (by decide) (by decide) fun s1 _ h1 => ?_
    have m1 := h1.lt rfl
    have ih1 := ih (n - 1) (by omega)
    refine AtPos.matchTok h1 (by decide) (by decide) (fun s2 _ _ h2 => Ends.curtok ?_) (fun _ => ?_)
    · have m2 := h2.lt rfl
      split
      · rename_i ht2
        refine AtPos.eatSame h2 ht2 (by decide) (by decide) fun s3 _ h3 => ?_
        have m3 := h3.lt rfl
        refine AtPos.last h3 (ih1.postLoop _) (by omega) trivial fun r s6 h6 => h6.imp (by simp) ?_
        rintro _ ⟨_, _, rfl, ⟨_, _, rfl, ⟨_, _, rfl, ⟨_, _, rfl, rfl, _, rfl, rfl⟩, _, rfl, rfl⟩, _, rfl, rfl⟩, hl⟩ tl htl
        simpa using hl _ (Gram.sliceAll htl)
      · refine AtPos.call h2 ih1.expr (by omega) trivial fun b s3 h3 => AtPos.eat h3 (by decide) (by decide) fun s4 h4 => ?_
        have m4 := h4.lt rfl
        refine AtPos.last h4 (ih1.postLoop _) (by omega) trivial fun r s6 h6 => h6.imp (by simp) ?_
        rintro _ ⟨_, _, rfl, ⟨_, _, rfl, ⟨_, _, rfl, ⟨_, _, rfl, ⟨_, _, rfl, rfl, _, rfl, rfl⟩, _, rfl, rfl⟩, hb⟩, _, rfl, rfl⟩, hl⟩ tl htl
        simpa using hl _ (Gram.sliceTo htl hb)
    · refine AtPos.call h1 ih1.expr (by omega) trivial fun a s2 h2 => ?_
      refine AtPos.matchTok h2 (by decide) (by decide) (fun s3 _ _ h3 => Ends.curtok ?_) (fun _ => ?_)
      · have m3 := h3.lt rfl
        split
        · rename_i ht3
          refine AtPos.eatSame h3 ht3 (by decide) (by decide) fun s4 _ h4 => ?_
          have m4 := h4.lt rfl
          refine AtPos.last h4 (ih1.postLoop _) (by omega) trivial fun r s6 h6 => h6.imp (by simp) ?_
          rintro _ ⟨_, _, rfl, ⟨_, _, rfl, ⟨_, _, rfl, ⟨_, _, rfl, ⟨_, _, rfl, rfl, _, rfl, rfl⟩, ha⟩, _, rfl, rfl⟩, _, rfl, rfl⟩, hl⟩ tl htl
          simpa using hl _ (Gram.sliceFrom htl ha)
        · refine AtPos.call h3 ih1.expr (by omega) trivial fun b s4 h4 => AtPos.eat h4 (by decide) (by decide) fun s5 h5 => ?_
          have m5 := h5.lt rfl
          refine AtPos.last h5 (ih1.postLoop _) (by omega) trivial fun r s6 h6 => h6.imp (by simp) ?_
          rintro _ ⟨_, _, rfl, ⟨_, _, rfl, ⟨_, _, rfl, ⟨_, _, rfl, ⟨_, _, rfl, ⟨_, _, rfl, rfl, _, rfl, rfl⟩, ha⟩, _, rfl, rfl⟩, hb⟩, _, rfl, rfl⟩, hl⟩ tl htl
          simpa using hl _ (Gram.slice htl ha hb)
      · refine AtPos.eat h2 (by decide) (by decide) fun s3 h3 => ?_
        have m3 := h3.lt rfl
        refine AtPos.last h3 (ih1.postLoop _) (by omega) trivial fun r s6 h6 => h6.imp (by simp) ?_
        rintro _ ⟨_, _, rfl, ⟨_, _, rfl, ⟨_, _, rfl, ⟨_, _, rfl, rfl, _, rfl, rfl⟩, ha⟩, _, rfl, rfl⟩, hl⟩ tl htl
        simpa using hl _ (Gram.index htl ha)
  · rename_i ht
    refine AtPos.eatSame st ht (by decide) (by decide) fun s1 _ h1 => ?_
    have m1 := h1.lt rfl
    have ih1 := ih (n - 1) (by omega)
    refine AtPos.call h1 (ih1.args _) (by omega) trivial fun es s4 h4 => AtPos.eat h4 (by decide) (by decide) fun s5 h5 => ?_
    have m5 := h5.lt rfl
    refine AtPos.last h5 (ih1.postLoop _) (by omega) trivial fun r s6 h6 => h6.imp (by simp) ?_
    rintro _ ⟨_, _, rfl, ⟨_, _, rfl, ⟨_, _, rfl, ⟨_, _, rfl, rfl, _, rfl, rfl⟩, as, rfl, has⟩, _, rfl, rfl⟩, hl⟩ tl htl
    have := hl _ (by rw [← lastSpread_eq]; exact Gram.call htl has)
    simpa using this
  · refine Ends.pure (st.imp (by simp) ?_)
    rintro _ rfl tl htl
    simpa using htl

theorem post_step : Meets src H n (parseCall cfg) (fun _ => True) true (fun _ r ts => Gram cfg.strtod cfg.fold .post ts r) := by
  intro s hi hn _
  rw [parseCall]
  refine AtPos.call (AtPos.start hi) (atom_step hU ih) hn trivial fun e s1 h1 => ?_
  have m1 := h1.mu
  refine AtPos.last h1 (postLoop_step hU ih e) (by omega) trivial fun r s2 h2 => h2.imp (by simp) ?_
  rintro _ ⟨_, _, rfl, ⟨_, _, rfl, rfl, he⟩, hl⟩
  simpa using hl _ (Gram.postOne he)

theorem power_step : Meets src H n (parsePower cfg) (fun _ => True) true (fun _ r ts => Gram cfg.strtod cfg.fold .power ts r) := by
  intro s hi hn _
  rw [parsePower]
  refine AtPos.call (AtPos.start hi) (post_step hU ih) hn trivial fun e s1 h1 => ?_
  refine AtPos.matchTok h1 (by decide) (by decide) (fun s2 _ _ h2 => ?_) (fun _ => Ends.pure (h1.imp (by simp) ?_))
  · have m2 := h2.lt rfl
    refine AtPos.call h2 (ih (n - 1) (by omega)).unary (by omega) trivial fun r s3 h3 => Ends.pure (h3.imp (by simp) ?_)
    rintro _ ⟨_, _, rfl, ⟨_, _, rfl, ⟨_, _, rfl, rfl, hl⟩, _, rfl, rfl⟩, hr⟩
    simpa using Gram.power hl hr
  · rintro _ ⟨_, _, rfl, rfl, hg⟩
    exact .powerOne hg

theorem unary_step : Meets src H n (parseUnary cfg) (fun _ => True) true (fun _ r ts => Gram cfg.strtod cfg.fold .unary ts r) := by
  intro s hi hn _
  rw [parseUnary]
  refine Ends.curtok ?_
  have st := AtPos.start hi
  split
  · rename_i ht
    have hm : s.lex.type ∈ unaryOps := by simpa [unaryOps] using ht
    have hop : ∀ t ∈ unaryOps, t ≠ .unknown ∧ t ≠ .eof ∧ (∀ i, ItemOf t i → i = .op t) := by
      intro t ht
      simp only [unaryOps, List.mem_cons, List.not_mem_nil, or_false] at ht
      rcases ht with rfl | rfl | rfl | rfl | rfl <;> exact ⟨by decide, by decide, fun i h => h⟩
    obtain ⟨o1, o2, o3⟩ := hop _ hm
    refine AtPos.eatSame st rfl o1 o2 fun s1 _ h1 => ?_
    have m1 := h1.lt rfl
    refine AtPos.call h1 (ih (n - 1) (by omega)).unary (by omega) trivial fun e s2 h2 => Ends.pure (h2.imp (by simp) ?_)
    rintro _ ⟨_, _, rfl, ⟨_, _, rfl, rfl, i, rfl, hit⟩, he⟩
    rw [o3 i hit]
    simpa using Gram.unary hm he
  · refine AtPos.last st (power_step hU ih) hn trivial fun r s1 h1 => h1.imp (by simp) ?_
    rintro _ ⟨_, _, rfl, rfl, hg⟩
    exact .unaryOne hg

theorem binLoop_step (k : Nat) (hk : k < 12) (hr : binRight k = false) (e : Node) : Meets src H n (parseBinLoop cfg k e) (fun _ => True) false (fun _ r ts =>
    ∀ tl, Gram cfg.strtod cfg.fold (.bin k) tl e → Gram cfg.strtod cfg.fold (.bin k) (tl ++ ts) r) := by
  intro s hi hn _
  rw [parseBinLoop]
  refine Ends.curtok ?_
  have st := AtPos.start hi
  split
  · rename_i ht
    obtain ⟨o1, o2, o3, o4⟩ := binToks_op k hk _ ht
    rw [hr] at o4
    refine AtPos.eatSame st rfl o1 o2 fun s1 _ h1 => ?_
    have m1 := h1.lt rfl
    have ih1 := ih (n - 1) (by omega)
    refine AtPos.call h1 (ih1.bin (k + 1) (by omega)) (by omega) trivial fun r s2 h2 => ?_
    have m2 := h2.lt rfl
    refine AtPos.last h2 (ih1.binLoop k hk hr _) (by omega) trivial fun r s3 h3 => h3.imp (by simp) ?_
    rintro _ ⟨_, _, rfl, ⟨_, _, rfl, ⟨_, _, rfl, rfl, i, rfl, hit⟩, hg⟩, hl⟩ tl htl
    rw [o3 i hit]
    simpa using hl _ (Gram.binLeft o4 htl hg)
  · refine Ends.pure (st.imp (by simp) ?_)
    rintro _ rfl tl htl
    simpa using htl

theorem bin_step : ∀ j k, k + j = 12 → Meets src H n (parseBin cfg k) (fun _ => True) true (fun _ r ts => Gram cfg.strtod cfg.fold (.bin k) ts r) := by
  intro j
  induction j with
  | zero =>
    intro k hk s hi hn _
    have hk : k = 12 := hk
    subst hk
    rw [parseBin]
    rw [if_neg (by decide)]
    refine AtPos.last (AtPos.start hi) (unary_step hU ih) hn trivial fun r s1 h1 => h1.imp (by simp) ?_
    rintro _ ⟨_, _, rfl, rfl, hg⟩
    exact .binUnary hg
  | succ j ihj =>
    intro k hk s hi hn _
    rw [parseBin]
    rw [if_pos (by omega)]
    refine AtPos.call (AtPos.start hi) (ihj (k + 1) (by omega)) hn trivial fun e s1 h1 => ?_
    have m1 := h1.lt rfl
    cases hr : binRight k with
    | true =>
      rw [if_pos rfl]
      refine Ends.curtok ?_
      split
      · rename_i ht
        obtain ⟨o1, o2, o3, o4⟩ := binToks_op k (by omega) _ ht
        rw [hr] at o4
        refine AtPos.eatSame h1 rfl o1 o2 fun s2 _ h2 => ?_
        have m2 := h2.lt rfl
        refine AtPos.call h2 ((ih (n - 1) (by omega)).bin k (by omega)) (by omega) trivial fun r s3 h3 => Ends.pure (h3.imp (by simp) ?_)
        rintro _ ⟨_, _, rfl, ⟨_, _, rfl, ⟨_, _, rfl, rfl, hl⟩, i, rfl, hit⟩, hg⟩
        rw [o3 i hit]
        simpa using Gram.binRight o4 hl hg
      · refine Ends.pure (h1.imp (by simp) ?_)
        rintro _ ⟨_, _, rfl, rfl, hg⟩
        exact .binUp (by omega) hg
    | false =>
      rw [if_neg (by decide)]
      refine AtPos.last h1 (binLoop_step hU ih k (by omega) hr e) (by omega) trivial fun r s3 h3 => h3.imp (by simp) ?_
      rintro _ ⟨_, _, rfl, ⟨_, _, rfl, rfl, hg⟩, hl⟩
      simpa using hl _ (Gram.binUp (by omega) hg)

theorem tern_step : Meets src H n (parseTernary cfg) (fun _ => True) true (fun _ r ts => Gram cfg.strtod cfg.fold .tern ts r) := by
  intro s hi hn _
  rw [parseTernary]
  refine AtPos.call (AtPos.start hi) (bin_step hU ih 12 0 rfl) hn trivial fun c s1 h1 => ?_
  refine AtPos.matchTok h1 (by decide) (by decide) (fun s2 _ _ h2 => ?_) (fun _ => Ends.pure (h1.imp (by simp) ?_))
  · have m2 := h2.lt rfl
    have ih1 := ih (n - 1) (by omega)
    refine AtPos.call h2 ih1.tern (by omega) trivial fun a s3 h3 => AtPos.eat h3 (by decide) (by decide) fun s4 h4 => ?_
    have m4 := h4.lt rfl
    refine AtPos.call h4 ih1.tern (by omega) trivial fun b s5 h5 => Ends.pure (h5.imp (by simp) ?_)
    rintro _ ⟨_, _, rfl, ⟨_, _, rfl, ⟨_, _, rfl, ⟨_, _, rfl, ⟨_, _, rfl, rfl, hc⟩, _, rfl, rfl⟩, ha⟩, _, rfl, rfl⟩, hb⟩
    simpa using Gram.tern hc ha hb
  · rintro _ ⟨_, _, rfl, rfl, hg⟩
    exact .ternOne hg

theorem expr_step : Meets src H n (parseExpr cfg) (fun _ => True) true (fun _ r ts => Gram cfg.strtod cfg.fold .expr ts r) := by
  intro s hi hn _
  rw [parseExpr]
  refine AtPos.call (AtPos.start hi) (tern_step hU ih) hn trivial fun c s1 h1 => ?_
  split
  · rename_i hf
    refine Ends.pure (h1.imp (by simp) ?_)
    rintro _ ⟨_, _, rfl, rfl, hg⟩
    exact .expr hg hf
  · rename_i hf; exact Ends.ub (hU.fold _ hf)
end
end Yasl
