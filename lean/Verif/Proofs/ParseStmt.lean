import Verif.Proofs.ParseSound
set_option autoImplicit false
set_option linter.unusedSectionVars false
/-! # Proofs about the parser: statements; the whole text -/
namespace Yasl
variable {src : List Byte} {H : Stop → Prop} {cfg : ParseCfg}

/-- The state after looking ahead. -/
def PSt.peeked (s : PSt) : PSt := { s with lex := { gettok s.lex with rest := s.lex.rest, type := s.lex.type, value := s.lex.value } }

/-- Looking ahead. -/
theorem peekTok_eq {β : Type} {f : Tok → P β} {Q : β → PSt → Prop} {s : PSt}
    (h : Ends H (f (gettok s.lex).type) s.peeked Q) :
    Ends H (peekTok >>= f) s Q := by
  unfold peekTok
  exact Ends.bind (Ends.getLex (eattok_same rfl (Ends.curtok (Ends.getLex (Ends.setLex (Ends.pure h))))))

/-- After looking ahead. -/
theorem peek_at {s : PSt} (hi : LexInv src s.lex) (hp : s.lex.type.peeks = true) :
    LexInv src s.peeked.lex := by
  have hg := hi.gettok
  refine ⟨hi.rest, hg.interp, hi.kwMatch, fun h => ?_, fun h => ?_, hi.dot⟩
  · have h : s.lex.type = .unknown := h
    rw [h] at hp; simp [Tok.peeks] at hp
  · have h : s.lex.type = .eof := h
    rw [h] at hp; simp [Tok.peeks] at hp

/-- What is parsed after looking ahead is parsed from before. -/
theorem peek_back {s s' : PSt} {b : Bool} {C D : List TextItem → Prop} (hp : s.lex.type.peeks = true)
    (h : AtPos src s.peeked b C s')
    (hs : ∀ ts, C ts → ∃ i us, ts = i :: us ∧ i.isTok = true) (hd : ∀ ts, Reads s.lex ts s'.lex → C ts → D ts) : AtPos src s b D s' := by
  refine ⟨h.inv, h.rest, h.mu, h.lt, fun ho => ?_⟩
  obtain ⟨h1, ts, h2, h3⟩ := h.ok ho
  obtain ⟨i, us, rfl, hi⟩ := hs ts h3
  have h4 := h2.sim (peek_sim s.lex hp) hi
  exact ⟨h1, _, h4, hd _ h4 h3⟩

theorem ret_more {n : Nat} (h : MainSpec src H cfg n) (acc : List Node) : Meets src H n (parseCommaExprs cfg acc) (fun s => s.lex.type = .comma) false
    (fun _ r ts => ∃ e es, r = acc ++ e :: es ∧ Gram cfg.strtod cfg.fold .more ts (e :: es)) := by
  intro s hi hn ht
  refine (h.more acc s hi hn trivial).mono fun r s' h1 => h1.imp (by simp) ?_
  rintro ts ⟨es, rfl, he, hg⟩
  cases es with
  | nil => exact absurd rfl (he ht)
  | cons e es => exact ⟨e, es, rfl, hg⟩

section
variable {n : Nat} (hU : UbOk src cfg H) (ih : ∀ m < n, MainSpec src H cfg m)
include hU ih

theorem lval_step : Meets src H n (parseLVal cfg) (fun _ => True) true (fun _ r ts => Gram cfg.strtod cfg.fold .lval ts r) := by
  intro s hi hn _
  rw [parseLVal]
  refine Ends.curtok ?_
  have st := AtPos.start hi
  split
  · rename_i ht
    refine AtPos.eatSame st ht (by decide) (by decide) fun s1 _ h1 => AtPos.name h1 fun x s2 _ h2 => Ends.pure (h2.imp (by simp) ?_)
    rintro _ ⟨_, _, rfl, ⟨_, _, rfl, rfl, _, rfl, rfl⟩, rfl⟩; exact .lvalLet
  · split
    · rename_i ht
      refine AtPos.eatSame st ht (by decide) (by decide) fun s1 _ h1 => AtPos.name h1 fun x s2 _ h2 => Ends.pure (h2.imp (by simp) ?_)
      rintro _ ⟨_, _, rfl, ⟨_, _, rfl, rfl, _, rfl, rfl⟩, rfl⟩; exact .lvalConst
    · refine AtPos.call st (post_step hU ih) hn trivial fun e s1 h1 => ?_
      split
      · refine Ends.pure (h1.imp (by simp) ?_)
        rintro _ ⟨_, _, rfl, rfl, hg⟩; exact .lvalVar hg
      · refine Ends.pure (h1.imp (by simp) ?_)
        rintro _ ⟨_, _, rfl, rfl, hg⟩; exact .lvalGet hg
      · exact Ends.error

theorem pack_step (k : Nat) (acc : List Node) (ha : acc.length ≤ k) : Meets src H n (parseVarPack cfg k acc) (fun _ => True) true
    (fun _ r ts => ∃ (te tm : List TextItem) (e : Node) (es : List Node), ts = te ++ tm ∧
    Gram cfg.strtod cfg.fold .expr te e ∧ Gram cfg.strtod cfg.fold .more tm es ∧ (acc ++ e :: es).length ≤ k + 1 ∧ r = packEnd k (acc ++ e :: es)) := by
  intro s hi hn _
  rw [parseVarPack]
  refine AtPos.call (AtPos.start hi) (expr_step hU ih) hn trivial fun e s1 h1 => ?_
  have one : AtPos src s true (fun ts => ∃ (te tm : List TextItem) (e' : Node) (es : List Node), ts = te ++ tm ∧
    Gram cfg.strtod cfg.fold .expr te e' ∧ Gram cfg.strtod cfg.fold .more tm es ∧ (acc ++ e' :: es).length ≤ k + 1 ∧
      packEnd k (acc ++ [e]) = packEnd k (acc ++ e' :: es)) s1 := by
    refine h1.imp (by simp) ?_
    rintro _ ⟨_, t2, rfl, rfl, hg⟩
    exact ⟨t2, [], e, [], by simp, hg, .moreEnd, by simpa using ha, rfl⟩
  split
  · rename_i hlt
    refine AtPos.matchTok h1 (by decide) (by decide) (fun s2 _ _ h2 => ?_) (fun _ => Ends.pure one)
    have m2 := h2.lt rfl
    refine AtPos.last h2 ((ih (n - 1) (by omega)).pack k (acc ++ [e]) (by simp; omega)) (by omega) trivial fun r s3 h3 => h3.imp (by simp) ?_
    rintro _ ⟨_, _, rfl, ⟨_, _, rfl, ⟨_, _, rfl, rfl, hg⟩, _, rfl, rfl⟩, te, tm, e', es, rfl, he, hm, hl, rfl⟩
    exact ⟨_, _, e, e' :: es, by simp, hg, Gram.more he hm, by simpa using hl, by simp⟩
  · exact Ends.pure one

theorem decl_step (lv : List Node) (k : Nat) : Meets src H n (parseDeclHelper cfg lv k) (fun _ => True) true
    (fun s r ts => ∃ (tl te tm : List TextItem) (ls : List Node) (e : Node) (es : List Node), (s.lex.type = .comma → ls ≠ []) ∧ ts = tl ++ .op .eq :: (te ++ tm) ∧
    Gram cfg.strtod cfg.fold .lvals tl ls ∧ Gram cfg.strtod cfg.fold .expr te e ∧ Gram cfg.strtod cfg.fold .more tm es ∧
    (e :: es).length ≤ k + ls.length + 1 ∧ r = .decl (lv ++ ls) (padTo (k + ls.length) (e :: es))) := by
  intro s hi hn _
  rw [parseDeclHelper]
  have st := AtPos.start hi
  refine AtPos.matchTok st (by decide) (by decide) (fun s1 _ _ h1 => ?_) (fun hne => ?_)
  · have m1 := h1.lt rfl
    have ih1 := ih (n - 1) (by omega)
    refine AtPos.call h1 ih1.lval (by omega) trivial fun l s2 h2 => ?_
    have m2 := h2.lt rfl
    refine AtPos.last h2 (ih1.decl _ _) (by omega) trivial fun r s3 h3 => h3.imp (by simp) ?_
    rintro _ ⟨_, _, rfl, ⟨_, _, rfl, ⟨_, _, rfl, rfl, _, rfl, rfl⟩, hg⟩, tl, te, tm, ls, e, es, -, rfl, hls, he, hm, hl, rfl⟩
    refine ⟨_, te, tm, l :: ls, e, es, by simp, ?_, Gram.lvals hg hls, he, hm, ?_, ?_⟩
    · simp
    · simp only [List.length_cons] at hl ⊢; omega
    · simp only [List.length_cons, List.append_assoc, List.singleton_append]
      rw [show k + 1 + ls.length = k + (ls.length + 1) by omega]
  · refine AtPos.eat st (by decide) (by decide) fun s1 h1 => ?_
    have m1 := h1.mu
    refine AtPos.call h1 (pack_step hU ih k [] (by simp)) (by omega) trivial fun rs s2 h2 => Ends.pure (h2.imp (by simp) ?_)
    rintro _ ⟨_, _, rfl, ⟨_, _, rfl, rfl, _, rfl, rfl⟩, te, tm, e, es, rfl, he, hm, hl, rfl⟩
    refine ⟨[], te, tm, [], e, es, fun h => absurd h hne, by simp, .lvalsEnd, he, hm, by simpa using hl, ?_⟩
    rw [padTo_eq _ _ (by simp)]
    simp

theorem assign_step (cur : Node) : Meets src H n (parseAssign cfg cur) (fun s => s.lex.type = .eq ∨ s.lex.type.isAugmented = true) true
    (fun _ r ts => ∀ tx, Gram cfg.strtod cfg.fold .expr tx cur → Gram cfg.strtod cfg.fold .simple (tx ++ ts) r) := by
  intro s hi hn hp
  rw [parseAssign.eq_def]
  have st := AtPos.start hi
  refine AtPos.matchTok st (by decide) (by decide) (fun s1 _ _ h1 => ?_) (fun hne => Ends.curtok ?_)
  · have m1 := h1.lt rfl
    have ih1 := ih (n - 1) (by omega)
    rw [if_pos rfl]
    split
    · refine AtPos.call h1 ih1.expr (by omega) trivial fun e s2 h2 => Ends.pure (h2.imp (by simp) ?_)
      rintro _ ⟨_, _, rfl, ⟨_, _, rfl, rfl, _, rfl, rfl⟩, hg⟩ tx htx
      simpa using Gram.assign htx hg
    · refine AtPos.call h1 ih1.expr (by omega) trivial fun e s2 h2 => Ends.pure (h2.imp (by simp) ?_)
      rintro _ ⟨_, _, rfl, ⟨_, _, rfl, rfl, _, rfl, rfl⟩, hg⟩ tx htx
      simpa using Gram.set htx hg
    · exact Ends.error
  · have ha : s.lex.type.isAugmented = true := hp.resolve_left hne
    rw [if_pos ha]
    obtain ⟨o1, o2, -, o3, o4⟩ := augmented_op _ ha
    refine AtPos.eatSame st rfl o1 o2 fun s1 _ h1 => ?_
    have m1 := h1.lt rfl
    have ih1 := ih (n - 1) (by omega)
    split
    · refine AtPos.call h1 ih1.expr (by omega) trivial fun e s2 h2 => Ends.pure (h2.imp (by simp) ?_)
      rintro _ ⟨_, _, rfl, ⟨_, _, rfl, rfl, i, rfl, hit⟩, hg⟩ tx htx
      rw [o3 i hit]
      simpa using Gram.augAssign o4 htx hg
    · refine AtPos.call h1 ih1.expr (by omega) trivial fun e s2 h2 => Ends.pure (h2.imp (by simp) ?_)
      rintro _ ⟨_, _, rfl, ⟨_, _, rfl, rfl, i, rfl, hit⟩, hg⟩ tx htx
      rw [o3 i hit]
      simpa using Gram.augSet o4 htx hg
    · exact Ends.error

theorem simple_step : Meets src H n (parseAssignOrExpr cfg) (fun _ => True) true (fun _ r ts => Gram cfg.strtod cfg.fold .simple ts r) := by
  intro s hi hn _
  rw [parseAssignOrExpr]
  refine AtPos.call (AtPos.start hi) (expr_step hU ih) hn trivial fun e s1 h1 => Ends.curtok ?_
  have m1 := h1.mu
  have one : AtPos src s true (fun ts => Gram cfg.strtod cfg.fold .simple ts (.exprStmt e)) s1 := by
    refine h1.imp (by simp) ?_
    rintro _ ⟨_, _, rfl, rfl, hg⟩
    exact .exprStmt hg
  split
  · rename_i ht
    refine AtPos.last h1 (assign_step hU ih e) (by omega) ht fun r s2 h2 => h2.imp (by simp) ?_
    rintro _ ⟨_, _, rfl, ⟨_, _, rfl, rfl, hg⟩, hl⟩
    exact hl _ hg
  · split
    · rename_i c k
      split
      · rename_i hc
        have hdc := decl_step hU ih [.set c k none] 0
        refine AtPos.last h1 hdc (by omega) trivial fun r s2 h2 => h2.imp (by simp) ?_
        rintro _ ⟨_, _, rfl, ⟨_, t2, rfl, rfl, hg⟩, tl, te, tm, ls, e, es, hcm, rfl, hls, he, hm, hl, rfl⟩
        cases ls with
        | nil => exact absurd rfl (hcm hc)
        | cons l ls =>
          have h4 := Gram.declSet hg hls he hm (by simpa using hl)
          simpa using h4
      · exact Ends.pure one
    · exact Ends.pure one

theorem return_step : Meets src H n (parseReturn cfg) (fun s => s.lex.type = .ret) true (fun _ r ts => Gram cfg.strtod cfg.fold .stmt ts r) := by
  intro s hi hn ht
  rw [parseReturn]
  refine AtPos.eatSame (AtPos.start hi) ht (by decide) (by decide) fun s1 _ h1 => ?_
  have m1 := h1.lt rfl
  have ih1 := ih (n - 1) (by omega)
  refine AtPos.call h1 ih1.expr (by omega) trivial fun e s2 h2 => Ends.curtok ?_
  have m2 := h2.lt rfl
  split
  · rename_i hc
    have h3 := more_step hU ih [e]
    refine AtPos.call h2 (ret_more ih1 [e]) (by omega) hc fun es s3 h3 => Ends.pure (h3.imp (by simp) ?_)
    rintro _ ⟨_, _, rfl, ⟨_, _, rfl, ⟨_, _, rfl, rfl, _, rfl, rfl⟩, hg⟩, e', es, rfl, hm⟩
    rw [← lastSpread_eq]
    simpa using Gram.multiRet hg hm
  · refine Ends.pure (h2.imp (by simp) ?_)
    rintro _ ⟨_, _, rfl, ⟨_, _, rfl, rfl, _, rfl, rfl⟩, hg⟩
    exact .ret hg

theorem fn_step : Meets src H n (parseFn cfg) (fun s => s.lex.type = .fn) true (fun _ r ts => (∃ us, ts = .op .fn :: us) ∧ Gram cfg.strtod cfg.fold .stmt ts r) := by
  intro s hi hn ht
  rw [parseFn]
  refine AtPos.eatSame (AtPos.start hi) ht (by decide) (by decide) fun s1 _ h1 => AtPos.name h1 fun x s2 _ h2 => ?_
  have m2 := h2.lt rfl
  have ih1 := ih (n - 1) (by omega)
  refine AtPos.matchTok h2 (by decide) (by decide) (fun s3 _ _ h3 => ?_) (fun _ => ?_)
  · refine AtPos.name h3 fun m s4 _ h4 => AtPos.eat h4 (by decide) (by decide) fun s5 h5 => ?_
    have m5 := h5.lt rfl
    refine AtPos.call h5 (parseParams_meets (n - 1) _) (by omega) trivial fun ps s6 h6 => AtPos.eat h6 (by decide) (by decide) fun s7 h7 => ?_
    have m7 := h7.lt rfl
    refine AtPos.call h7 ih1.body (by omega) trivial fun ss s8 h8 => Ends.pure (h8.imp (by simp) ?_)
    rintro _ ⟨_, _, rfl, ⟨_, _, rfl, ⟨_, _, rfl, ⟨_, _, rfl, ⟨_, _, rfl, ⟨_, _, rfl, ⟨_, _, rfl, ⟨_, _, rfl, rfl, _, rfl, rfl⟩, rfl⟩, _, rfl, rfl⟩, rfl⟩, _, rfl, rfl⟩, ps, rfl, hps⟩,
      _, rfl, rfl⟩, hb⟩
    exact ⟨⟨_, rfl⟩, by simpa using Gram.fnMember hps hb⟩
  · refine AtPos.eat h2 (by decide) (by decide) fun s5 h5 => ?_
    have m5 := h5.lt rfl
    refine AtPos.call h5 (parseParams_meets (n - 1) _) (by omega) trivial fun ps s6 h6 => AtPos.eat h6 (by decide) (by decide) fun s7 h7 => ?_
    have m7 := h7.lt rfl
    refine AtPos.call h7 ih1.body (by omega) trivial fun ss s8 h8 => Ends.pure (h8.imp (by simp) ?_)
    rintro _ ⟨_, _, rfl, ⟨_, _, rfl, ⟨_, _, rfl, ⟨_, _, rfl, ⟨_, _, rfl, ⟨_, _, rfl, rfl, _, rfl, rfl⟩, rfl⟩, _, rfl, rfl⟩, ps, rfl, hps⟩, _, rfl, rfl⟩, hb⟩
    exact ⟨⟨_, rfl⟩, by simpa using Gram.fnDecl hps hb⟩

theorem constFn_step : Meets src H n (parseConstFn cfg) (fun s => s.lex.type = .const) true
    (fun _ r ts => (∃ us, ts = .op .const :: us) ∧ Gram cfg.strtod cfg.fold .stmt ts r) := by
  intro s hi hn ht
  rw [parseConstFn]
  refine AtPos.eatSame (AtPos.start hi) ht (by decide) (by decide) fun s1 _ h1 => AtPos.eat h1 (by decide) (by decide) fun s1' h1' => AtPos.name h1' fun x s2 _ h2 => ?_
  have m2 := h2.lt rfl
  have ih1 := ih (n - 1) (by omega)
  refine AtPos.eat h2 (by decide) (by decide) fun s5 h5 => ?_
  have m5 := h5.lt rfl
  refine AtPos.call h5 (parseParams_meets (n - 1) _) (by omega) trivial fun ps s6 h6 => AtPos.eat h6 (by decide) (by decide) fun s7 h7 => ?_
  have m7 := h7.lt rfl
  refine AtPos.call h7 ih1.body (by omega) trivial fun ss s8 h8 => Ends.pure (h8.imp (by simp) ?_)
  rintro _ ⟨_, _, rfl, ⟨_, _, rfl, ⟨_, _, rfl, ⟨_, _, rfl, ⟨_, _, rfl, ⟨_, _, rfl, ⟨_, _, rfl, rfl, _, rfl, rfl⟩, _, rfl, rfl⟩, rfl⟩, _, rfl, rfl⟩, ps, rfl, hps⟩, _, rfl, rfl⟩, hb⟩
  exact ⟨⟨_, rfl⟩, by simpa using Gram.fnConst hps hb⟩

theorem for_step : Meets src H n (parseFor cfg) (fun s => s.lex.type = .for_) true (fun _ r ts => Gram cfg.strtod cfg.fold .stmt ts r) := by
  intro s hi hn ht
  rw [parseFor]
  refine AtPos.eatSame (AtPos.start hi) ht (by decide) (by decide) fun s1 _ h1 => Ends.curtok ?_
  have m1 := h1.lt rfl
  have ih1 := ih (n - 1) (by omega)
  split
  · rename_i hl
    refine AtPos.eatSame h1 hl (by decide) (by decide) fun s2 _ h2 => AtPos.name h2 fun x s3 _ h3 => AtPos.eat h3 (by decide) (by decide) fun s4 h4 => ?_
    have m4 := h4.lt rfl
    refine AtPos.call h4 ih1.expr (by omega) trivial fun e s5 h5 => AtPos.eat h5 (by decide) (by decide) fun s6 h6 => ?_
    have m6 := h6.lt rfl
    refine AtPos.call h6 ih1.expr (by omega) trivial fun c s7 h7 => AtPos.eat h7 (by decide) (by decide) fun s8 h8 => ?_
    have m8 := h8.lt rfl
    refine AtPos.call h8 ih1.simple (by omega) trivial fun p s9 h9 => ?_
    have m9 := h9.lt rfl
    refine AtPos.call h9 ih1.body (by omega) trivial fun ss sa ha => Ends.pure (ha.imp (by simp) ?_)
    rintro _ ⟨_, _, rfl, ⟨_, _, rfl, ⟨_, _, rfl, ⟨_, _, rfl, ⟨_, _, rfl, ⟨_, _, rfl, ⟨_, _, rfl, ⟨_, _, rfl, ⟨_, _, rfl, ⟨_, _, rfl, rfl, _, rfl, nl, rfl⟩, _, rfl, rfl⟩, rfl⟩,
      _, rfl, rfl⟩, he⟩, _, rfl, n1, rfl⟩, hc⟩, _, rfl, n2, rfl⟩, hp⟩, hb⟩
    simpa using Gram.forLet he hc hp hb
  · refine AtPos.call h1 (iterate_step hU ih (n - 1) (by omega)) (by omega) trivial fun it s2 h2 => ?_
    have m2 := h2.lt rfl
    refine AtPos.call h2 ih1.body (by omega) trivial fun ss s3 h3 => Ends.pure (h3.imp (by simp) ?_)
    rintro _ ⟨_, _, rfl, ⟨_, _, rfl, ⟨_, _, rfl, rfl, _, rfl, nl, rfl⟩, hit⟩, hb⟩
    simpa using Gram.forIter hit hb

theorem while_step : Meets src H n (parseWhile cfg) (fun s => s.lex.type = .while_) true (fun _ r ts => Gram cfg.strtod cfg.fold .stmt ts r) := by
  intro s hi hn ht
  rw [parseWhile]
  refine AtPos.eatSame (AtPos.start hi) ht (by decide) (by decide) fun s1 _ h1 => ?_
  have m1 := h1.lt rfl
  have ih1 := ih (n - 1) (by omega)
  refine AtPos.call h1 ih1.expr (by omega) trivial fun c s2 h2 => ?_
  have m2 := h2.lt rfl
  refine AtPos.call h2 ih1.body (by omega) trivial fun ss s3 h3 => Ends.pure (h3.imp (by simp) ?_)
  rintro _ ⟨_, _, rfl, ⟨_, _, rfl, ⟨_, _, rfl, rfl, _, rfl, rfl⟩, hc⟩, hb⟩
  simpa using Gram.while_ hc hb

theorem if_step : Meets src H n (parseIf cfg) (fun s => s.lex.type = .if_ ∨ s.lex.type = .elseif) true (fun s r ts => ∃ us, ts = .op s.lex.type :: us ∧
    Gram cfg.strtod cfg.fold .ifRest us r) := by
  intro s hi hn ht
  rw [parseIf]
  refine Ends.curtok ?_
  rw [if_pos ht]
  have hop : s.lex.type ≠ .unknown ∧ s.lex.type ≠ .eof ∧ (∀ i, ItemOf s.lex.type i → i = .op s.lex.type) := by
    rcases ht with ht | ht <;> rw [ht] <;> exact ⟨by decide, by decide, fun i h => h⟩
  obtain ⟨o1, o2, o3⟩ := hop
  refine AtPos.eatSame (AtPos.start hi) rfl o1 o2 fun s1 _ h1 => ?_
  have m1 := h1.lt rfl
  have ih1 := ih (n - 1) (by omega)
  refine AtPos.call h1 ih1.expr (by omega) trivial fun c s2 h2 => ?_
  have m2 := h2.lt rfl
  refine AtPos.call h2 ih1.body (by omega) trivial fun ss s3 h3 => Ends.curtok ?_
  have m3 := h3.lt rfl
  split
  · rename_i ht3
    refine AtPos.call h3 ih1.ifs (by omega) (.inr ht3) fun e s4 h4 => Ends.pure (h4.imp (by simp) ?_)
    rw [ht3]
    rintro _ ⟨_, _, rfl, ⟨_, _, rfl, ⟨_, _, rfl, ⟨_, _, rfl, rfl, i, rfl, hit⟩, hc⟩, hb⟩, us, rfl, he⟩
    rw [o3 i hit]
    exact ⟨_, by simp, Gram.ifElseif hc hb he⟩
  · split
    · rename_i ht3
      refine AtPos.eatSame h3 ht3 (by decide) (by decide) fun s4 _ h4 => ?_
      have m4 := h4.lt rfl
      refine AtPos.call h4 ih1.body (by omega) trivial fun es s5 h5 => Ends.pure (h5.imp (by simp) ?_)
      rintro _ ⟨_, _, rfl, ⟨_, _, rfl, ⟨_, _, rfl, ⟨_, _, rfl, ⟨_, _, rfl, rfl, i, rfl, hit⟩, hc⟩, hb⟩, _, rfl, rfl⟩, he⟩
      rw [o3 i hit]
      exact ⟨_, by simp, Gram.ifElse hc hb he⟩
    · refine Ends.pure (h3.imp (by simp) ?_)
      rintro _ ⟨_, _, rfl, ⟨_, _, rfl, ⟨_, _, rfl, rfl, i, rfl, hit⟩, hc⟩, hb⟩
      rw [o3 i hit]
      exact ⟨_, by simp, Gram.ifEnd hc hb⟩

theorem clauses_step (hH : ch '#' ∈ src → word "match" <:+: src → H .hang) (hm : word "match" <:+: src) (e : Node) (ps : List PatNode) (gs : List (Option Node))
    (bs : List (List Node)) : Meets src H n (parseClauses cfg e ps gs bs) (fun _ => True) false (fun _ r ts => ∃ cs : List (PatNode × Option Node × List Node),
    r = .match_ e (ps ++ cs.map (·.1)) (gs ++ cs.map (·.2.1)) (bs ++ cs.map (·.2.2)) ∧ Gram cfg.strtod cfg.fold .clauses ts cs) := by
  intro s hi hn _
  rw [parseClauses]
  refine Ends.curtok ?_
  have st := AtPos.start hi
  split
  · rename_i ht
    refine AtPos.call st (pattern_meets (fun h => hH h hm) n).pat hn trivial fun p s1 h1 => ?_
    have m1 := h1.lt rfl
    have ih1 := ih (n - 1) (by omega)
    refine AtPos.matchTok h1 (by decide) (by decide) (fun s2 _ _ h2 => ?_) (fun _ => ?_)
    · have m2 := h2.lt rfl
      refine AtPos.call h2 ih1.expr (by omega) trivial fun g s3 h3 => ?_
      have m3 := h3.lt rfl
      refine AtPos.call h3 ih1.body (by omega) trivial fun b s4 h4 => AtPos.eat h4 (by decide) (by decide) fun s5 h5 => ?_
      have m5 := h5.lt rfl
      refine AtPos.last h5 (ih1.clauses hm _ _ _ _) (by omega) trivial fun r s6 h6 => h6.imp (by simp) ?_
      rintro _ ⟨_, _, rfl, ⟨_, _, rfl, ⟨_, _, rfl, ⟨_, _, rfl, ⟨_, _, rfl, ⟨_, _, rfl, rfl, hp⟩, _, rfl, rfl⟩, hg⟩, hb⟩, _, rfl, nl, rfl⟩, cs, rfl, hcs⟩
      exact ⟨(p, some g, b) :: cs, by simp, by simpa using Gram.clauses hp (.cond hg) hb hcs⟩
    · refine AtPos.call h1 ih1.body (by omega) trivial fun b s4 h4 => AtPos.eat h4 (by decide) (by decide) fun s5 h5 => ?_
      have m5 := h5.lt rfl
      refine AtPos.last h5 (ih1.clauses hm _ _ _ _) (by omega) trivial fun r s6 h6 => h6.imp (by simp) ?_
      rintro _ ⟨_, _, rfl, ⟨_, _, rfl, ⟨_, _, rfl, ⟨_, _, rfl, rfl, hp⟩, hb⟩, _, rfl, nl, rfl⟩, cs, rfl, hcs⟩
      exact ⟨(p, none, b) :: cs, by simp, by simpa using Gram.clauses hp .condNone hb hcs⟩
  · refine Ends.pure (st.imp (by simp) ?_)
    rintro _ rfl
    exact ⟨[], by simp, .clausesEnd⟩

theorem match_step : Meets src H n (parseMatch cfg) (fun s => s.lex.type = .match_) true (fun _ r ts => Gram cfg.strtod cfg.fold .stmt ts r) := by
  intro s hi hn ht
  rw [parseMatch]
  refine AtPos.eatSame (AtPos.start hi) ht (by decide) (by decide) fun s1 _ h1 => ?_
  have m1 := h1.lt rfl
  have ih1 := ih (n - 1) (by omega)
  refine AtPos.call h1 ih1.expr (by omega) trivial fun e s2 h2 => AtPos.eat h2 (by decide) (by decide) fun s3 h3 => ?_
  have m3 := h3.lt rfl
  refine AtPos.call h3 (ih1.clauses (hi.kwMatch ht) _ _ _ _) (by omega) trivial fun r s4 h4 => AtPos.eat h4 (by decide) (by decide) fun s5 h5 => Ends.pure (h5.imp (by simp) ?_)
  rintro _ ⟨_, _, rfl, ⟨_, _, rfl, ⟨_, _, rfl, ⟨_, _, rfl, ⟨_, _, rfl, rfl, _, rfl, rfl⟩, he⟩, _, rfl, rfl⟩, cs, rfl, hcs⟩, _, rfl, rfl⟩
  simpa using Gram.match_ he hcs

theorem declStmt_step : Meets src H n (parseDecl cfg) (fun s => s.lex.type = .let_ ∨ s.lex.type = .const ∨ (s.lex.type = .id ∧ (gettok s.lex).type = .comma)) true
    (fun _ r ts => Gram cfg.strtod cfg.fold .stmt ts r) := by
  intro s hi hn ht
  rw [parseDecl]
  have st := AtPos.start hi
  have lead : ∀ {ts : List TextItem} {l : Node} {s' : PSt} {us : List TextItem}, s.lex.type = .let_ ∨ s.lex.type = .const → Reads s.lex (ts ++ us) s'.lex →
      Gram cfg.strtod cfg.fold .lval ts l → (∃ x, ts = [.op .let_, .word .id x] ∧ l = .let_ x none) ∨ (∃ x, ts = [.op .const, .word .id x] ∧ l = .const_ x none) := by
    intro ts l s' us hl hr hg
    have bad : Starts ts → False := by
      intro h
      obtain ⟨i, rest, rfl, h1, h2, -⟩ := h.ex
      have h3 := (hr.cons_inv h1).2.1
      rw [← h3] at h2
      rcases hl with hl | hl <;> rw [hl] at h2 <;> revert h2 <;> decide
    cases hg with
    | lvalLet => exact .inl ⟨_, rfl, rfl⟩
    | lvalConst => exact .inr ⟨_, rfl, rfl⟩
    | lvalVar h => exact (bad (gram_starts h)).elim
    | lvalGet h => exact (bad (gram_starts h)).elim
  have first : s.lex.type = .let_ ∨ s.lex.type = .const → Ends H (do let n ← parseLVal cfg; parseDeclHelper cfg [n] 1) s
      (fun a s' => AtPos src s true (fun ts => Gram cfg.strtod cfg.fold .stmt ts a) s') := by
    intro hl
    refine AtPos.call st (lval_step hU ih) hn trivial fun l s1 h1 => ?_
    have m1 := h1.lt rfl
    refine AtPos.last h1 (decl_step hU ih [l] 1) (by omega) trivial fun r s2 h2 => h2.impR (by simp) ?_
    rintro _ hr ⟨_, _, rfl, ⟨_, t1, rfl, rfl, hg⟩, tl, te, tm, ls, e, es, -, rfl, hls, he, hm, hlen, rfl⟩
    rw [List.nil_append] at hr ⊢
    rcases lead hl hr hg with ⟨x, rfl, rfl⟩ | ⟨x, rfl, rfl⟩
    · have := Gram.declLet (x := x) hls he hm (by simpa [Nat.add_comm, Nat.add_left_comm] using hlen)
      simpa [Nat.add_comm] using this
    · have := Gram.declConst (x := x) hls he hm (by simpa [Nat.add_comm, Nat.add_left_comm] using hlen)
      simpa [Nat.add_comm] using this
  rcases ht with ht | ht | ⟨ht, hc⟩
  · exact first (.inl ht)
  · exact first (.inr ht)
  · rw [parseLVal, parseCall, parseConstant, parseId]
    refine Ends.bind (Ends.curtok ?_)
    rw [ht, if_neg (by decide), if_neg (by decide)]
    refine Ends.bind (Ends.bind (Ends.curtok ?_))
    rw [ht]
    dsimp only
    refine AtPos.nameEq st fun x s1 _ e1 h1 => Ends.pure ?_
    have hc1 : s1.lex.type = .comma := by rw [e1]; exact hc
    rw [parseCallLoop]
    refine Ends.curtok ?_
    rw [hc1]
    refine Ends.pure (Ends.pure ?_)
    have m1 := h1.lt rfl
    refine AtPos.last h1 (decl_step hU ih [.assign x none] 1) (by omega) trivial fun r s2 h2 => h2.imp (by simp) ?_
    rintro _ ⟨_, _, rfl, ⟨_, t1, rfl, rfl, rfl⟩, tl, te, tm, ls, e, es, hcm, rfl, hls, he, hm, hlen, rfl⟩
    cases ls with
    | nil => exact absurd rfl (hcm hc1)
    | cons l ls =>
      have := Gram.declVar (x := x) hls he hm (by simp only [List.length_cons] at hlen ⊢; omega)
      simpa [Nat.add_comm, Nat.add_left_comm] using this

theorem program_step : Meets src H n (parseProgram cfg) (fun _ => True) false (fun _ r ts => Gram cfg.strtod cfg.fold .stmt ts r) := by
  intro s hi hn _
  rw [parseProgram]
  refine Ends.curtok ?_
  have st := AtPos.start hi
  have pm : s.peeked.lex.mu ≤ n := hn
  split
  · rename_i ht
    refine AtPos.eatSame st ht (by decide) (by decide) fun s1 _ h1 => ?_
    have m1 := h1.lt rfl
    refine AtPos.call h1 (ih (n - 1) (by omega)).expr (by omega) trivial fun e s2 h2 => Ends.pure (h2.imp (by simp) ?_)
    rintro _ ⟨_, _, rfl, ⟨_, _, rfl, rfl, _, rfl, rfl⟩, hg⟩
    exact .echo hg
  · rename_i ht
    have hp : s.lex.type.peeks = true := by rw [ht]; rfl
    refine peekTok_eq ?_
    split
    · refine (fn_step hU ih s.peeked (peek_at hi hp) pm ht).mono fun r s' h => (peek_back hp h ?_ ?_).imp (fun _ => rfl) (fun _ h => h)
      · rintro ts ⟨⟨us, rfl⟩, -⟩; exact ⟨_, _, rfl, rfl⟩
      · rintro ts - ⟨-, hg⟩; exact hg
    · refine (expr_step hU ih s.peeked (peek_at hi hp) pm trivial).mono fun r s' h => (peek_back hp h ?_ ?_).imp (fun _ => rfl) (fun _ h => h)
      · intro ts hg
        obtain ⟨i, us, h1, h2, -⟩ := (gram_starts hg).ex
        exact ⟨i, us, h1, h2⟩
      · intro ts hr hg
        obtain ⟨i, us, rfl, h2, -⟩ := (gram_starts hg).ex
        have h3 := hr.cons_inv h2
        have h4 : i = .op .fn := by rw [← h3.1]; unfold Lex.item; rw [ht]
        subst h4
        exact .fnExpr hg
  · rename_i ht
    exact (return_step hU ih s hi hn ht).mono fun _ _ h => h.imp (by simp) fun _ h => h
  · rename_i ht
    refine AtPos.eatSame st ht (by decide) (by decide) fun s1 _ h1 => ?_
    have m1 := h1.lt rfl
    refine AtPos.call h1 (ih (n - 1) (by omega)).expr (by omega) trivial fun e s2 h2 => Ends.pure (h2.imp (by simp) ?_)
    rintro _ ⟨_, _, rfl, ⟨_, _, rfl, rfl, _, rfl, rfl⟩, hg⟩
    exact .export_ hg
  · rename_i ht
    have hp : s.lex.type.peeks = true := by rw [ht]; rfl
    refine peekTok_eq ?_
    split
    · refine (constFn_step hU ih s.peeked (peek_at hi hp) pm ht).mono fun r s' h => (peek_back hp h ?_ ?_).imp (fun _ => rfl) (fun _ h => h)
      · rintro ts ⟨⟨us, rfl⟩, -⟩; exact ⟨_, _, rfl, rfl⟩
      · rintro ts - ⟨-, hg⟩; exact hg
    · refine (declStmt_step hU ih s.peeked (peek_at hi hp) pm (.inr (.inl ht))).mono fun r s' h => (peek_back hp h ?_ ?_).imp (fun _ => rfl) (fun _ h => h)
      · intro ts hg
        obtain ⟨i, us, h1, h2, -⟩ := gram_starts hg
        exact ⟨i, us, h1, h2⟩
      · intro ts _ hg; exact hg
  · rename_i ht
    exact (declStmt_step hU ih s hi hn (.inl ht)).mono fun _ _ h => h.imp (by simp) fun _ h => h
  · rename_i ht
    have hp : s.lex.type.peeks = true := by rw [ht]; rfl
    refine peekTok_eq ?_
    split
    · rename_i hc
      have hc' : (gettok s.peeked.lex).type = .comma := by
        have := (peek_sim s.lex hp).next.2.2.1
        exact this.trans hc
      refine (declStmt_step hU ih s.peeked (peek_at hi hp) pm (.inr (.inr ⟨ht, hc'⟩))).mono fun r s' h => (peek_back hp h ?_ ?_).imp (fun _ => rfl) (fun _ h => h)
      · intro ts hg
        obtain ⟨i, us, h1, h2, -⟩ := gram_starts hg
        exact ⟨i, us, h1, h2⟩
      · intro ts _ hg; exact hg
    · rename_i hc
      refine (simple_step hU ih s.peeked (peek_at hi hp) pm trivial).mono fun r s' h => (peek_back hp h ?_ ?_).imp (fun _ => rfl) (fun _ h => h)
      · intro ts hg
        obtain ⟨i, us, h1, h2, -⟩ := (gram_starts hg).ex
        exact ⟨i, us, h1, h2⟩
      · intro ts hr hg
        refine .simple ?_ ?_ hg
        · rintro us rfl
          have := (hr.cons_inv rfl).2.1
          rw [ht] at this; cases this
        · rintro x us rfl
          have := ((hr.cons_inv rfl).2.2.2.cons_inv rfl).2.1
          exact hc this
  · rename_i ht
    exact (for_step hU ih s hi hn ht).mono fun _ _ h => h.imp (by simp) fun _ h => h
  · rename_i ht
    exact (while_step hU ih s hi hn ht).mono fun _ _ h => h.imp (by simp) fun _ h => h
  · rename_i ht
    refine AtPos.eatSame st ht (by decide) (by decide) fun s1 _ h1 => Ends.pure (h1.imp (by simp) ?_)
    rintro _ ⟨_, _, rfl, rfl, _, rfl, rfl⟩; exact .brk
  · rename_i ht
    refine AtPos.eatSame st ht (by decide) (by decide) fun s1 _ h1 => Ends.pure (h1.imp (by simp) ?_)
    rintro _ ⟨_, _, rfl, rfl, _, rfl, rfl⟩; exact .cont
  · rename_i ht
    exact (match_step hU ih s hi hn ht).mono fun _ _ h => h.imp (by simp) fun _ h => h
  · rename_i ht
    refine (if_step hU ih s hi hn (.inl ht)).mono fun _ _ h => h.imp (by simp) ?_
    rintro _ ⟨us, rfl, hg⟩
    rw [ht]
    exact .if_ hg
  · exact Ends.error
  · exact Ends.error
  · rename_i ht
    refine AtPos.eatSame st ht (by decide) (by decide) fun s1 _ h1 => ?_
    have m1 := h1.lt rfl
    refine AtPos.call h1 (ih (n - 1) (by omega)).expr (by omega) trivial fun e s2 h2 => Ends.pure (h2.imp (by simp) ?_)
    rintro _ ⟨_, _, rfl, ⟨_, _, rfl, rfl, _, rfl, rfl⟩, hg⟩
    exact .assert hg
  · rename_i ht
    refine Ends.getLex (Ends.setStatus (Ends.pure ?_))
    exact ⟨hi, le_rfl, le_rfl, by simp, fun h => by rw [hi.unknown ht] at h; cases h⟩
  · rename_i t hfn _ _ _ _ hid _ _ _ _ _ _ _ _ _ _
    refine (simple_step hU ih s hi hn trivial).mono fun r s' h => h.impR (by simp) ?_
    intro ts hr hg
    refine .simple ?_ ?_ hg
    · rintro us rfl
      have := (hr.cons_inv rfl).2.1
      simp_all [TextItem.type]
    · rintro x us rfl
      have := (hr.cons_inv rfl).2.1
      simp_all [TextItem.type]

theorem stmts_step (acc : List Node) : Meets src H n (parseStmts cfg acc) (fun _ => True) false
    (fun _ r ts => ∃ ss, r = acc ++ ss ∧ Gram cfg.strtod cfg.fold .stmts ts ss) := by
  intro s hi hn _
  rw [parseStmts]
  refine Ends.curtok ?_
  have st := AtPos.start hi
  split
  · rename_i ht
    refine AtPos.call st (program_step hU ih) hn trivial fun r s1 h1 => AtPos.eatSemi h1 ht.2 fun s2 h2 => ?_
    have m2 := h2.lt rfl
    refine AtPos.last h2 ((ih (n - 1) (by omega)).stmts _) (by omega) trivial fun rs s3 h3 => h3.imp (by simp) ?_
    rintro _ ⟨_, _, rfl, ⟨_, _, rfl, ⟨_, _, rfl, rfl, hg⟩, _, rfl, nl, rfl⟩, ss, rfl, hss⟩
    exact ⟨r :: ss, by simp, by simpa using Gram.stmts hg hss⟩
  · refine Ends.pure (st.imp (by simp) ?_)
    rintro _ rfl
    exact ⟨[], by simp, .stmtsEnd⟩

theorem body_step : Meets src H n (parseBody cfg) (fun _ => True) false (fun _ r ts => Gram cfg.strtod cfg.fold .body ts r) := by
  intro s hi hn _
  rw [parseBody]
  refine AtPos.eat (AtPos.start hi) (by decide) (by decide) fun s1 h1 => ?_
  have m1 := h1.mu
  refine AtPos.call h1 (stmts_step hU ih []) (by omega) trivial fun ss s2 h2 => AtPos.eat h2 (by decide) (by decide) fun s3 h3 => Ends.pure (h3.imp (by simp) ?_)
  rintro _ ⟨_, _, rfl, ⟨_, _, rfl, ⟨_, _, rfl, rfl, _, rfl, rfl⟩, ss, rfl, hss⟩, _, rfl, rfl⟩
  simpa using Gram.body hss
end

/-- All functions of the parser: they end, and what they return is what the grammar says. -/
theorem main_meets (hU : UbOk src cfg H) (hH : ch '#' ∈ src → word "match" <:+: src → H .hang) : ∀ n, MainSpec src H cfg n := by
  intro n
  induction n using Nat.strong_induction_on with
  | _ n ih =>
  exact ⟨program_step hU ih, simple_step hU ih, body_step hU ih, stmts_step hU ih, more_step hU ih, lval_step hU ih, pack_step hU ih, decl_step hU ih, clauses_step hU ih hH, if_step hU ih,
    expr_step hU ih, tern_step hU ih, fun k hk => bin_step hU ih (12 - k) k (by omega), binLoop_step hU ih, unary_step hU ih, post_step hU ih, postLoop_step hU ih,
    args_step hU ih (expr_step hU ih), atom_step hU ih, string_step hU ih, pairs_step hU ih⟩

end Yasl
