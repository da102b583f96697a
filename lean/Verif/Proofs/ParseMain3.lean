import Verif.Proofs.ParseMain2
set_option autoImplicit false
/-! # Proofs about the parser: what is in the grammar is parsed: statements -/
namespace Yasl
variable {E : Lex} {cfg : ParseCfg}

theorem semi_end {us : List TextItem} (hu : Hd E us (· = .semi)) : Hd E us ExprEnd := hu.imp (by rintro t rfl; decide)

theorem main_keyword {te : List TextItem} {e : Node} {t : Tok} {f : Node → Node} (ih : Comp E cfg .expr te e)
    (hp : ∀ s, s.lex.type = t → parseProgram cfg s = (eattok t >>= fun _ => parseExpr cfg >>= fun e => pure (f e)) s) :
    Comp E cfg .stmt (.op t :: te) (f e) := by
  intro s us h hu
  have h : Ready E s (.op t :: (te ++ us)) := h
  have : Goes E (eattok t >>= fun _ => parseExpr cfg >>= fun e => pure (f e)) s (f e) us :=
    Goes.eatOp h fun s1 h1 => Goes.bind (ih s1 us h1 (semi_end hu)) fun s2 h2 => Goes.pure h2
  obtain ⟨s', h1, h2⟩ := this
  exact ⟨s', (hp s h.op).trans h1, h2⟩

/-- `parse_program` at a token. -/
theorem Goes.program {s : PSt} {r : Node} {us : List TextItem} {t : Tok} {m : P Node} (ht : s.lex.type = t)
    (hm : ∀ s, s.lex.type = t → parseProgram cfg s = m s) (h : Goes E m s r us) : Goes E (parseProgram cfg) s r us := by
  obtain ⟨s', h1, h2⟩ := h
  exact ⟨s', (hm s ht).trans h1, h2⟩

/-- `parse_program` once the token is known. -/
@[reducible] def programAt (cfg : ParseCfg) (t : Tok) : P Node :=
  match t with
  | .echo => do
    eattok .echo
    let e ← parseExpr cfg
    pure (.echo e)
  | .fn => do
    let t ← peekTok
    if t = .id then parseFn cfg else parseExpr cfg
  | .ret => parseReturn cfg
  | .export_ => do
    eattok .export_
    let e ← parseExpr cfg
    pure (.export_ e)
  | .const => do
    let t ← peekTok
    if t = .fn then parseConstFn cfg else parseDecl cfg
  | .let_ => parseDecl cfg
  | .id => do
    let t ← peekTok
    if t = .comma then parseDecl cfg else parseAssignOrExpr cfg
  | .for_ => parseFor cfg
  | .while_ => parseWhile cfg
  | .break_ => do
    eattok .break_
    pure .brk
  | .cont => do
    eattok .cont
    pure .cont
  | .match_ => parseMatch cfg
  | .if_ => parseIf cfg
  | .elseif => handleError
  | .else_ => handleError
  | .ass => do
    eattok .ass
    let e ← parseExpr cfg
    pure (.assert e)
  | .unknown => do
    let l ← getLex
    setStatus l.err.isSome
    pure .null
  | _ => parseAssignOrExpr cfg

theorem program_eq (s : PSt) : parseProgram cfg s = programAt cfg s.lex.type s := by
  rw [parseProgram]; rfl

theorem program_at {s : PSt} {t : Tok} (h : s.lex.type = t) : parseProgram cfg s = programAt cfg t s := by
  rw [program_eq, h]

/-- `parse_program`, at a known token. -/
theorem Goes.prog {s : PSt} {r : Node} {us : List TextItem} {m : P Node} (hm : parseProgram cfg s = m s) (h : Goes E m s r us) : Goes E (parseProgram cfg) s r us := by
  obtain ⟨s', h1, h2⟩ := h
  exact ⟨s', hm.trans h1, h2⟩

theorem main_brk : Comp E cfg .stmt [.op .break_] .brk := by
  intro s us h hu
  have h : Ready E s (.op .break_ :: us) := h
  refine Goes.prog (program_at h.op) ?_
  simp only [programAt]
  exact Goes.eatOp h fun s1 h1 => Goes.pure h1

theorem main_cont : Comp E cfg .stmt [.op .cont] .cont := by
  intro s us h hu
  have h : Ready E s (.op .cont :: us) := h
  refine Goes.prog (program_at h.op) ?_
  simp only [programAt]
  exact Goes.eatOp h fun s1 h1 => Goes.pure h1

theorem main_ret {te : List TextItem} {e : Node} (ih : Comp E cfg .expr te e) : Comp E cfg .stmt (.op .ret :: te) (.ret (.variadic e (-1))) := by
  intro s us h hu
  have h : Ready E s (.op .ret :: (te ++ us)) := h
  refine Goes.prog (program_at h.op) ?_
  simp only [programAt]
  rw [parseReturn]
  refine Goes.eatOp h fun s1 h1 => Goes.bind (ih s1 us h1 (semi_end hu)) fun s2 h2 => Goes.curtok ?_
  rw [h2.hd hu, if_neg (by decide)]
  exact Goes.pure h2

theorem main_multiRet {te tm : List TextItem} {e e' : Node} {es : List Node} (hm : ∃ rest, tm = .op .comma :: rest) (ih1 : Comp E cfg .expr te e) (ih2 : CompMore E cfg tm (e' :: es)) :
    Comp E cfg .stmt (.op .ret :: (te ++ tm)) (.multiRet (lastSpread (-1) (e :: e' :: es))) := by
  intro s us h hu
  have h : Ready E s (.op .ret :: (te ++ (tm ++ us))) := by simpa using h
  obtain ⟨rest, rfl⟩ := hm
  refine Goes.prog (program_at h.op) ?_
  simp only [programAt]
  rw [parseReturn]
  refine Goes.eatOp h fun s1 h1 => Goes.bind (ih1 s1 _ h1 (by decide : ExprEnd .comma)) fun s2 h2 => Goes.curtok ?_
  have h2' : Ready E s2 (.op .comma :: (rest ++ us)) := h2
  rw [h2'.op, if_pos rfl]
  refine Goes.bind ((ih2 s2 us h2 (hu.imp (fun t h => .inl h))).1 [e]) fun s3 h3 => ?_
  rw [lastSpread_eq]
  exact Goes.pure h3

theorem main_fnDecl {x : Name} {tp tb : List TextItem} {ps ss : List Node} (hp : Params tp ps) (ih : Comp E cfg .body tb ss) :
    Comp E cfg .stmt (.op .fn :: .word .id x :: .op .lpar :: (tp ++ .op .rpar :: tb)) (.let_ x (some (.fn ps ss (some x)))) := by
  intro s us h hu
  have h : Ready E s (.op .fn :: .word .id x :: .op .lpar :: (tp ++ .op .rpar :: (tb ++ us))) := by simpa using h
  refine Goes.prog (program_at h.op) ?_
  simp only [programAt]
  refine Goes.peek h rfl rfl fun s1 h1 => ?_
  have h0 := (h.cons rfl).2.2.2
  rw [if_pos h0.word, parseFn]
  refine Goes.eatOp h1 fun s2 h2 => Goes.name h2 fun s3 h3 => Goes.ifNo (by rw [h3.op]; decide) (Goes.eatOp h3 fun s4 h4 => ?_)
  exact Goes.bind (params_goes hp [] s4 _ h4 rfl) fun s5 h5 => Goes.eatOp h5 fun s6 h6 => Goes.bind (ih s6 us h6) fun s7 h7 => Goes.pure h7

theorem main_fnMember {x m : Name} {tp tb : List TextItem} {ps ss : List Node} (hp : Params tp ps) (ih : Comp E cfg .body tb ss) :
    Comp E cfg .stmt (.op .fn :: .word .id x :: .op .dot :: .word .id m :: .op .lpar :: (tp ++ .op .rpar :: tb)) (.set (.var x) (.str m) (some (.fn ps ss none))) := by
  intro s us h hu
  have h : Ready E s (.op .fn :: .word .id x :: .op .dot :: .word .id m :: .op .lpar :: (tp ++ .op .rpar :: (tb ++ us))) := by simpa using h
  refine Goes.prog (program_at h.op) ?_
  simp only [programAt]
  refine Goes.peek h rfl rfl fun s1 h1 => ?_
  have h0 := (h.cons rfl).2.2.2
  rw [if_pos h0.word, parseFn]
  refine Goes.eatOp h1 fun s2 h2 => Goes.name h2 fun s3 h3 => Goes.ifYes h3 rfl rfl fun s3' h3' => Goes.name h3' fun s3'' h3'' => Goes.eatOp h3'' fun s4 h4 => ?_
  exact Goes.bind (params_goes hp [] s4 _ h4 rfl) fun s5 h5 => Goes.eatOp h5 fun s6 h6 => Goes.bind (ih s6 us h6) fun s7 h7 => Goes.pure h7

theorem main_fnConst {x : Name} {tp tb : List TextItem} {ps ss : List Node} (hp : Params tp ps) (ih : Comp E cfg .body tb ss) :
    Comp E cfg .stmt (.op .const :: .op .fn :: .word .id x :: .op .lpar :: (tp ++ .op .rpar :: tb)) (.const_ x (some (.fn ps ss (some x)))) := by
  intro s us h hu
  have h : Ready E s (.op .const :: .op .fn :: .word .id x :: .op .lpar :: (tp ++ .op .rpar :: (tb ++ us))) := by simpa using h
  refine Goes.prog (program_at h.op) ?_
  simp only [programAt]
  refine Goes.peek h rfl rfl fun s1 h1 => ?_
  have h0 := (h.cons rfl).2.2.2
  rw [if_pos h0.op, parseConstFn]
  refine Goes.eatOp h1 fun s2 h2 => Goes.eatOp h2 fun s2' h2' => Goes.name h2' fun s3 h3 => Goes.eatOp h3 fun s4 h4 => ?_
  exact Goes.bind (params_goes hp [] s4 _ h4 rfl) fun s5 h5 => Goes.eatOp h5 fun s6 h6 => Goes.bind (ih s6 us h6) fun s7 h7 => Goes.pure h7

theorem main_fnExpr {ts : List TextItem} {e : Node} (hs : Starts (.op .fn :: ts)) (ih : Comp E cfg .expr (.op .fn :: ts) e) : Comp E cfg .stmt (.op .fn :: ts) e := by
  intro s us h hu
  have h' : Ready E s (.op .fn :: (ts ++ us)) := h
  refine Goes.prog (program_at h'.op) ?_
  simp only [programAt]
  refine Goes.peek h' rfl rfl fun s1 h1 => ?_
  have h0 := (h'.cons rfl).2.2.2
  have ht : (gettok s.lex).type = .lpar := by
    obtain ⟨i, rest, e0, -, -, h3⟩ := hs.ex
    obtain ⟨rfl, rfl⟩ := List.cons.inj e0
    have h3 := h3 rfl
    cases ts with
    | nil => simp at h3
    | cons j rest =>
      simp only [List.head?_cons, Option.some.injEq] at h3
      subst h3
      exact h0.op
  rw [if_neg (by rw [ht]; decide)]
  exact ih s1 us h1 (semi_end hu)

/-- The right side of a declaration. -/
theorem decl_goes {lv ls : List Node} {k : Nat} {tl tr tm us : List TextItem} {e : Node} {es : List Node} {s : PSt} (hm : tm = [] ∨ ∃ rest, tm = .op .comma :: rest)
    (ihl : CompLvals E cfg tl ls) (ih1 : Comp E cfg .expr tr e) (ih2 : CompMore E cfg tm es) (hl : (e :: es).length ≤ (k + ls.length) + 1)
    (h : Ready E s (tl ++ .op .eq :: (tr ++ (tm ++ us)))) (hu : Hd E us (fun t => t = .semi ∨ t = .lbrc)) :
    Goes E (parseDeclHelper cfg lv k) s (.decl (lv ++ ls) (padTo (k + ls.length) (e :: es))) us := by
  refine ihl lv k s _ h rfl _ _ fun s1 h1 => ?_
  rw [parseDeclHelper]
  refine Goes.ifNo (by rw [h1.op]; decide) (Goes.eatOp h1 fun s2 h2 => ?_)
  have hend : Hd E (tm ++ us) ExprEnd := by
    rcases hm with rfl | ⟨r, rfl⟩
    · exact hu.imp (by rintro t (rfl | rfl) <;> decide)
    · exact (by decide : ExprEnd .comma)
  rw [parseVarPack_eq, padTo_eq _ _ (by simp)]
  refine Goes.bind (Goes.bind (ih1 s2 _ h2 hend) fun s3 h3 => (ih2 s3 us h3 (hu.imp (by rintro t (rfl | rfl) <;> simp))).2 (k + ls.length) [] e (by simpa using hl)) fun s4 h4 => ?_
  exact Goes.pure h4

theorem main_declLet {x : Name} {tl tr tm : List TextItem} {ls : List Node} {e : Node} {es : List Node} (hm : tm = [] ∨ ∃ rest, tm = .op .comma :: rest)
    (ihl : CompLvals E cfg tl ls) (ih1 : Comp E cfg .expr tr e) (ih2 : CompMore E cfg tm es) (hl : (e :: es).length ≤ (ls.length + 1) + 1) :
    Comp E cfg .stmt (.op .let_ :: .word .id x :: (tl ++ .op .eq :: (tr ++ tm))) (.decl (.let_ x none :: ls) (padTo (ls.length + 1) (e :: es))) := by
  intro s us h hu
  have h : Ready E s (.op .let_ :: .word .id x :: (tl ++ .op .eq :: (tr ++ (tm ++ us)))) := by simpa using h
  refine Goes.prog (program_at h.op) ?_
  simp only [programAt]
  rw [parseDecl, parseLVal]
  refine Goes.bind (a := .let_ x none) (us := tl ++ .op .eq :: (tr ++ (tm ++ us))) (Goes.curtok ?_) fun s2 h2 => ?_
  · rw [if_pos h.op]
    exact Goes.eatOp h fun s1 h1 => Goes.name h1 fun s2 h2 => Goes.pure h2
  · have := decl_goes (lv := [.let_ x none]) (k := 1) hm ihl ih1 ih2 (by omega) h2 (hu.imp fun t h => .inl h)
    simpa [Nat.add_comm] using this

theorem main_declConst {x : Name} {tl tr tm : List TextItem} {ls : List Node} {e : Node} {es : List Node} (hm : tm = [] ∨ ∃ rest, tm = .op .comma :: rest)
    (ihl : CompLvals E cfg tl ls) (ih1 : Comp E cfg .expr tr e) (ih2 : CompMore E cfg tm es) (hl : (e :: es).length ≤ (ls.length + 1) + 1) :
    Comp E cfg .stmt (.op .const :: .word .id x :: (tl ++ .op .eq :: (tr ++ tm))) (.decl (.const_ x none :: ls) (padTo (ls.length + 1) (e :: es))) := by
  intro s us h hu
  have h : Ready E s (.op .const :: .word .id x :: (tl ++ .op .eq :: (tr ++ (tm ++ us)))) := by simpa using h
  refine Goes.prog (program_at h.op) ?_
  simp only [programAt]
  refine Goes.peek h rfl rfl fun s1 h1 => ?_
  have h0 := (h.cons rfl).2.2.2
  rw [if_neg (by rw [h0.word]; decide), parseDecl, parseLVal]
  refine Goes.bind (a := .const_ x none) (us := tl ++ .op .eq :: (tr ++ (tm ++ us))) (Goes.curtok ?_) fun s2 h2 => ?_
  · rw [h1.op, if_neg (by decide), if_pos rfl]
    exact Goes.eatOp h1 fun s1 h1 => Goes.name h1 fun s2 h2 => Goes.pure h2
  · have := decl_goes (lv := [.const_ x none]) (k := 1) hm ihl ih1 ih2 (by omega) h2 (hu.imp fun t h => .inl h)
    simpa [Nat.add_comm] using this

theorem main_declVar {x : Name} {tl tr tm : List TextItem} {l : Node} {ls : List Node} {e : Node} {es : List Node} (hc : ∃ rest, tl = .op .comma :: rest)
    (hm : tm = [] ∨ ∃ rest, tm = .op .comma :: rest)
    (ihl : CompLvals E cfg tl (l :: ls)) (ih1 : Comp E cfg .expr tr e) (ih2 : CompMore E cfg tm es) (hl : (e :: es).length ≤ (ls.length + 2) + 1) :
    Comp E cfg .stmt (.word .id x :: (tl ++ .op .eq :: (tr ++ tm))) (.decl (.assign x none :: l :: ls) (padTo (ls.length + 2) (e :: es))) := by
  intro s us h hu
  have h : Ready E s (.word .id x :: (tl ++ .op .eq :: (tr ++ (tm ++ us)))) := by simpa using h
  obtain ⟨rest, rfl⟩ := hc
  refine Goes.prog (by rw [program_eq, h.word]) ?_
  refine Goes.peek h rfl rfl fun s1 h1 => ?_
  have h0 : Ready E { s with lex := gettok s.lex } (.op .comma :: (rest ++ .op .eq :: (tr ++ (tm ++ us)))) := (h.cons rfl).2.2.2
  rw [if_pos h0.op, parseDecl, parseLVal]
  refine Goes.bind (a := .assign x none) (us := .op .comma :: rest ++ .op .eq :: (tr ++ (tm ++ us))) (Goes.curtok ?_) fun s2 h2 => ?_
  · rw [h1.word, if_neg (by decide), if_neg (by decide)]
    have h1' : Ready E s1 ([.word .id x] ++ (.op .comma :: (rest ++ .op .eq :: (tr ++ (tm ++ us))))) := h1
    exact Goes.bind (post_of (main_postOne main_var) h1' (by simp [Hd, PostEnd, TextItem.type])) fun s3 h3 => Goes.pure h3
  · have := decl_goes (lv := [.assign x none]) (k := 1) hm ihl ih1 ih2 (by simp at hl ⊢; omega) h2 (hu.imp fun t h => .inl h)
    simpa [Nat.add_comm, Nat.add_left_comm] using this

theorem main_simple {ts : List TextItem} {n : Node} (h1 : ∀ rest, ts ≠ .op .fn :: rest) (h2 : ∀ x rest, ts ≠ .word .id x :: .op .comma :: rest) (hs : Starts ts) (hs2 : Sec ts)
    (ih : Comp E cfg .simple ts n) : Comp E cfg .stmt ts n := by
  intro s us h hu
  have hg := fun (s : PSt) (h : Ready E s (ts ++ us)) => ih s us h (hu.imp fun t h => .inl h)
  obtain ⟨i, rest, rfl, hi, ht, -⟩ := hs.ex
  obtain ⟨e1, e2, -, h0⟩ := h.cons hi
  have hcases : s.lex.type = .id ∨ (s.lex.type ∈ exprStarts ∧ s.lex.type ≠ .id ∧ s.lex.type ≠ .fn) := by
    by_cases hid : s.lex.type = .id
    · exact .inl hid
    · refine .inr ⟨e2 ▸ ht, hid, fun hf => h1 rest ?_⟩
      rw [← e1]
      unfold Lex.item
      rw [hf]
  rcases hcases with hid | ⟨hm, hid, hfn⟩
  · refine Goes.prog (by rw [program_eq, hid]) ?_
    refine Goes.peek h hi (by rw [← e2, hid]; rfl) fun s1 h1' => ?_
    have hnc : (gettok s.lex).type ≠ .comma := by
      have hw : i = .word .id s.lex.value := by rw [← e1]; unfold Lex.item; rw [hid]
      cases rest with
      | nil =>
        have h0 : Ready E { s with lex := gettok s.lex } us := h0
        have := h0.hd hu
        intro hc
        rw [show (gettok s.lex).type = .semi from this] at hc; cases hc
      | cons j rest =>
        have hj := hs2 _ j rest (by rw [hw])
        intro hc
        obtain ⟨e3, e4, -, -⟩ := h0.cons hj
        have e3 : (gettok s.lex).item = j := e3
        refine h2 s.lex.value rest ?_
        rw [hw, ← e3]
        unfold Lex.item
        rw [hc]
    rw [if_neg hnc]
    exact hg s1 h1'
  · refine Goes.prog (m := parseAssignOrExpr cfg) ?_ (hg s h)
    rw [program_eq]
    simp only [exprStarts, List.mem_cons, List.not_mem_nil, or_false] at hm
    rcases hm with e | e | e | e | e | e | e | e | e | e | e | e | e | e | e | e <;> first | exact absurd e hid | exact absurd e hfn | rw [e]

theorem main_forLet {x : Name} {te tc tp tb : List TextItem} {nl n1 n2 : Bool} {e c p : Node} {ss : List Node} (hb : ∃ rest, tb = .op .lbrc :: rest) (ih1 : Comp E cfg .expr te e)
    (ih2 : Comp E cfg .expr tc c) (ih3 : Comp E cfg .simple tp p) (ih4 : Comp E cfg .body tb ss) :
    Comp E cfg .stmt (.sep .for_ nl :: .op .let_ :: .word .id x :: .op .eq :: (te ++ .sep .semi n1 :: (tc ++ .sep .semi n2 :: (tp ++ tb))))
      (.block [.let_ x (some e), .while_ c (.block ss) (some (.exprStmt p))]) := by
  intro s us h hu
  have h : Ready E s (.sep .for_ nl :: .op .let_ :: .word .id x :: .op .eq :: (te ++ .sep .semi n1 :: (tc ++ .sep .semi n2 :: (tp ++ (tb ++ us))))) := by simpa using h
  refine Goes.prog (program_at (show s.lex.type = .for_ from (h.cons rfl).2.1)) ?_
  simp only [programAt]
  rw [parseFor]
  refine Goes.eat h rfl rfl fun s1 h1 => Goes.curtok ?_
  rw [if_pos h1.op]
  refine Goes.eatOp h1 fun s2 h2 => Goes.name h2 fun s3 h3 => Goes.eatOp h3 fun s4 h4 => Goes.bind (ih1 s4 _ h4 (by decide : ExprEnd .semi)) fun s5 h5 =>
    Goes.eat h5 rfl rfl fun s6 h6 => Goes.bind (ih2 s6 _ h6 (by decide : ExprEnd .semi)) fun s7 h7 => Goes.eat h7 rfl rfl fun s8 h8 => ?_
  refine Goes.bind (ih3 s8 _ h8 ?_) fun s9 h9 => Goes.bind (ih4 s9 us h9) fun sa ha => Goes.pure ha
  obtain ⟨r, rfl⟩ := hb
  exact .inr rfl

theorem body_end {tb us : List TextItem} (hb : ∃ rest, tb = .op .lbrc :: rest) : Hd E (tb ++ us) ExprEnd := by
  obtain ⟨r, rfl⟩ := hb
  exact (by decide : ExprEnd .lbrc)

theorem main_forIter {ti tb : List TextItem} {nl : Bool} {i : Node} {ss : List Node} (hi : ∃ x rest, ti = .word .id x :: rest) (hb : ∃ rest, tb = .op .lbrc :: rest)
    (ih1 : Comp E cfg .iter ti i) (ih2 : Comp E cfg .body tb ss) : Comp E cfg .stmt (.sep .for_ nl :: (ti ++ tb)) (.forIter i (.block ss)) := by
  intro s us h hu
  have h : Ready E s (.sep .for_ nl :: (ti ++ (tb ++ us))) := by simpa using h
  refine Goes.prog (program_at (show s.lex.type = .for_ from (h.cons rfl).2.1)) ?_
  simp only [programAt]
  rw [parseFor]
  refine Goes.eat h rfl rfl fun s1 h1 => Goes.curtok ?_
  have hn : s1.lex.type = .id := by
    obtain ⟨x, rest, rfl⟩ := hi
    exact Ready.word (us := rest ++ (tb ++ us)) h1
  rw [if_neg (by rw [hn]; decide)]
  exact Goes.bind (ih1 s1 _ h1 (body_end hb)) fun s2 h2 => Goes.bind (ih2 s2 us h2) fun s3 h3 => Goes.pure h3

theorem main_while {tc tb : List TextItem} {c : Node} {ss : List Node} (hb : ∃ rest, tb = .op .lbrc :: rest) (ih1 : Comp E cfg .expr tc c) (ih2 : Comp E cfg .body tb ss) :
    Comp E cfg .stmt (.op .while_ :: (tc ++ tb)) (.while_ c (.block ss) none) := by
  intro s us h hu
  have h : Ready E s (.op .while_ :: (tc ++ (tb ++ us))) := by simpa using h
  refine Goes.prog (program_at h.op) ?_
  simp only [programAt]
  rw [parseWhile]
  exact Goes.eatOp h fun s1 h1 => Goes.bind (ih1 s1 _ h1 (body_end hb)) fun s2 h2 => Goes.bind (ih2 s2 us h2) fun s3 h3 => Goes.pure h3

theorem main_if {ts : List TextItem} {n : Node} (ih : Comp E cfg .ifRest ts n) : Comp E cfg .stmt (.op .if_ :: ts) n := by
  intro s us h hu
  have h : Ready E s (.op .if_ :: (ts ++ us)) := h
  refine Goes.prog (program_at h.op) ?_
  simp only [programAt]
  exact ih .if_ s us (.inl rfl) h hu

theorem main_match {te tc : List TextItem} {e : Node} {cs : List (PatNode × Option Node × List Node)} (ih1 : Comp E cfg .expr te e) (ih2 : CompClauses E cfg tc cs) :
    Comp E cfg .stmt (.op .match_ :: (te ++ .op .lbrc :: (tc ++ [.op .rbrc]))) (.match_ e (cs.map (·.1)) (cs.map (·.2.1)) (cs.map (·.2.2))) := by
  intro s us h hu
  have h : Ready E s (.op .match_ :: (te ++ .op .lbrc :: (tc ++ .op .rbrc :: us))) := by simpa using h
  refine Goes.prog (program_at h.op) ?_
  simp only [programAt]
  rw [parseMatch]
  exact Goes.eatOp h fun s1 h1 => Goes.bind (ih1 s1 _ h1 (by decide : ExprEnd .lbrc)) fun s2 h2 => Goes.eatOp h2 fun s3 h3 => Goes.bind (ih2 e [] [] [] s3 _ h3 rfl) fun s4 h4 =>
    Goes.eatOp h4 fun s5 h5 => Goes.pure h5

theorem simple_end {us : List TextItem} (hu : Hd E us (fun t => t = .semi ∨ t = .lbrc)) : Hd E us ExprEnd := hu.imp (by rintro t (rfl | rfl) <;> decide)

theorem main_exprStmt {te : List TextItem} {e : Node} (ih : Comp E cfg .expr te e) : Comp E cfg .simple te (.exprStmt e) := by
  intro s us h hu
  rw [parseAssignOrExpr]
  refine Goes.bind (ih s us h (simple_end hu)) fun s1 h1 => Goes.curtok ?_
  have ht := h1.hd hu
  rw [if_neg (by rcases ht with e | e <;> rw [e] <;> decide)]
  split
  · rw [if_neg (by rcases ht with e | e <;> rw [e] <;> decide)]
    exact Goes.pure h1
  · exact Goes.pure h1

theorem main_assign {tx te : List TextItem} {x : Name} {e : Node} (ih1 : Comp E cfg .expr tx (.var x)) (ih2 : Comp E cfg .expr te e) :
    Comp E cfg .simple (tx ++ .op .eq :: te) (.assign x (some e)) := by
  intro s us h hu
  rw [parseAssignOrExpr]
  have h : Ready E s (tx ++ .op .eq :: (te ++ us)) := by simpa using h
  refine Goes.bind (ih1 s _ h (by decide : ExprEnd .eq)) fun s1 h1 => Goes.curtok ?_
  rw [if_pos (.inl h1.op), parseAssign.eq_def]
  exact Goes.ifYes h1 rfl rfl fun s2 h2 => Goes.bind (ih2 s2 us h2 (simple_end hu)) fun s3 h3 => Goes.pure h3

theorem main_set {tx te : List TextItem} {c k e : Node} (ih1 : Comp E cfg .expr tx (.get c k)) (ih2 : Comp E cfg .expr te e) :
    Comp E cfg .simple (tx ++ .op .eq :: te) (.set c k (some e)) := by
  intro s us h hu
  rw [parseAssignOrExpr]
  have h : Ready E s (tx ++ .op .eq :: (te ++ us)) := by simpa using h
  refine Goes.bind (ih1 s _ h (by decide : ExprEnd .eq)) fun s1 h1 => Goes.curtok ?_
  rw [if_pos (.inl h1.op), parseAssign.eq_def]
  exact Goes.ifYes h1 rfl rfl fun s2 h2 => Goes.bind (ih2 s2 us h2 (simple_end hu)) fun s3 h3 => Goes.pure h3

theorem aug_facts : ∀ p ∈ augmentedOps, p.1.isAugmented = true ∧ p.1.pred = p.2 ∧ p.1 ≠ .eq ∧ ExprEnd p.1 := by decide

theorem main_augAssign {tx te : List TextItem} {x : Name} {e : Node} {t o : Tok} (ha : (t, o) ∈ augmentedOps) (ih1 : Comp E cfg .expr tx (.var x)) (ih2 : Comp E cfg .expr te e) :
    Comp E cfg .simple (tx ++ .op t :: te) (.assign x (some (.bin o (.var x) e))) := by
  obtain ⟨a1, a2, a3, a4⟩ := aug_facts _ ha
  dsimp only at a1 a2 a3 a4
  intro s us h hu
  rw [parseAssignOrExpr]
  have h : Ready E s (tx ++ .op t :: (te ++ us)) := by simpa using h
  refine Goes.bind (ih1 s _ h a4) fun s1 h1 => Goes.curtok ?_
  rw [h1.op, if_pos (.inr a1), parseAssign.eq_def]
  refine Goes.ifNo (by rw [h1.op]; exact a3) (Goes.curtok ?_)
  rw [h1.op, if_pos a1]
  refine Goes.eatOp h1 fun s2 h2 => ?_
  rw [← a2]
  exact Goes.bind (ih2 s2 us h2 (simple_end hu)) fun s3 h3 => Goes.pure h3

theorem main_augSet {tx te : List TextItem} {c k e : Node} {t o : Tok} (ha : (t, o) ∈ augmentedOps) (ih1 : Comp E cfg .expr tx (.get c k)) (ih2 : Comp E cfg .expr te e) :
    Comp E cfg .simple (tx ++ .op t :: te) (.set c k (some (.bin o (.get c k) e))) := by
  obtain ⟨a1, a2, a3, a4⟩ := aug_facts _ ha
  dsimp only at a1 a2 a3 a4
  intro s us h hu
  rw [parseAssignOrExpr]
  have h : Ready E s (tx ++ .op t :: (te ++ us)) := by simpa using h
  refine Goes.bind (ih1 s _ h a4) fun s1 h1 => Goes.curtok ?_
  rw [h1.op, if_pos (.inr a1), parseAssign.eq_def]
  refine Goes.ifNo (by rw [h1.op]; exact a3) (Goes.curtok ?_)
  rw [h1.op, if_pos a1]
  refine Goes.eatOp h1 fun s2 h2 => ?_
  rw [← a2]
  exact Goes.bind (ih2 s2 us h2 (simple_end hu)) fun s3 h3 => Goes.pure h3

theorem main_declSet {tx tl tr tm : List TextItem} {c k l : Node} {ls : List Node} {e : Node} {es : List Node} (hc : ∃ rest, tl = .op .comma :: rest)
    (hm : tm = [] ∨ ∃ rest, tm = .op .comma :: rest) (ih0 : Comp E cfg .expr tx (.get c k))
    (ihl : CompLvals E cfg tl (l :: ls)) (ih1 : Comp E cfg .expr tr e) (ih2 : CompMore E cfg tm es) (hl : (e :: es).length ≤ (ls.length + 1) + 1) :
    Comp E cfg .simple (tx ++ (tl ++ .op .eq :: (tr ++ tm))) (.decl (.set c k none :: l :: ls) (padTo (ls.length + 1) (e :: es))) := by
  intro s us h hu
  rw [parseAssignOrExpr]
  have h : Ready E s (tx ++ (tl ++ .op .eq :: (tr ++ (tm ++ us)))) := by simpa using h
  obtain ⟨rest, rfl⟩ := hc
  refine Goes.bind (ih0 s _ h (by decide : ExprEnd .comma)) fun s1 h1 => Goes.curtok ?_
  have h1' : Ready E s1 (.op .comma :: (rest ++ .op .eq :: (tr ++ (tm ++ us)))) := h1
  rw [h1'.op, if_neg (by decide)]
  dsimp only
  rw [if_pos rfl]
  have := decl_goes (lv := [.set c k none]) (k := 0) hm ihl ih1 ih2 (by simpa using hl) h1 hu
  simpa using this

theorem main_lvalLet {x : Name} : Comp E cfg .lval [.op .let_, .word .id x] (.let_ x none) := by
  intro s us h hu
  have h : Ready E s (.op .let_ :: .word .id x :: us) := h
  rw [parseLVal]
  refine Goes.curtok ?_
  rw [if_pos h.op]
  exact Goes.eatOp h fun s1 h1 => Goes.name h1 fun s2 h2 => Goes.pure h2

theorem main_lvalConst {x : Name} : Comp E cfg .lval [.op .const, .word .id x] (.const_ x none) := by
  intro s us h hu
  have h : Ready E s (.op .const :: .word .id x :: us) := h
  rw [parseLVal]
  refine Goes.curtok ?_
  rw [h.op, if_neg (by decide), if_pos rfl]
  exact Goes.eatOp h fun s1 h1 => Goes.name h1 fun s2 h2 => Goes.pure h2

theorem lval_end {us : List TextItem} (hu : Hd E us (fun t => t = .eq ∨ t = .comma)) : Hd E us PostEnd := hu.imp (by rintro t (rfl | rfl) <;> simp [PostEnd])

theorem main_lvalVar {ts : List TextItem} {x : Name} (hs : Starts ts) (ih : Comp E cfg .post ts (.var x)) : Comp E cfg .lval ts (.assign x none) := by
  intro s us h hu
  rw [parseLVal]
  refine Goes.curtok ?_
  rw [if_neg (not_exprStart h hs (by decide)), if_neg (not_exprStart h hs (by decide))]
  exact Goes.bind (post_of ih h (lval_end hu)) fun s1 h1 => Goes.pure h1

theorem main_lvalGet {ts : List TextItem} {c k : Node} (hs : Starts ts) (ih : Comp E cfg .post ts (.get c k)) : Comp E cfg .lval ts (.set c k none) := by
  intro s us h hu
  rw [parseLVal]
  refine Goes.curtok ?_
  rw [if_neg (not_exprStart h hs (by decide)), if_neg (not_exprStart h hs (by decide))]
  exact Goes.bind (post_of ih h (lval_end hu)) fun s1 h1 => Goes.pure h1

theorem main_lvalsEnd : CompLvals E cfg [] [] := by
  intro lv k s us h hu b vs hf
  have := hf s h
  simpa using this

theorem main_lvals {tl tm : List TextItem} {l : Node} {ls : List Node} (hm : tm = [] ∨ ∃ rest, tm = .op .comma :: rest) (ih1 : Comp E cfg .lval tl l) (ih2 : CompLvals E cfg tm ls) :
    CompLvals E cfg (.op .comma :: (tl ++ tm)) (l :: ls) := by
  intro lv k s us h hu b vs hf
  have h : Ready E s (.op .comma :: (tl ++ (tm ++ us))) := by simpa using h
  rw [parseDeclHelper]
  have hend : Hd E (tm ++ us) (fun t => t = .eq ∨ t = .comma) := by
    rcases hm with rfl | ⟨r, rfl⟩
    · exact hu.imp (fun t h => .inl h)
    · exact .inr rfl
  refine Goes.ifYes h rfl rfl fun s1 h1 => Goes.bind (ih1 s1 _ h1 hend) fun s2 h2 => ih2 (lv ++ [l]) (k + 1) s2 us h2 hu b vs fun s3 h3 => ?_
  have := hf s3 h3
  rw [show k + 1 + ls.length = k + (l :: ls).length by simp; omega]
  simpa using this

theorem main_ifEnd {tc tb : List TextItem} {c : Node} {ss : List Node} (hb : ∃ rest, tb = .op .lbrc :: rest) (ih1 : Comp E cfg .expr tc c) (ih2 : Comp E cfg .body tb ss) :
    Comp E cfg .ifRest (tc ++ tb) (.if_ c (.block ss) none) := by
  intro t s us ht h hu
  have h : Ready E s (.op t :: (tc ++ (tb ++ us))) := by simpa using h
  rw [parseIf]
  refine Goes.curtok ?_
  rw [h.op, if_pos ht]
  refine Goes.eatOp h fun s1 h1 => Goes.bind (ih1 s1 _ h1 (body_end hb)) fun s2 h2 => Goes.bind (ih2 s2 us h2) fun s3 h3 => Goes.curtok ?_
  rw [h3.hd hu, if_neg (by decide), if_neg (by decide)]
  exact Goes.pure h3

theorem main_ifElse {tc tb te : List TextItem} {c : Node} {ss es : List Node} (hb : ∃ rest, tb = .op .lbrc :: rest) (ih1 : Comp E cfg .expr tc c) (ih2 : Comp E cfg .body tb ss)
    (ih3 : Comp E cfg .body te es) : Comp E cfg .ifRest (tc ++ (tb ++ .op .else_ :: te)) (.if_ c (.block ss) (some (.block es))) := by
  intro t s us ht h hu
  have h : Ready E s (.op t :: (tc ++ (tb ++ .op .else_ :: (te ++ us)))) := by simpa using h
  rw [parseIf]
  refine Goes.curtok ?_
  rw [h.op, if_pos ht]
  refine Goes.eatOp h fun s1 h1 => Goes.bind (ih1 s1 _ h1 (body_end hb)) fun s2 h2 => Goes.bind (ih2 s2 _ h2) fun s3 h3 => Goes.curtok ?_
  rw [h3.op, if_neg (by decide), if_pos rfl]
  exact Goes.eatOp h3 fun s4 h4 => Goes.bind (ih3 s4 us h4) fun s5 h5 => Goes.pure h5

theorem main_ifElseif {tc tb te : List TextItem} {c e : Node} {ss : List Node} (hb : ∃ rest, tb = .op .lbrc :: rest) (ih1 : Comp E cfg .expr tc c) (ih2 : Comp E cfg .body tb ss)
    (ih3 : Comp E cfg .ifRest te e) : Comp E cfg .ifRest (tc ++ (tb ++ .op .elseif :: te)) (.if_ c (.block ss) (some e)) := by
  intro t s us ht h hu
  have h : Ready E s (.op t :: (tc ++ (tb ++ .op .elseif :: (te ++ us)))) := by simpa using h
  rw [parseIf]
  refine Goes.curtok ?_
  rw [h.op, if_pos ht]
  refine Goes.eatOp h fun s1 h1 => Goes.bind (ih1 s1 _ h1 (body_end hb)) fun s2 h2 => Goes.bind (ih2 s2 _ h2) fun s3 h3 => Goes.curtok ?_
  rw [if_pos h3.op]
  exact Goes.bind (ih3 .elseif s3 us (.inr rfl) h3 hu) fun s5 h5 => Goes.pure h5

theorem main_clausesEnd : CompClauses E cfg [] [] := by
  intro e ps gs bs s us h hu
  have h : Ready E s us := h
  rw [parseClauses]
  refine Goes.curtok ?_
  rw [h.hd hu, if_neg (by decide)]
  simpa using Goes.pure h

theorem main_clauses {tp tg tb tc : List TextItem} {nl : Bool} {p : PatNode} {g : Option Node} {ss : List Node} {cs : List (PatNode × Option Node × List Node)}
    (hp : PGram cfg.strtod .pat tp p) (hb : ∃ rest, tb = .op .lbrc :: rest) (ih2 : CompCond E cfg tg g) (ih3 : Comp E cfg .body tb ss) (ih4 : CompClauses E cfg tc cs) :
    CompClauses E cfg (tp ++ (tg ++ (tb ++ .sep .semi nl :: tc))) ((p, g, ss) :: cs) := by
  intro e ps gs bs s us h hu
  have h : Ready E s (tp ++ (tg ++ (tb ++ .sep .semi nl :: (tc ++ us)))) := by simpa using h
  rw [parseClauses]
  refine Goes.curtok ?_
  have hst : s.lex.type ≠ .rbrc ∧ s.lex.type ≠ .eof := by
    obtain ⟨i, ri, rfl, hi, hit⟩ := pgram_starts hp
    have ht := (h.cons hi).2.1
    constructor <;> rw [ht] <;> intro hc <;> rw [hc] at hit <;> revert hit <;> decide
  rw [if_pos hst]
  have hbar : Hd E (tg ++ (tb ++ .sep .semi nl :: (tc ++ us))) (· ≠ .bar) := by
    obtain ⟨r, rfl⟩ := hb
    rcases ih2 with ⟨rfl, rfl⟩ | ⟨te, e, rfl, rfl, hf⟩
    · exact (by decide : Tok.lbrc ≠ .bar)
    · exact (by decide : Tok.if_ ≠ .bar)
  refine Goes.bind (pgram_goes hp s _ h hbar) fun s1 h1 => ?_
  rcases ih2 with ⟨rfl, rfl⟩ | ⟨te, g, rfl, rfl, hf⟩
  · have hni : s1.lex.type ≠ .if_ := by
      obtain ⟨r, rfl⟩ := hb
      rw [Ready.op (us := r ++ .sep .semi nl :: (tc ++ us)) h1]; decide
    refine Goes.ifNo hni (Goes.bind (ih3 s1 _ h1) fun s2 h2 => Goes.eat h2 rfl rfl fun s3 h3 => ?_)
    have := ih4 e (ps ++ [p]) (gs ++ [none]) (bs ++ [ss]) s3 us h3 hu
    simpa using this
  · have h1 : Ready E s1 (.op .if_ :: (te ++ (tb ++ .sep .semi nl :: (tc ++ us)))) := by simpa using h1
    refine Goes.ifYes h1 rfl rfl fun s2 h2 => Goes.bind (hf s2 _ h2 (body_end hb)) fun s2' h2' => Goes.bind (ih3 s2' _ h2') fun s3 h3 => Goes.eat h3 rfl rfl fun s4 h4 => ?_
    have := ih4 e (ps ++ [p]) (gs ++ [some g]) (bs ++ [ss]) s4 us h4 hu
    simpa using this

theorem main_body {ts : List TextItem} {ss : List Node} (ih : CompStmts E cfg ts ss) : Comp E cfg .body (.op .lbrc :: (ts ++ [.op .rbrc])) ss := by
  intro s us h
  have h : Ready E s (.op .lbrc :: (ts ++ .op .rbrc :: us)) := by simpa using h
  rw [parseBody]
  exact Goes.eatOp h fun s1 h1 => Goes.bind (ih [] s1 _ h1 rfl) fun s2 h2 => Goes.eatOp h2 fun s3 h3 => Goes.pure h3

theorem main_stmtsEnd : CompStmts E cfg [] [] := by
  intro acc s us h hu
  have h : Ready E s us := h
  rw [parseStmts]
  refine Goes.curtok ?_
  rw [h.hd hu, if_neg (by decide), List.append_nil]
  exact Goes.pure h

theorem main_stmts {ts tm : List TextItem} {nl : Bool} {n : Node} {ss : List Node} (hs : StmtStarts ts) (ih1 : Comp E cfg .stmt ts n) (ih2 : CompStmts E cfg tm ss) :
    CompStmts E cfg (ts ++ .sep .semi nl :: tm) (n :: ss) := by
  intro acc s us h hu
  have h : Ready E s (ts ++ .sep .semi nl :: (tm ++ us)) := by simpa using h
  rw [parseStmts]
  refine Goes.curtok ?_
  have hst : s.lex.type ≠ .rbrc ∧ s.lex.type ≠ .eof := by
    obtain ⟨i, r, rfl, hi, h1, h2⟩ := hs
    rw [(h.cons hi).2.1]; exact ⟨h1, h2⟩
  rw [if_pos hst]
  refine Goes.bind (ih1 s _ h rfl) fun s1 h1 => Goes.eat h1 rfl rfl fun s2 h2 => ?_
  have := ih2 (acc ++ [n]) s2 us h2 hu
  simpa using this

end Yasl
