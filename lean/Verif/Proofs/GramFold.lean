import Verif.Proofs.GramHead
set_option autoImplicit false
/-! # Folding while parsing is folding afterwards -/
namespace Yasl

/-! ## Trees whose folded form is known -/

theorem foldUn_const {o : UnOp} {a e : Expr} (h : foldUn o a = some e) : e.isConst = true ∨ ∃ o a, e = .un o a := by
  rcases foldUn_cases h with h | h
  · exact .inl h
  · exact .inr ⟨_, _, h⟩

theorem fold_var {F : FloatOps} {e : Expr} {x : Name} (h : fold F e = some (.var x)) : e = .var x := by
  cases e <;> simp only [fold, Option.bind_eq_some_iff, Option.some.injEq, reduceCtorEq, and_false, exists_false] at h
  · exact h
  · obtain ⟨a, -, h⟩ := h; rcases foldUn_cases h with h | h <;> simp [Expr.isConst] at h
  · obtain ⟨a, -, b, -, h⟩ := h; rcases foldBin_cases h with h | h <;> simp [Expr.isConst] at h

theorem fold_get {F : FloatOps} {e c' k' : Expr} (h : fold F e = some (.get c' k')) : ∃ c k, e = .get c k ∧ fold F c = some c' ∧ fold F k = some k' := by
  cases e <;> simp only [fold, Option.bind_eq_some_iff, Option.some.injEq, reduceCtorEq, and_false, exists_false] at h
  · obtain ⟨a, -, h⟩ := h; rcases foldUn_cases h with h | h <;> simp [Expr.isConst] at h
  · obtain ⟨a, -, b, -, h⟩ := h; rcases foldBin_cases h with h | h <;> simp [Expr.isConst] at h
  · obtain ⟨a, h1, b, h2, h⟩ := h; cases h; exact ⟨_, _, rfl, h1, h2⟩

theorem Node.expr_var {n : Node} {x : Name} (h : n.expr = some (.var x)) : n = .var x := by
  cases n <;> simp [Node.expr, Option.bind_eq_some_iff] at h
  rw [h]

theorem Node.expr_get {n : Node} {c k : Expr} (h : n.expr = some (.get c k)) : ∃ nc nk, n = .get nc nk ∧ nc.expr = some c ∧ nk.expr = some k := by
  cases n <;> simp [Node.expr, Option.bind_eq_some_iff] at h
  exact ⟨_, _, rfl, h.1, h.2⟩

theorem foldBin_cnct (F : FloatOps) (l r : Expr) : foldBin F (.op .cnct) l r = some (.bin (.op .cnct) l r) := by
  unfold foldBin
  split <;> rfl

/-- Appending expressions. -/
def Exprs.app : Exprs → Exprs → Exprs
  | .nil, fs => fs
  | .cons e es, fs => .cons e (es.app fs)

theorem exprsOf_app : ∀ {ns ms : List Node} {es fs : Exprs}, exprsOf ns = some es → exprsOf ms = some fs → exprsOf (ns ++ ms) = some (es.app fs)
  | [], ms, es, fs, h, h' => by simp only [exprsOf, Option.some.injEq] at h; subst h; exact h'
  | n :: ns, ms, es, fs, h, h' => by
    simp only [exprsOf, Option.bind_eq_some_iff, Option.some.injEq] at h
    obtain ⟨e, h1, es1, h2, rfl⟩ := h
    simp [exprsOf, h1, exprsOf_app h2 h', Exprs.app]

theorem exprsOf_app_inv : ∀ {ns ms : List Node} {es : Exprs}, exprsOf (ns ++ ms) = some es → ∃ a b, exprsOf ns = some a ∧ exprsOf ms = some b ∧ es = a.app b
  | [], ms, es, h => ⟨.nil, es, rfl, h, rfl⟩
  | n :: ns, ms, es, h => by
    simp only [List.cons_append, exprsOf, Option.bind_eq_some_iff, Option.some.injEq] at h
    obtain ⟨e, h1, es1, h2, rfl⟩ := h
    obtain ⟨a, b, h3, h4, rfl⟩ := exprsOf_app_inv h2
    exact ⟨.cons e a, b, by simp [exprsOf, h1, h3], h4, rfl⟩

theorem exprsOf_length : ∀ {ns : List Node} {es : Exprs}, exprsOf ns = some es → es.length = ns.length
  | [], es, h => by simp only [exprsOf, Option.some.injEq] at h; subst h; rfl
  | n :: ns, es, h => by
    simp only [exprsOf, Option.bind_eq_some_iff, Option.some.injEq] at h
    obtain ⟨e, h1, es1, h2, rfl⟩ := h
    simp [Exprs.length, exprsOf_length h2]

theorem foldBody_app {F : FloatOps} : ∀ {es fs es' fs' : Exprs}, foldBody F es = some es' → foldBody F fs = some fs' → foldBody F (es.app fs) = some (es'.app fs')
  | .nil, fs, es', fs', h, h' => by simp only [foldBody, Option.some.injEq] at h; subst h; exact h'
  | .cons e es, fs, es', fs', h, h' => by
    simp only [foldBody, Option.bind_eq_some_iff, Option.some.injEq] at h
    obtain ⟨e', h1, es1, h2, rfl⟩ := h
    simp [foldBody, Exprs.app, h1, foldBody_app h2 h']

/-- `undef`s. -/
def Exprs.undefs : Nat → Exprs
  | 0 => .nil
  | n + 1 => .cons .undef (Exprs.undefs n)

theorem exprsOf_undefs : ∀ n, exprsOf (List.replicate n Node.undef) = some (Exprs.undefs n)
  | 0 => rfl
  | n + 1 => by simp [List.replicate_succ, exprsOf, Node.expr, exprsOf_undefs n, Exprs.undefs]

theorem foldBody_undefs (F : FloatOps) : ∀ n, foldBody F (Exprs.undefs n) = some (Exprs.undefs n)
  | 0 => rfl
  | n + 1 => by simp [foldBody, Exprs.undefs, fold, foldBody_undefs F n]

theorem exprsOf_last {ns : List Node} {es : Exprs} (h : exprsOf ns = some es) {e : Node} (hl : ns.getLast? = some e) : ∃ x, e.expr = some x := by
  obtain ⟨a, rfl⟩ : ∃ a, ns = a ++ [e] := by
    have := List.getLast?_eq_some_iff.1 hl
    obtain ⟨ys, hys⟩ := this; exact ⟨ys, hys⟩
  obtain ⟨x, y, -, h2, -⟩ := exprsOf_app_inv h
  simp only [exprsOf, Option.bind_eq_some_iff] at h2
  obtain ⟨z, hz, -⟩ := h2
  exact ⟨z, hz⟩

/-- Is the last one a call? -/
theorem padTo_plain {n : Nat} {ns : List Node} {es : Exprs} (h : exprsOf ns = some es) : padTo n ns = ns ++ List.replicate (n - ns.length) .undef := by
  unfold padTo
  rw [if_neg]
  split
  · rename_i hl; obtain ⟨x, hx⟩ := exprsOf_last h hl; simp [Node.expr] at hx
  · rename_i hl; obtain ⟨x, hx⟩ := exprsOf_last h hl; simp [Node.expr] at hx
  · simp

theorem lastSpread_call_none {n : Int} : ∀ {ns : List Node}, (∃ f as, ns.getLast? = some (.call f as)) ∨ (∃ o m as, ns.getLast? = some (.mcall o m as)) →
    exprsOf (lastSpread n ns) = none
  | [], h => by simp at h
  | [e], h => by
    rcases h with ⟨f, as, h⟩ | ⟨o, m, as, h⟩ <;> simp only [List.getLast?_singleton, Option.some.injEq] at h <;> subst h <;> simp [lastSpread, exprsOf, Node.expr]
  | e :: e' :: es, h => by
    have := lastSpread_call_none (n := n) (ns := e' :: es) (by simpa using h)
    have h2 : lastSpread n (e :: e' :: es) = e :: lastSpread n (e' :: es) := by
      cases e <;> rfl
    rw [h2]
    simp [exprsOf, this]

theorem padTo_back {n : Nat} {ns : List Node} {es : Exprs} (h : exprsOf (padTo n ns) = some es) : ∃ a, exprsOf ns = some a ∧ es = a.app (Exprs.undefs (n - ns.length)) := by
  unfold padTo at h
  split at h
  · rename_i hl; rw [if_pos rfl, lastSpread_call_none (.inl ⟨_, _, hl⟩)] at h; cases h
  · rename_i hl; rw [if_pos rfl, lastSpread_call_none (.inr ⟨_, _, _, hl⟩)] at h; cases h
  · rw [if_neg (by decide)] at h
    obtain ⟨a, b, h1, h2, rfl⟩ := exprsOf_app_inv h
    rw [exprsOf_undefs] at h2
    simp only [Option.some.injEq] at h2
    exact ⟨a, h1, by rw [h2]⟩

/-- The expression of a string with embedded expressions. -/
def interpExpr : Expr → Exprs → List (List Byte) → Expr
  | a, .cons p ps, s :: ss => interpExpr (.bin (.op .cnct) (.bin (.op .cnct) a p) (.str s)) ps ss
  | a, _, _ => a

/-- The node of a string with embedded expressions, from a prefix on. -/
def interpNode (n : Node) (ps : List (Node × List Byte)) : Node := ps.foldl (fun n p => .bin .tilde (.bin .tilde n p.1) (.str p.2)) n

theorem interp_expr : ∀ {ps : List (Node × List Byte)} {n : Node} {a : Expr} {E : Exprs}, n.expr = some a → exprsOf (ps.map (·.1)) = some E →
    (interpNode n ps).expr = some (interpExpr a E (ps.map (·.2)))
  | [], n, a, E, h, h' => by
    simp only [List.map_nil, exprsOf, Option.some.injEq] at h'; subst h'; exact h
  | p :: ps, n, a, E, h, h' => by
    simp only [List.map_cons, exprsOf, Option.bind_eq_some_iff, Option.some.injEq] at h'
    obtain ⟨x, h1, xs, h2, rfl⟩ := h'
    exact interp_expr (n := .bin .tilde (.bin .tilde n p.1) (.str p.2)) (by simp [Node.expr, h, h1, Tok.binTok]) h2

theorem interp_back : ∀ {ps : List (Node × List Byte)} {n : Node} {e : Expr}, (interpNode n ps).expr = some e →
    ∃ a E, n.expr = some a ∧ exprsOf (ps.map (·.1)) = some E
  | [], n, e, h => ⟨e, .nil, h, rfl⟩
  | p :: ps, n, e, h => by
    obtain ⟨a, E, h1, h2⟩ := interp_back (n := .bin .tilde (.bin .tilde n p.1) (.str p.2)) h
    simp only [Node.expr, Option.bind_eq_some_iff] at h1
    obtain ⟨_, _, _, ⟨_, _, x, hx, y, hy, _⟩, _⟩ := h1
    exact ⟨x, .cons y E, hx, by simp [exprsOf, hy, h2]⟩

theorem interp_fold {F : FloatOps} : ∀ {E E' : Exprs} {a a' : Expr} {ss : List (List Byte)}, fold F a = some a' → foldBody F E = some E' →
    fold F (interpExpr a E ss) = some (interpExpr a' E' ss)
  | .nil, E', a, a', ss, h, h' => by
    simp only [foldBody, Option.some.injEq] at h'; subst h'; simpa [interpExpr] using h
  | .cons e E, E', a, a', ss, h, h' => by
    simp only [foldBody, Option.bind_eq_some_iff, Option.some.injEq] at h'
    obtain ⟨x, h1, xs, h2, rfl⟩ := h'
    cases ss with
    | nil => simpa [interpExpr] using h
    | cons s ss =>
      simp only [interpExpr]
      exact interp_fold (by simp [fold, h, h1, foldBin_cnct]) h2

/-! ## From the folded tree to the tree as written -/

section
variable (flt : List Byte → BitVec 64) (F : FloatOps)

/-- The phrase, as written, is an expression whose folded form is `e'`. -/
def BackE (G : Node → Prop) (n' : Node) : Prop :=
  ∀ e', n'.expr = some e' → ∃ (n : Node) (e : Expr), G n ∧ n.expr = some e ∧ fold F e = some e'

/-- The phrase, as written, is an expression that is folded as `e'` is. -/
def BackU (G : Node → Prop) (n' : Node) : Prop :=
  ∀ e', n'.expr = some e' → ∃ (n : Node) (e : Expr), G n ∧ n.expr = some e ∧ fold F e = fold F e'

/-- The phrase, as written, is a statement whose folded form is `s'`. -/
def BackS (G : Node → Prop) (n' : Node) : Prop :=
  ∀ s', n'.stmt = some s' → ∃ (n : Node) (s : Stmt), G n ∧ n.stmt = some s ∧ foldStmt F s = some s'

/-- The claim for each category. -/
def Back : (c : Cat) → List TextItem → c.Res → Prop
  | .expr, ts, n' => BackE F (Gram flt some .expr ts) n'
  | .post, ts, n' => BackE F (Gram flt some .post ts) n'
  | .atom, ts, n' => BackE F (Gram flt some .atom ts) n'
  | .tern, ts, n' => BackU F (Gram flt some .tern ts) n'
  | .bin k, ts, n' => BackU F (Gram flt some (.bin k) ts) n'
  | .unary, ts, n' => BackU F (Gram flt some .unary ts) n'
  | .power, ts, n' => BackU F (Gram flt some .power ts) n'
  | .string, ts, r' => ∀ E', exprsOf (r'.2.map (·.1)) = some E' → ∃ (ps : List (Node × List Byte)) (E : Exprs), Gram flt some .string ts (r'.1, ps) ∧
      ps.map (·.2) = r'.2.map (·.2) ∧ exprsOf (ps.map (·.1)) = some E ∧ foldBody F E = some E'
  | .more, ts, ns' => ∀ E', exprsOf ns' = some E' → ∃ (ns : List Node) (E : Exprs), Gram flt some .more ts ns ∧ exprsOf ns = some E ∧ foldBody F E = some E'
  | .pairs, ts, ns' => ∀ E', exprsOf ns' = some E' → ∃ (ns : List Node) (E : Exprs), Gram flt some .pairs ts ns ∧ exprsOf ns = some E ∧ foldBody F E = some E'
  | .iter, ts, n' => ∀ x m' e', n' = Node.letIter x m' → m'.expr = some e' → ∃ (m : Node) (e : Expr), Gram flt some .iter ts (Node.letIter x m) ∧ m.expr = some e ∧
      fold F e = some e'
  | .stmt, ts, n' => BackS F (Gram flt some .stmt ts) n'
  | .simple, ts, n' => BackS F (Gram flt some .simple ts) n'
  | .ifRest, ts, n' => BackS F (Gram flt some .ifRest ts) n'
  | .lval, ts, n' => ∀ l', Node.lval n' = some l' → ∃ (n : Node) (l : LVal), Gram flt some .lval ts n ∧ n.lval = some l ∧ foldLVal F l = some l'
  | .lvals, ts, ns' => ∀ L', lvalsOf ns' = some L' → ∃ (ns : List Node) (L : List LVal), Gram flt some .lvals ts ns ∧ lvalsOf ns = some L ∧ foldLVals F L = some L'
  | .body, ts, ns' => ∀ S', stmtsOf ns' = some S' → ∃ (ns : List Node) (S : Stmts), Gram flt some .body ts ns ∧ stmtsOf ns = some S ∧ foldStmts F S = some S'
  | .stmts, ts, ns' => ∀ S', stmtsOf ns' = some S' → ∃ (ns : List Node) (S : Stmts), Gram flt some .stmts ts ns ∧ stmtsOf ns = some S ∧ foldStmts F S = some S'
  | .args, _, _ | .cond, _, _ | .clauses, _, _ => True

variable {flt F}

theorem lvalsOf_length : ∀ {ns : List Node} {ls : List LVal}, lvalsOf ns = some ls → ls.length = ns.length
  | [], ls, h => by simp only [lvalsOf, Option.some.injEq] at h; subst h; rfl
  | n :: ns, ls, h => by
    simp only [lvalsOf, Option.bind_eq_some_iff, Option.some.injEq] at h
    obtain ⟨l, h1, ls1, h2, rfl⟩ := h
    simp [lvalsOf_length h2]

theorem foldLVals_length : ∀ {ls ls' : List LVal}, foldLVals F ls = some ls' → ls'.length = ls.length
  | [], ls, h => by simp only [foldLVals, Option.some.injEq] at h; subst h; rfl
  | n :: ns, ls, h => by
    simp only [foldLVals, Option.bind_eq_some_iff, Option.some.injEq] at h
    obtain ⟨l, h1, ls1, h2, rfl⟩ := h
    simp [foldLVals_length h2]

/-- The right side of a declaration. -/
theorem back_rhs {n : Nat} {e' : Node} {es' : List Node} {tr tm : List TextItem} (h1 : Back flt F .expr tr e') (h2 : Back flt F .more tm es') {E' : Exprs}
    (h : exprsOf (padTo n (e' :: es')) = some E') : ∃ (e : Node) (es : List Node) (E : Exprs), Gram flt some .expr tr e ∧ Gram flt some .more tm es ∧
      es.length = es'.length ∧ exprsOf (padTo n (e :: es)) = some E ∧ foldBody F E = some E' := by
  obtain ⟨a, h3, rfl⟩ := padTo_back h
  simp only [exprsOf, Option.bind_eq_some_iff, Option.some.injEq] at h3
  obtain ⟨x', hx, xs', hxs, rfl⟩ := h3
  obtain ⟨e, x, g1, g2, g3⟩ := h1 x' hx
  obtain ⟨es, xs, g4, g5, g6⟩ := h2 xs' hxs
  have hlen : es.length = es'.length := by
    rw [← exprsOf_length g5, ← exprsOf_length hxs, foldBody_length g6]
  have hE : exprsOf (e :: es) = some (.cons x xs) := by simp [exprsOf, g2, g5]
  refine ⟨e, es, Exprs.app (.cons x xs) (Exprs.undefs (n - (e' :: es').length)), g1, g4, hlen, ?_, ?_⟩
  · rw [padTo_plain hE]
    refine exprsOf_app hE ?_
    rw [show (e :: es).length = (e' :: es').length by simp [hlen]]
    exact exprsOf_undefs _
  · exact foldBody_app (by simp [foldBody, g3, g6]) (foldBody_undefs F _)

theorem back_tri {c a b c' a' b' : Expr} (h1 : fold F c = fold F c') (h2 : fold F a = fold F a') (h3 : fold F b = fold F b') :
    fold F (.tri c a b) = fold F (.tri c' a' b') := by simp only [fold, h1, h2, h3]

theorem back_bin {t : BinTok} {a b a' b' : Expr} (h2 : fold F a = fold F a') (h3 : fold F b = fold F b') :
    fold F (.bin t a b) = fold F (.bin t a' b') := by simp only [fold, h2, h3]

/-- The folded tree of a phrase is the folding of its tree as written. -/
theorem gram_back {c : Cat} {ts : List TextItem} {r : c.Res} (h : Gram flt (foldNode F) c ts r) : Back flt F c ts r := by
  induction h with
  | @expr ts n0 n1 h0 hf ih =>
    intro e' he
    obtain ⟨x, hx⟩ := foldNode_back hf he
    obtain ⟨n, e, g1, g2, g3⟩ := ih x hx
    obtain ⟨y, hy1, hy2⟩ := (foldNode_eq (F := F) hx).left hf
    rw [he] at hy2
    simp only [Option.some.injEq] at hy2; subst hy2
    exact ⟨n, e, .expr g1 rfl, g2, by rw [g3, hy1]⟩
  | ternOne _ ih => intro e' he; obtain ⟨n, e, g1, g2⟩ := ih e' he; exact ⟨n, e, .ternOne g1, g2⟩
  | tern _ _ _ i1 i2 i3 =>
    intro e' he
    simp only [Node.expr, Option.bind_eq_some_iff, Option.some.injEq] at he
    obtain ⟨c, hc, a, ha, b, hb, rfl⟩ := he
    obtain ⟨nc, xc, c1, c2, c3⟩ := i1 c hc
    obtain ⟨na, xa, a1, a2, a3⟩ := i2 a ha
    obtain ⟨nb, xb, b1, b2, b3⟩ := i3 b hb
    exact ⟨_, .tri xc xa xb, .tern c1 a1 b1, by simp [Node.expr, c2, a2, b2], back_tri c3 a3 b3⟩
  | binUp hk _ ih => intro e' he; obtain ⟨n, e, g1, g2⟩ := ih e' he; exact ⟨n, e, .binUp hk g1, g2⟩
  | binLeft ho _ _ i1 i2 =>
    intro e' he
    simp only [Node.expr, Option.bind_eq_some_iff, Option.some.injEq] at he
    obtain ⟨o, hto, a, ha, b, hb, rfl⟩ := he
    obtain ⟨na, xa, a1, a2, a3⟩ := i1 a ha
    obtain ⟨nb, xb, b1, b2, b3⟩ := i2 b hb
    exact ⟨_, .bin o xa xb, .binLeft ho a1 b1, by simp [Node.expr, hto, a2, b2], back_bin a3 b3⟩
  | binRight ho _ _ i1 i2 =>
    intro e' he
    simp only [Node.expr, Option.bind_eq_some_iff, Option.some.injEq] at he
    obtain ⟨o, hto, a, ha, b, hb, rfl⟩ := he
    obtain ⟨na, xa, a1, a2, a3⟩ := i1 a ha
    obtain ⟨nb, xb, b1, b2, b3⟩ := i2 b hb
    exact ⟨_, .bin o xa xb, .binRight ho a1 b1, by simp [Node.expr, hto, a2, b2], back_bin a3 b3⟩
  | binUnary _ ih => intro e' he; obtain ⟨n, e, g1, g2⟩ := ih e' he; exact ⟨n, e, .binUnary g1, g2⟩
  | unaryOne _ ih => intro e' he; obtain ⟨n, e, g1, g2⟩ := ih e' he; exact ⟨n, e, .unaryOne g1, g2⟩
  | unary ht _ ih =>
    intro e' he
    simp only [Node.expr, Option.bind_eq_some_iff, Option.some.injEq] at he
    obtain ⟨o, hto, a, ha, rfl⟩ := he
    obtain ⟨na, xa, a1, a2, a3⟩ := ih a ha
    exact ⟨_, .un o xa, .unary ht a1, by simp [Node.expr, hto, a2], by simp only [fold, a3]⟩
  | powerOne _ ih =>
    intro e' he
    obtain ⟨n, e, g1, g2, g3⟩ := ih e' he
    exact ⟨n, e, .powerOne g1, g2, by rw [g3, fold_idem g3]⟩
  | power _ _ i1 i2 =>
    intro e' he
    simp only [Node.expr, Option.bind_eq_some_iff, Option.some.injEq] at he
    obtain ⟨o, hto, a, ha, b, hb, rfl⟩ := he
    obtain ⟨na, xa, a1, a2, a3⟩ := i1 a ha
    obtain ⟨nb, xb, b1, b2, b3⟩ := i2 b hb
    exact ⟨_, .bin o xa xb, .power a1 b1, by simp [Node.expr, hto, a2, b2], back_bin (by rw [a3, fold_idem a3]) b3⟩
  | postOne _ ih => intro e' he; obtain ⟨n, e, g1, g2⟩ := ih e' he; exact ⟨n, e, .postOne g1, g2⟩
  | call | mcall | dotCall | fn | listComp | tableComp => intro e' he; simp [Node.expr] at he
  | dot _ _ i1 i2 =>
    intro e' he
    simp only [Node.expr, Option.bind_eq_some_iff, Option.some.injEq] at he
    obtain ⟨a, ha, b, hb, rfl⟩ := he
    obtain ⟨na, xa, a1, a2, a3⟩ := i1 a ha
    obtain ⟨nb, xb, b1, b2, b3⟩ := i2 _ rfl
    have := fold_var b3; subst this
    have := Node.expr_var b2; subst this
    exact ⟨_, .get xa b, .dot a1 b1, by simp [Node.expr, a2, hb], by subst hb; simp [fold, a3]⟩
  | index _ _ i1 i2 =>
    intro e' he
    simp only [Node.expr, Option.bind_eq_some_iff, Option.some.injEq] at he
    obtain ⟨a, ha, b, hb, rfl⟩ := he
    obtain ⟨na, xa, a1, a2, a3⟩ := i1 a ha
    obtain ⟨nb, xb, b1, b2, b3⟩ := i2 b hb
    exact ⟨_, .get xa xb, .index a1 b1, by simp [Node.expr, a2, b2], by simp [fold, a3, b3]⟩
  | slice _ _ _ i1 i2 i3 =>
    intro e' he
    simp only [Node.expr, Option.bind_eq_some_iff, Option.some.injEq] at he
    obtain ⟨c, hc, a, ha, b, hb, rfl⟩ := he
    obtain ⟨nc, xc, c1, c2, c3⟩ := i1 c hc
    obtain ⟨na, xa, a1, a2, a3⟩ := i2 a ha
    obtain ⟨nb, xb, b1, b2, b3⟩ := i3 b hb
    exact ⟨_, .slice xc xa xb, .slice c1 a1 b1, by simp [Node.expr, c2, a2, b2], by simp [fold, c3, a3, b3]⟩
  | sliceFrom _ _ i1 i2 =>
    intro e' he
    simp only [Node.expr, Option.bind_eq_some_iff, Option.some.injEq] at he
    obtain ⟨c, hc, a, ha, b, rfl, rfl⟩ := he
    obtain ⟨nc, xc, c1, c2, c3⟩ := i1 c hc
    obtain ⟨na, xa, a1, a2, a3⟩ := i2 a ha
    exact ⟨_, .slice xc xa .undef, .sliceFrom c1 a1, by simp [Node.expr, c2, a2], by simp [fold, c3, a3]⟩
  | sliceTo _ _ i1 i2 =>
    intro e' he
    simp only [Node.expr, Option.bind_eq_some_iff, Option.some.injEq] at he
    obtain ⟨c, hc, a, rfl, b, hb, rfl⟩ := he
    obtain ⟨nc, xc, c1, c2, c3⟩ := i1 c hc
    obtain ⟨nb, xb, b1, b2, b3⟩ := i2 b hb
    exact ⟨_, .slice xc .undef xb, .sliceTo c1 b1, by simp [Node.expr, c2, b2], by simp [fold, c3, b3]⟩
  | sliceAll _ i1 =>
    intro e' he
    simp only [Node.expr, Option.bind_eq_some_iff, Option.some.injEq] at he
    obtain ⟨c, hc, a, rfl, b, rfl, rfl⟩ := he
    obtain ⟨nc, xc, c1, c2, c3⟩ := i1 c hc
    exact ⟨_, .slice xc .undef .undef, .sliceAll c1, by simp [Node.expr, c2], by simp [fold, c3]⟩
  | field => intro e' he; simp only [Node.expr, Option.some.injEq] at he; subst he; exact ⟨_, _, .field, rfl, rfl⟩
  | var => intro e' he; simp only [Node.expr, Option.some.injEq] at he; subst he; exact ⟨_, _, .var, rfl, rfl⟩
  | int => intro e' he; simp only [Node.expr, Option.some.injEq] at he; subst he; exact ⟨_, _, .int, rfl, rfl⟩
  | float => intro e' he; simp only [Node.expr, Option.some.injEq] at he; subst he; exact ⟨_, _, .float, rfl, rfl⟩
  | bool => intro e' he; simp only [Node.expr, Option.some.injEq] at he; subst he; exact ⟨_, _, .bool, rfl, rfl⟩
  | undef => intro e' he; simp only [Node.expr, Option.some.injEq] at he; subst he; exact ⟨_, _, .undef, rfl, rfl⟩
  | paren _ ih => intro e' he; obtain ⟨n, e, g1, g2⟩ := ih e' he; exact ⟨n, e, .paren g1, g2⟩
  | @string ts v ps' _ ih =>
    intro e' he
    obtain ⟨a, E', ha, hE⟩ := interp_back (n := .str v) (ps := ps') he
    obtain ⟨ps, E, g1, g2, g3, g4⟩ := ih E' hE
    have h1 := interp_expr (n := .str v) (ps := ps') rfl hE
    have h2 := interp_expr (n := .str v) (ps := ps) rfl g3
    rw [show interpNode (.str v) ps' = interpolated v ps' from rfl, he] at h1
    simp only [Option.some.injEq] at h1; subst h1
    exact ⟨_, _, .string g1, h2, by rw [g2]; exact interp_fold rfl g4⟩
  | listEmpty =>
    intro e' he
    simp only [Node.expr, exprsOf, Option.bind_some, Option.some.injEq] at he; subst he
    exact ⟨_, _, .listEmpty, rfl, rfl⟩
  | list _ h1 _ h2 i1 i2 =>
    intro e' he
    simp only [Node.expr, exprsOf, Option.bind_eq_some_iff, Option.some.injEq] at he
    obtain ⟨_, ⟨a, ha, b, hb, rfl⟩, rfl⟩ := he
    obtain ⟨na, xa, a1, a2, a3⟩ := i1 a ha
    obtain ⟨nb, xb, b1, b2, b3⟩ := i2 b hb
    exact ⟨_, .list (.cons xa xb), .list a1 h1 b1 h2, by simp [Node.expr, exprsOf, a2, b2], by simp [fold, foldBody, a3, b3]⟩
  | tableEmpty =>
    intro e' he
    simp only [Node.expr, exprsOf, Option.bind_some, Option.some.injEq] at he; subst he
    exact ⟨_, _, .tableEmpty, rfl, rfl⟩
  | table _ _ h1 _ h2 i1 i2 i3 =>
    intro e' he
    simp only [Node.expr, exprsOf, Option.bind_eq_some_iff, Option.some.injEq] at he
    obtain ⟨_, ⟨a, ha, _, ⟨b, hb, c, hc, rfl⟩, rfl⟩, rfl⟩ := he
    obtain ⟨na, xa, a1, a2, a3⟩ := i1 a ha
    obtain ⟨nb, xb, b1, b2, b3⟩ := i2 b hb
    obtain ⟨nc, xc, c1, c2, c3⟩ := i3 c hc
    exact ⟨_, .table (.cons xa (.cons xb xc)), .table a1 b1 h1 c1 h2, by simp [Node.expr, exprsOf, a2, b2, c2], by simp [fold, foldBody, a3, b3, c3]⟩
  | strEnd =>
    intro E' hE
    simp only [List.map_nil, exprsOf, Option.some.injEq] at hE; subst hE
    exact ⟨[], .nil, .strEnd, rfl, rfl, rfl⟩
  | @strMore te tr v v' e ps' t _ _ i1 i2 =>
    intro E' hE
    simp only [List.map_cons, exprsOf, Option.bind_eq_some_iff, Option.some.injEq] at hE
    obtain ⟨a, ha, b, hb, rfl⟩ := hE
    obtain ⟨na, xa, a1, a2, a3⟩ := i1 a ha
    obtain ⟨ps, E, g1, g2, g3, g4⟩ := i2 b hb
    exact ⟨(na, v') :: ps, .cons xa E, .strMore a1 g1, by simp [g2], by simp [exprsOf, a2, g3], by simp [foldBody, a3, g4]⟩
  | argsEnd | argsLast | args | condNone | cond | clausesEnd | clauses => trivial
  | moreEnd => intro E' hE; simp only [exprsOf, Option.some.injEq] at hE; subst hE; exact ⟨[], .nil, .moreEnd, rfl, rfl⟩
  | more _ _ i1 i2 =>
    intro E' hE
    simp only [exprsOf, Option.bind_eq_some_iff, Option.some.injEq] at hE
    obtain ⟨a, ha, b, hb, rfl⟩ := hE
    obtain ⟨na, xa, a1, a2, a3⟩ := i1 a ha
    obtain ⟨nb, xb, b1, b2, b3⟩ := i2 b hb
    exact ⟨na :: nb, .cons xa xb, .more a1 b1, by simp [exprsOf, a2, b2], by simp [foldBody, a3, b3]⟩
  | pairsEnd => intro E' hE; simp only [exprsOf, Option.some.injEq] at hE; subst hE; exact ⟨[], .nil, .pairsEnd, rfl, rfl⟩
  | pairs _ _ _ i1 i2 i3 =>
    intro E' hE
    simp only [exprsOf, Option.bind_eq_some_iff, Option.some.injEq] at hE
    obtain ⟨a, ha, _, ⟨b, hb, c, hc, rfl⟩, rfl⟩ := hE
    obtain ⟨na, xa, a1, a2, a3⟩ := i1 a ha
    obtain ⟨nb, xb, b1, b2, b3⟩ := i2 b hb
    obtain ⟨nc, xc, c1, c2, c3⟩ := i3 c hc
    exact ⟨na :: nb :: nc, .cons xa (.cons xb xc), .pairs a1 b1 c1, by simp [exprsOf, a2, b2, c2], by simp [foldBody, a3, b3, c3]⟩
  | iter _ ih =>
    rintro x m' e' hm he
    cases hm
    obtain ⟨n, e, g1, g2⟩ := ih e' he
    exact ⟨n, e, .iter g1, g2⟩
  | echo _ ih =>
    intro s' hs
    simp only [Node.stmt, Option.bind_eq_some_iff, Option.some.injEq] at hs
    obtain ⟨a, ha, rfl⟩ := hs
    obtain ⟨n, e, g1, g2, g3⟩ := ih a ha
    exact ⟨_, .echo e, .echo g1, by simp [Node.stmt, g2], by simp [foldStmt, g3]⟩
  | assert _ ih =>
    intro s' hs
    simp only [Node.stmt, Option.bind_eq_some_iff, Option.some.injEq] at hs
    obtain ⟨a, ha, rfl⟩ := hs
    obtain ⟨n, e, g1, g2, g3⟩ := ih a ha
    exact ⟨_, .assert e, .assert g1, by simp [Node.stmt, g2], by simp [foldStmt, g3]⟩
  | brk => intro s' hs; simp only [Node.stmt, Option.some.injEq] at hs; subst hs; exact ⟨_, _, .brk, rfl, rfl⟩
  | cont => intro s' hs; simp only [Node.stmt, Option.some.injEq] at hs; subst hs; exact ⟨_, _, .cont, rfl, rfl⟩
  | export_ | ret | multiRet | fnConst | match_ => intro s' hs; simp [Node.stmt] at hs
  | fnDecl => intro s' hs; simp [Node.stmt, Node.expr] at hs
  | fnMember => intro s' hs; simp [Node.stmt, Node.expr] at hs
  | fnExpr h _ => intro s' hs; rw [fnExpr_none (KeepsShape.folding F) h] at hs; cases hs
  | @declLet x tl tr tm ls e0 es0 _ _ _ hl i1 i2 i3 =>
    intro s' hs
    simp only [Node.stmt, lvalsOf, Node.lval, Option.bind_eq_some_iff, Option.some.injEq] at hs
    obtain ⟨_, ⟨_, rfl, L', hL, rfl⟩, R', hR, rfl⟩ := hs
    obtain ⟨nl, L, l1, l2, l3⟩ := i1 L' hL
    have hlen : nl.length = ls.length := by rw [← lvalsOf_length l2, ← foldLVals_length l3]; exact lvalsOf_length hL
    obtain ⟨e, es, E, r1, r2, r3, r4, r5⟩ := back_rhs i2 i3 hR
    rw [← hlen] at r4 hl
    exact ⟨_, .decl (.let_ x :: L) E, .declLet l1 r1 r2 (by simpa [r3] using hl), by simp [Node.stmt, lvalsOf, Node.lval, l2, r4],
      by simp [foldStmt, foldLVals, foldLVal, l3, r5]⟩
  | @declConst x tl tr tm ls e0 es0 _ _ _ hl i1 i2 i3 =>
    intro s' hs
    simp only [Node.stmt, lvalsOf, Node.lval, Option.bind_eq_some_iff, Option.some.injEq] at hs
    obtain ⟨_, ⟨_, rfl, L', hL, rfl⟩, R', hR, rfl⟩ := hs
    obtain ⟨nl, L, l1, l2, l3⟩ := i1 L' hL
    have hlen : nl.length = ls.length := by rw [← lvalsOf_length l2, ← foldLVals_length l3]; exact lvalsOf_length hL
    obtain ⟨e, es, E, r1, r2, r3, r4, r5⟩ := back_rhs i2 i3 hR
    rw [← hlen] at r4 hl
    exact ⟨_, .decl (.const_ x :: L) E, .declConst l1 r1 r2 (by simpa [r3] using hl), by simp [Node.stmt, lvalsOf, Node.lval, l2, r4],
      by simp [foldStmt, foldLVals, foldLVal, l3, r5]⟩
  | @declVar x tl tr tm l ls e0 es0 _ _ _ hl i1 i2 i3 =>
    intro s' hs
    rw [Node.stmt.eq_def] at hs
    dsimp only at hs
    rw [lvalsOf.eq_def] at hs
    simp only [Node.lval, Option.bind_eq_some_iff, Option.some.injEq] at hs
    obtain ⟨_, ⟨_, rfl, L', hL, rfl⟩, R', hR, rfl⟩ := hs
    obtain ⟨nl, L, l1, l2, l3⟩ := i1 L' hL
    have hlen : nl.length = (l :: ls).length := by rw [← lvalsOf_length l2, ← foldLVals_length l3]; exact lvalsOf_length hL
    obtain ⟨e, es, E, r1, r2, r3, r4, r5⟩ := back_rhs i2 i3 hR
    rcases nl with _ | ⟨nl0, nls⟩
    · simp at hlen
    simp only [List.length_cons, Nat.add_right_cancel_iff] at hlen
    rw [← hlen] at r4 hl
    exact ⟨_, .decl (.assign x :: L) E, .declVar l1 r1 r2 (by simpa [r3] using hl), by simp [Node.stmt, lvalsOf.eq_def (_ :: nl0 :: nls), Node.lval, l2, r4],
      by simp [foldStmt, foldLVals, foldLVal, l3, r5]⟩
  | @declSet tx tl tr tm c k l ls e0 es0 _ _ _ _ hl i0 i1 i2 i3 =>
    intro s' hs
    rw [Node.stmt.eq_def] at hs
    dsimp only at hs
    rw [lvalsOf.eq_def] at hs
    simp only [Node.lval, Option.bind_eq_some_iff, Option.some.injEq] at hs
    obtain ⟨_, ⟨_, ⟨xc, hc, xk, hk, rfl⟩, L', hL, rfl⟩, R', hR, rfl⟩ := hs
    obtain ⟨n, x, g1, g2, g3⟩ := i0 (.get xc xk) (by simp [Node.expr, hc, hk])
    obtain ⟨yc, yk, rfl, hyc, hyk⟩ := fold_get g3
    obtain ⟨nc, nk, rfl, hnc, hnk⟩ := Node.expr_get g2
    obtain ⟨nl, L, l1, l2, l3⟩ := i1 L' hL
    have hlen : nl.length = (l :: ls).length := by rw [← lvalsOf_length l2, ← foldLVals_length l3]; exact lvalsOf_length hL
    obtain ⟨e, es, E, r1, r2, r3, r4, r5⟩ := back_rhs i2 i3 hR
    rcases nl with _ | ⟨nl0, nls⟩
    · simp at hlen
    simp only [List.length_cons, Nat.add_right_cancel_iff] at hlen
    rw [← hlen] at r4 hl
    exact ⟨_, .decl (.set yc yk :: L) E, .declSet g1 l1 r1 r2 (by simpa [r3] using hl),
      by simp [Node.stmt, lvalsOf.eq_def (_ :: nl0 :: nls), Node.lval, hnc, hnk, l2, r4],
      by simp [foldStmt, foldLVals, foldLVal, hyc, hyk, l3, r5]⟩
  | simple h1 h2 _ ih => intro s' hs; obtain ⟨n, s, g1, g2⟩ := ih s' hs; exact ⟨n, s, .simple h1 h2 g1, g2⟩
  | @forLet x te tc tp tb nl n1 n2 e0 c0 p0 ss0 _ _ _ _ i1 i2 i3 i4 =>
    intro s' hs
    simp only [Node.stmt, stmtsOf, Option.bind_eq_some_iff, Option.some.injEq] at hs
    obtain ⟨_, ⟨_, ⟨e, he, rfl⟩, _, ⟨_, ⟨c, hc, _, ⟨b, hb, rfl⟩, p, hp, rfl⟩, _, rfl, rfl⟩, rfl⟩, rfl⟩ := hs
    obtain ⟨ne, xe, e1, e2, e3⟩ := i1 e he
    obtain ⟨nc, xc, c1, c2, c3⟩ := i2 c hc
    obtain ⟨np, xp, p1, p2, p3⟩ := i3 p hp
    obtain ⟨nb, xb, b1, b2, b3⟩ := i4 b hb
    exact ⟨_, .block (.cons (.letOne x xe) (.cons (.forLoop xc (.block xb) (.post xp)) .nil)), .forLet e1 c1 p1 b1,
      by simp [Node.stmt, stmtsOf, e2, c2, p2, b2], by simp [foldStmt, foldStmts, e3, c3, p3, b3]⟩
  | @forIter ti tb nl i ss _ _ i1 i2 =>
    intro s' hs
    cases i <;> simp only [Node.stmt, reduceCtorEq] at hs
    rename_i _ x coll _
    simp only [Option.bind_eq_some_iff, Option.some.injEq] at hs
    obtain ⟨e, he, _, ⟨b, hb, rfl⟩, rfl⟩ := hs
    obtain ⟨ne, xe, e1, e2, e3⟩ := i1 _ _ e rfl he
    obtain ⟨nb, xb, b1, b2, b3⟩ := i2 b hb
    exact ⟨_, .forIter x xe (.block xb), .forIter e1 b1, by simp [Node.stmt, e2, b2], by simp [foldStmt, e3, b3]⟩
  | while_ _ _ i1 i2 =>
    intro s' hs
    simp only [Node.stmt, Option.bind_eq_some_iff, Option.some.injEq] at hs
    obtain ⟨e, he, _, ⟨b, hb, rfl⟩, rfl⟩ := hs
    obtain ⟨ne, xe, e1, e2, e3⟩ := i1 e he
    obtain ⟨nb, xb, b1, b2, b3⟩ := i2 b hb
    exact ⟨_, .while_ xe (.block xb), .while_ e1 b1, by simp [Node.stmt, e2, b2], by simp [foldStmt, e3, b3]⟩
  | if_ _ ih => intro s' hs; obtain ⟨n, s, g1, g2⟩ := ih s' hs; exact ⟨n, s, .if_ g1, g2⟩
  | exprStmt _ ih =>
    intro s' hs
    simp only [Node.stmt, Option.bind_eq_some_iff, Option.some.injEq] at hs
    obtain ⟨a, ha, rfl⟩ := hs
    obtain ⟨n, e, g1, g2, g3⟩ := ih a ha
    exact ⟨_, .expr e, .exprStmt g1, by simp [Node.stmt, g2], by simp [foldStmt, g3]⟩
  | @assign tx te x e0 _ _ i1 i2 =>
    intro s' hs
    simp only [Node.stmt, Option.bind_eq_some_iff, Option.some.injEq] at hs
    obtain ⟨a, ha, rfl⟩ := hs
    obtain ⟨n, e, g1, g2, g3⟩ := i1 _ rfl
    have := fold_var g3; subst this
    have := Node.expr_var g2; subst this
    obtain ⟨na, xa, a1, a2, a3⟩ := i2 a ha
    exact ⟨_, .assign x xa, .assign g1 a1, by simp [Node.stmt, a2], by simp [foldStmt, a3]⟩
  | set _ _ i1 i2 =>
    intro s' hs
    simp only [Node.stmt, Option.bind_eq_some_iff, Option.some.injEq] at hs
    obtain ⟨xc, hc, xk, hk, a, ha, rfl⟩ := hs
    obtain ⟨n, x, g1, g2, g3⟩ := i1 (.get xc xk) (by simp [Node.expr, hc, hk])
    obtain ⟨yc, yk, rfl, hyc, hyk⟩ := fold_get g3
    obtain ⟨nc, nk, rfl, hnc, hnk⟩ := Node.expr_get g2
    obtain ⟨na, xa, a1, a2, a3⟩ := i2 a ha
    exact ⟨_, .set yc yk xa, .set g1 a1, by simp [Node.stmt, hnc, hnk, a2], by simp [foldStmt, hyc, hyk, a3]⟩
  | @augAssign tx te x e0 t o0 ht _ _ i1 i2 =>
    intro s' hs
    simp only [Node.stmt, Node.expr, Option.bind_eq_some_iff, Option.some.injEq] at hs
    obtain ⟨_, ⟨o, ho, _, rfl, a, ha, rfl⟩, rfl⟩ := hs
    obtain ⟨n, e, g1, g2, g3⟩ := i1 _ rfl
    have := fold_var g3; subst this
    have := Node.expr_var g2; subst this
    obtain ⟨na, xa, a1, a2, a3⟩ := i2 a ha
    exact ⟨_, .assign x (.bin o (.var x) xa), .augAssign ht g1 a1, by simp [Node.stmt, Node.expr, ho, a2],
      by simp [foldStmt, fold, a3, foldBin_other (l := .var _) (.inl rfl)]⟩
  | augSet ht _ _ i1 i2 =>
    intro s' hs
    simp only [Node.stmt, Node.expr, Option.bind_eq_some_iff, Option.some.injEq] at hs
    obtain ⟨xc, hc, xk, hk, _, ⟨o, ho, _, ⟨_, hc', _, hk', rfl⟩, a, ha, rfl⟩, rfl⟩ := hs
    rw [hc] at hc'; rw [hk] at hk'
    simp only [Option.some.injEq] at hc' hk'; subst hc'; subst hk'
    obtain ⟨n, x, g1, g2, g3⟩ := i1 (.get xc xk) (by simp [Node.expr, hc, hk])
    obtain ⟨yc, yk, rfl, hyc, hyk⟩ := fold_get g3
    obtain ⟨nc, nk, rfl, hnc, hnk⟩ := Node.expr_get g2
    obtain ⟨na, xa, a1, a2, a3⟩ := i2 a ha
    exact ⟨_, .set yc yk (.bin o (.get yc yk) xa), .augSet ht g1 a1, by simp [Node.stmt, Node.expr, ho, hnc, hnk, a2],
      by simp [foldStmt, fold, hyc, hyk, a3, foldBin_other (l := .get _ _) (.inl rfl)]⟩
  | lvalLet => intro l' hl; simp only [Node.lval, Option.some.injEq] at hl; subst hl; exact ⟨_, _, .lvalLet, rfl, rfl⟩
  | lvalConst => intro l' hl; simp only [Node.lval, Option.some.injEq] at hl; subst hl; exact ⟨_, _, .lvalConst, rfl, rfl⟩
  | lvalVar _ ih =>
    intro l' hl
    simp only [Node.lval, Option.some.injEq] at hl; subst hl
    obtain ⟨n, e, g1, g2, g3⟩ := ih _ rfl
    have := fold_var g3; subst this
    have := Node.expr_var g2; subst this
    exact ⟨_, _, .lvalVar g1, rfl, rfl⟩
  | lvalGet _ ih =>
    intro l' hl
    simp only [Node.lval, Option.bind_eq_some_iff, Option.some.injEq] at hl
    obtain ⟨xc, hc, xk, hk, rfl⟩ := hl
    obtain ⟨n, x, g1, g2, g3⟩ := ih (.get xc xk) (by simp [Node.expr, hc, hk])
    obtain ⟨yc, yk, rfl, hyc, hyk⟩ := fold_get g3
    obtain ⟨nc, nk, rfl, hnc, hnk⟩ := Node.expr_get g2
    exact ⟨_, .set yc yk, .lvalGet g1, by simp [Node.lval, hnc, hnk], by simp [foldLVal, hyc, hyk]⟩
  | lvalsEnd => intro L' hL; simp only [lvalsOf, Option.some.injEq] at hL; subst hL; exact ⟨[], [], .lvalsEnd, rfl, rfl⟩
  | lvals _ _ i1 i2 =>
    intro L' hL
    simp only [lvalsOf, Option.bind_eq_some_iff, Option.some.injEq] at hL
    obtain ⟨a, ha, b, hb, rfl⟩ := hL
    obtain ⟨na, xa, a1, a2, a3⟩ := i1 a ha
    obtain ⟨nb, xb, b1, b2, b3⟩ := i2 b hb
    exact ⟨na :: nb, xa :: xb, .lvals a1 b1, by simp [lvalsOf, a2, b2], by simp [foldLVals, a3, b3]⟩
  | ifEnd _ _ i1 i2 =>
    intro s' hs
    simp only [Node.stmt, Option.bind_eq_some_iff, Option.some.injEq] at hs
    obtain ⟨e, he, _, ⟨b, hb, rfl⟩, rfl⟩ := hs
    obtain ⟨ne, xe, e1, e2, e3⟩ := i1 e he
    obtain ⟨nb, xb, b1, b2, b3⟩ := i2 b hb
    exact ⟨_, .ifThen xe (.block xb), .ifEnd e1 b1, by simp [Node.stmt, e2, b2], by simp [foldStmt, e3, b3]⟩
  | ifElse _ _ _ i1 i2 i3 =>
    intro s' hs
    simp only [Node.stmt, Option.bind_eq_some_iff, Option.some.injEq] at hs
    obtain ⟨e, he, _, ⟨b, hb, rfl⟩, _, ⟨c, hc, rfl⟩, rfl⟩ := hs
    obtain ⟨ne, xe, e1, e2, e3⟩ := i1 e he
    obtain ⟨nb, xb, b1, b2, b3⟩ := i2 b hb
    obtain ⟨nc, xc, c1, c2, c3⟩ := i3 c hc
    exact ⟨_, .ifElse xe (.block xb) (.block xc), .ifElse e1 b1 c1, by simp [Node.stmt, e2, b2, c2], by simp [foldStmt, e3, b3, c3]⟩
  | ifElseif _ _ _ i1 i2 i3 =>
    intro s' hs
    simp only [Node.stmt, Option.bind_eq_some_iff, Option.some.injEq] at hs
    obtain ⟨e, he, _, ⟨b, hb, rfl⟩, c, hc, rfl⟩ := hs
    obtain ⟨ne, xe, e1, e2, e3⟩ := i1 e he
    obtain ⟨nb, xb, b1, b2, b3⟩ := i2 b hb
    obtain ⟨nc, xc, c1, c2, c3⟩ := i3 c hc
    exact ⟨_, .ifElse xe (.block xb) xc, .ifElseif e1 b1 c1, by simp [Node.stmt, e2, b2, c2], by simp [foldStmt, e3, b3, c3]⟩
  | body _ ih => intro s' hs; obtain ⟨n, s, g1, g2⟩ := ih s' hs; exact ⟨n, s, .body g1, g2⟩
  | stmtsEnd => intro S' hS; simp only [stmtsOf, Option.some.injEq] at hS; subst hS; exact ⟨[], .nil, .stmtsEnd, rfl, rfl⟩
  | stmts _ _ i1 i2 =>
    intro S' hS
    simp only [stmtsOf, Option.bind_eq_some_iff, Option.some.injEq] at hS
    obtain ⟨a, ha, b, hb, rfl⟩ := hS
    obtain ⟨na, xa, a1, a2, a3⟩ := i1 a ha
    obtain ⟨nb, xb, b1, b2, b3⟩ := i2 b hb
    exact ⟨na :: nb, .cons xa xb, .stmts a1 b1, by simp [stmtsOf, a2, b2], by simp [foldStmts, a3, b3]⟩

end
end Yasl
