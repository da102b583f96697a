import Verif.Proofs.GramFold
set_option autoImplicit false
/-! # From the tree as written to the folded tree -/
namespace Yasl

section
variable (flt : List Byte → BitVec 64) (F : FloatOps)

/-- The phrase is derived as the folded tree. -/
def FwdE (G : Node → Prop) (n : Node) : Prop := ∀ e e', n.expr = some e → fold F e = some e' → ∃ n', G n' ∧ n'.expr = some e'

/-- The phrase is derived as a tree that is folded to the same tree. -/
def FwdU (G : Node → Prop) (n : Node) : Prop := ∀ e e', n.expr = some e → fold F e = some e' → ∃ n' x, G n' ∧ n'.expr = some x ∧ fold F x = some e'

/-- The same for several expressions. -/
def FwdEs (G : List Node → Prop) (ns : List Node) : Prop := ∀ E E', exprsOf ns = some E → foldBody F E = some E' → ∃ ns', G ns' ∧ exprsOf ns' = some E'

/-- The same for statements. -/
def FwdS (G : Node → Prop) (n : Node) : Prop := ∀ s s', n.stmt = some s → foldStmt F s = some s' → ∃ n', G n' ∧ n'.stmt = some s'

/-- The same for several statements. -/
def FwdSs (G : List Node → Prop) (ns : List Node) : Prop := ∀ S S', stmtsOf ns = some S → foldStmts F S = some S' → ∃ ns', G ns' ∧ stmtsOf ns' = some S'

/-- The claim for each category. -/
def Fwd : (c : Cat) → List TextItem → c.Res → Prop
  | .expr, ts, n => FwdE F (Gram flt (foldNode F) .expr ts) n
  | .post, ts, n => FwdE F (Gram flt (foldNode F) .post ts) n
  | .atom, ts, n => FwdE F (Gram flt (foldNode F) .atom ts) n
  | .tern, ts, n => FwdU F (Gram flt (foldNode F) .tern ts) n
  | .bin k, ts, n => FwdU F (Gram flt (foldNode F) (.bin k) ts) n
  | .unary, ts, n => FwdU F (Gram flt (foldNode F) .unary ts) n
  | .power, ts, n => FwdU F (Gram flt (foldNode F) .power ts) n
  | .string, ts, r => ∀ E E', exprsOf (r.2.map (·.1)) = some E → foldBody F E = some E' → ∃ ps' : List (Node × List Byte),
      Gram flt (foldNode F) .string ts (r.1, ps') ∧ ps'.map (·.2) = r.2.map (·.2) ∧ exprsOf (ps'.map (·.1)) = some E'
  | .more, ts, ns => FwdEs F (Gram flt (foldNode F) .more ts) ns
  | .pairs, ts, ns => FwdEs F (Gram flt (foldNode F) .pairs ts) ns
  | .iter, ts, n => ∀ x m e e', n = Node.letIter x m → m.expr = some e → fold F e = some e' → ∃ m' : Node, Gram flt (foldNode F) .iter ts (Node.letIter x m') ∧ m'.expr = some e'
  | .stmt, ts, n => FwdS F (Gram flt (foldNode F) .stmt ts) n
  | .simple, ts, n => FwdS F (Gram flt (foldNode F) .simple ts) n
  | .ifRest, ts, n => FwdS F (Gram flt (foldNode F) .ifRest ts) n
  | .lval, ts, n => ∀ l l', Node.lval n = some l → foldLVal F l = some l' → ∃ n' : Node, Gram flt (foldNode F) .lval ts n' ∧ n'.lval = some l'
  | .lvals, ts, ns => ∀ L L', lvalsOf ns = some L → foldLVals F L = some L' → ∃ ns' : List Node, Gram flt (foldNode F) .lvals ts ns' ∧ lvalsOf ns' = some L'
  | .body, ts, ns => FwdSs F (Gram flt (foldNode F) .body ts) ns
  | .stmts, ts, ns => FwdSs F (Gram flt (foldNode F) .stmts ts) ns
  | .args, _, _ | .cond, _, _ | .clauses, _, _ => True

variable {flt F}

theorem fold_bin {t : BinTok} {l r e : Expr} (h : fold F (.bin t l r) = some e) : ∃ a b, fold F l = some a ∧ fold F r = some b ∧
    ∀ x y, fold F x = some a → fold F y = some b → fold F (.bin t x y) = some e := by
  simp only [fold, Option.bind_eq_some_iff] at h
  obtain ⟨a, ha, b, hb, h⟩ := h
  exact ⟨a, b, ha, hb, fun x y hx hy => by simp [fold, hx, hy, h]⟩

theorem fold_un {t : UnOp} {l e : Expr} (h : fold F (.un t l) = some e) : ∃ a, fold F l = some a ∧ ∀ x, fold F x = some a → fold F (.un t x) = some e := by
  simp only [fold, Option.bind_eq_some_iff] at h
  obtain ⟨a, ha, h⟩ := h
  exact ⟨a, ha, fun x hx => by simp [fold, hx, h]⟩

theorem foldBody_app_inv : ∀ {es fs E : Exprs}, foldBody F (es.app fs) = some E → ∃ a b, foldBody F es = some a ∧ foldBody F fs = some b ∧ E = a.app b
  | .nil, fs, E, h => ⟨.nil, E, rfl, h, rfl⟩
  | .cons e es, fs, E, h => by
    simp only [Exprs.app, foldBody, Option.bind_eq_some_iff, Option.some.injEq] at h
    obtain ⟨e', h1, es1, h2, rfl⟩ := h
    obtain ⟨a, b, h3, h4, rfl⟩ := foldBody_app_inv h2
    exact ⟨.cons e' a, b, by simp [foldBody, h1, h3], h4, rfl⟩

theorem fwd_rhs {n : Nat} {e : Node} {es : List Node} {tr tm : List TextItem} (h1 : Fwd flt F .expr tr e) (h2 : Fwd flt F .more tm es) {E E' : Exprs}
    (h : exprsOf (padTo n (e :: es)) = some E) (hf : foldBody F E = some E') : ∃ (e' : Node) (es' : List Node), Gram flt (foldNode F) .expr tr e' ∧
      Gram flt (foldNode F) .more tm es' ∧ es'.length = es.length ∧ exprsOf (padTo n (e' :: es')) = some E' := by
  obtain ⟨a, h3, rfl⟩ := padTo_back h
  obtain ⟨a', u, ha', hu, rfl⟩ := foldBody_app_inv hf
  rw [foldBody_undefs] at hu
  simp only [Option.some.injEq] at hu; subst hu
  simp only [exprsOf, Option.bind_eq_some_iff, Option.some.injEq] at h3
  obtain ⟨x, hx, xs, hxs, rfl⟩ := h3
  simp only [foldBody, Option.bind_eq_some_iff, Option.some.injEq] at ha'
  obtain ⟨x', hx', xs', hxs', rfl⟩ := ha'
  obtain ⟨e', g1, g2⟩ := h1 x x' hx hx'
  obtain ⟨es', g3, g4⟩ := h2 xs xs' hxs hxs'
  have hlen : es'.length = es.length := by
    rw [← exprsOf_length g4, ← exprsOf_length hxs, foldBody_length hxs']
  have hE : exprsOf (e' :: es') = some (.cons x' xs') := by simp [exprsOf, g2, g4]
  refine ⟨e', es', g1, g3, hlen, ?_⟩
  rw [padTo_plain hE]
  refine exprsOf_app hE ?_
  rw [show (e' :: es').length = (e :: es).length by simp [hlen]]
  exact exprsOf_undefs _

/-- The folding of the tree as written is derived by the folding grammar. -/
theorem gram_fwd {c : Cat} {ts : List TextItem} {r : c.Res} (h : Gram flt some c ts r) : Fwd flt F c ts r := by
  induction h with
  | @expr ts n0 n1 h0 hf ih =>
    intro e e' he hfe
    simp only [Option.some.injEq] at hf; subst hf
    obtain ⟨n', x, g1, g2, g3⟩ := ih e e' he hfe
    obtain ⟨n'', h1, h2⟩ := (foldNode_eq (F := F) g2).right g3
    exact ⟨n'', .expr g1 h1, h2⟩
  | ternOne _ ih => intro e e' he hf; obtain ⟨n, x, g1, g2⟩ := ih e e' he hf; exact ⟨n, x, .ternOne g1, g2⟩
  | tern _ _ _ i1 i2 i3 =>
    intro e e' he hf
    simp only [Node.expr, Option.bind_eq_some_iff, Option.some.injEq] at he
    obtain ⟨c, hc, a, ha, b, hb, rfl⟩ := he
    simp only [fold, Option.bind_eq_some_iff, Option.some.injEq] at hf
    obtain ⟨c', hc', a', ha', b', hb', rfl⟩ := hf
    obtain ⟨nc, xc, c1, c2, c3⟩ := i1 c c' hc hc'
    obtain ⟨na, xa, a1, a2, a3⟩ := i2 a a' ha ha'
    obtain ⟨nb, xb, b1, b2, b3⟩ := i3 b b' hb hb'
    exact ⟨_, .tri xc xa xb, .tern c1 a1 b1, by simp [Node.expr, c2, a2, b2], by simp [fold, c3, a3, b3]⟩
  | binUp hk _ ih => intro e e' he hf; obtain ⟨n, x, g1, g2⟩ := ih e e' he hf; exact ⟨n, x, .binUp hk g1, g2⟩
  | binLeft ho _ _ i1 i2 =>
    intro e e' he hf
    simp only [Node.expr, Option.bind_eq_some_iff, Option.some.injEq] at he
    obtain ⟨o, hto, a, ha, b, hb, rfl⟩ := he
    obtain ⟨a', b', ha', hb', hab⟩ := fold_bin hf
    obtain ⟨na, xa, a1, a2, a3⟩ := i1 a a' ha ha'
    obtain ⟨nb, xb, b1, b2, b3⟩ := i2 b b' hb hb'
    exact ⟨_, .bin o xa xb, .binLeft ho a1 b1, by simp [Node.expr, hto, a2, b2], hab _ _ a3 b3⟩
  | binRight ho _ _ i1 i2 =>
    intro e e' he hf
    simp only [Node.expr, Option.bind_eq_some_iff, Option.some.injEq] at he
    obtain ⟨o, hto, a, ha, b, hb, rfl⟩ := he
    obtain ⟨a', b', ha', hb', hab⟩ := fold_bin hf
    obtain ⟨na, xa, a1, a2, a3⟩ := i1 a a' ha ha'
    obtain ⟨nb, xb, b1, b2, b3⟩ := i2 b b' hb hb'
    exact ⟨_, .bin o xa xb, .binRight ho a1 b1, by simp [Node.expr, hto, a2, b2], hab _ _ a3 b3⟩
  | binUnary _ ih => intro e e' he hf; obtain ⟨n, x, g1, g2⟩ := ih e e' he hf; exact ⟨n, x, .binUnary g1, g2⟩
  | unaryOne _ ih => intro e e' he hf; obtain ⟨n, x, g1, g2⟩ := ih e e' he hf; exact ⟨n, x, .unaryOne g1, g2⟩
  | unary ht _ ih =>
    intro e e' he hf
    simp only [Node.expr, Option.bind_eq_some_iff, Option.some.injEq] at he
    obtain ⟨o, hto, a, ha, rfl⟩ := he
    obtain ⟨a', ha', hu⟩ := fold_un hf
    obtain ⟨na, xa, a1, a2, a3⟩ := ih a a' ha ha'
    exact ⟨_, .un o xa, .unary ht a1, by simp [Node.expr, hto, a2], hu _ a3⟩
  | powerOne _ ih =>
    intro e e' he hf
    obtain ⟨n, g1, g2⟩ := ih e e' he hf
    exact ⟨n, e', .powerOne g1, g2, fold_idem hf⟩
  | power _ _ i1 i2 =>
    intro e e' he hf
    simp only [Node.expr, Option.bind_eq_some_iff, Option.some.injEq] at he
    obtain ⟨o, hto, a, ha, b, hb, rfl⟩ := he
    obtain ⟨a', b', ha', hb', hab⟩ := fold_bin hf
    obtain ⟨na, a1, a2⟩ := i1 a a' ha ha'
    obtain ⟨nb, xb, b1, b2, b3⟩ := i2 b b' hb hb'
    exact ⟨_, .bin o a' xb, .power a1 b1, by simp [Node.expr, hto, a2, b2], hab _ _ (fold_idem ha') b3⟩
  | postOne _ ih => intro e e' he hf; obtain ⟨n, g1, g2⟩ := ih e e' he hf; exact ⟨n, .postOne g1, g2⟩
  | call | mcall | dotCall | fn | listComp | tableComp => intro e e' he; simp [Node.expr] at he
  | dot _ _ i1 i2 =>
    intro e e' he hf
    simp only [Node.expr, Option.bind_eq_some_iff, Option.some.injEq] at he
    obtain ⟨a, ha, b, rfl, rfl⟩ := he
    simp only [fold, Option.bind_eq_some_iff, Option.some.injEq] at hf
    obtain ⟨a', ha', _, rfl, rfl⟩ := hf
    obtain ⟨na, a1, a2⟩ := i1 a a' ha ha'
    obtain ⟨nb, b1, b2⟩ := i2 _ _ rfl rfl
    have := Node.expr_var b2; subst this
    exact ⟨_, .dot a1 b1, by simp [Node.expr, a2]⟩
  | index _ _ i1 i2 =>
    intro e e' he hf
    simp only [Node.expr, Option.bind_eq_some_iff, Option.some.injEq] at he
    obtain ⟨a, ha, b, hb, rfl⟩ := he
    simp only [fold, Option.bind_eq_some_iff, Option.some.injEq] at hf
    obtain ⟨a', ha', b', hb', rfl⟩ := hf
    obtain ⟨na, a1, a2⟩ := i1 a a' ha ha'
    obtain ⟨nb, b1, b2⟩ := i2 b b' hb hb'
    exact ⟨_, .index a1 b1, by simp [Node.expr, a2, b2]⟩
  | slice _ _ _ i1 i2 i3 =>
    intro e e' he hf
    simp only [Node.expr, Option.bind_eq_some_iff, Option.some.injEq] at he
    obtain ⟨c, hc, a, ha, b, hb, rfl⟩ := he
    simp only [fold, Option.bind_eq_some_iff, Option.some.injEq] at hf
    obtain ⟨c', hc', a', ha', b', hb', rfl⟩ := hf
    obtain ⟨nc, c1, c2⟩ := i1 c c' hc hc'
    obtain ⟨na, a1, a2⟩ := i2 a a' ha ha'
    obtain ⟨nb, b1, b2⟩ := i3 b b' hb hb'
    exact ⟨_, .slice c1 a1 b1, by simp [Node.expr, c2, a2, b2]⟩
  | sliceFrom _ _ i1 i2 =>
    intro e e' he hf
    simp only [Node.expr, Option.bind_eq_some_iff, Option.some.injEq] at he
    obtain ⟨c, hc, a, ha, b, rfl, rfl⟩ := he
    simp only [fold, Option.bind_eq_some_iff, Option.some.injEq] at hf
    obtain ⟨c', hc', a', ha', b', rfl, rfl⟩ := hf
    obtain ⟨nc, c1, c2⟩ := i1 c c' hc hc'
    obtain ⟨na, a1, a2⟩ := i2 a a' ha ha'
    exact ⟨_, .sliceFrom c1 a1, by simp [Node.expr, c2, a2]⟩
  | sliceTo _ _ i1 i2 =>
    intro e e' he hf
    simp only [Node.expr, Option.bind_eq_some_iff, Option.some.injEq] at he
    obtain ⟨c, hc, a, rfl, b, hb, rfl⟩ := he
    simp only [fold, Option.bind_eq_some_iff, Option.some.injEq] at hf
    obtain ⟨c', hc', a', rfl, b', hb', rfl⟩ := hf
    obtain ⟨nc, c1, c2⟩ := i1 c c' hc hc'
    obtain ⟨nb, b1, b2⟩ := i2 b b' hb hb'
    exact ⟨_, .sliceTo c1 b1, by simp [Node.expr, c2, b2]⟩
  | sliceAll _ i1 =>
    intro e e' he hf
    simp only [Node.expr, Option.bind_eq_some_iff, Option.some.injEq] at he
    obtain ⟨c, hc, a, rfl, b, rfl, rfl⟩ := he
    simp only [fold, Option.bind_eq_some_iff, Option.some.injEq] at hf
    obtain ⟨c', hc', a', rfl, b', rfl, rfl⟩ := hf
    obtain ⟨nc, c1, c2⟩ := i1 c c' hc hc'
    exact ⟨_, .sliceAll c1, by simp [Node.expr, c2]⟩
  | field => intro e e' he hf; simp only [Node.expr, Option.some.injEq] at he; subst he; cases hf; exact ⟨_, .field, rfl⟩
  | var => intro e e' he hf; simp only [Node.expr, Option.some.injEq] at he; subst he; cases hf; exact ⟨_, .var, rfl⟩
  | int => intro e e' he hf; simp only [Node.expr, Option.some.injEq] at he; subst he; cases hf; exact ⟨_, .int, rfl⟩
  | float => intro e e' he hf; simp only [Node.expr, Option.some.injEq] at he; subst he; cases hf; exact ⟨_, .float, rfl⟩
  | bool => intro e e' he hf; simp only [Node.expr, Option.some.injEq] at he; subst he; cases hf; exact ⟨_, .bool, rfl⟩
  | undef => intro e e' he hf; simp only [Node.expr, Option.some.injEq] at he; subst he; cases hf; exact ⟨_, .undef, rfl⟩
  | paren _ ih => intro e e' he hf; obtain ⟨n, g1, g2⟩ := ih e e' he hf; exact ⟨n, .paren g1, g2⟩
  | @string ts v ps _ ih =>
    intro e e' he hf
    obtain ⟨a, E, ha, hE⟩ := interp_back (n := .str v) (ps := ps) he
    have h1 := interp_expr (n := .str v) (ps := ps) rfl hE
    rw [show interpNode (.str v) ps = interpolated v ps from rfl, he] at h1
    simp only [Option.some.injEq] at h1
    have hE' : ∃ E', foldBody F E = some E' := by
      have : ∀ {E : Exprs} {a e' : Expr} {ss : List (List Byte)}, E.length = ss.length → fold F (interpExpr a E ss) = some e' → ∃ a' E', fold F a = some a' ∧ foldBody F E = some E' := by
        intro E
        induction E using Exprs.rec (motive_1 := fun _ => True) with
        | undef | bool _ | int _ | float _ | str _ | var _ | un _ _ _ | bin _ _ _ _ _ | tri _ _ _ _ _ _ | list _ _ | table _ _ | get _ _ _ _ | slice _ _ _ _ _ _ => trivial
        | nil => intro a e' ss _ h; exact ⟨e', .nil, by simpa [interpExpr] using h, rfl⟩
        | cons p E _ ihE =>
          intro a e' ss hl h
          cases ss with
          | nil => simp [Exprs.length] at hl
          | cons s ss =>
            simp only [interpExpr] at h
            obtain ⟨a', E', h2, h3⟩ := ihE (by simpa [Exprs.length] using hl) h
            obtain ⟨b, _, h4, _⟩ := fold_bin h2
            obtain ⟨c, d, h5, h6, _⟩ := fold_bin h4
            exact ⟨c, .cons d E', h5, by simp [foldBody, h6, h3]⟩
      rw [h1] at hf
      obtain ⟨_, E', _, h2⟩ := this (by simpa using exprsOf_length hE) hf
      exact ⟨E', h2⟩
    obtain ⟨E', hE'⟩ := hE'
    obtain ⟨ps', g1, g2, g3⟩ := ih E E' hE hE'
    have h2 := interp_expr (n := .str v) (ps := ps') rfl g3
    refine ⟨_, .string g1, ?_⟩
    rw [show interpolated v ps' = interpNode (.str v) ps' from rfl, h2, g2, ← hf, h1]
    exact (interp_fold rfl hE').symm
  | listEmpty =>
    intro e e' he hf
    simp only [Node.expr, exprsOf, Option.bind_some, Option.some.injEq] at he; subst he
    simp only [fold, foldBody, Option.bind_some, Option.some.injEq] at hf; subst hf
    exact ⟨_, .listEmpty, rfl⟩
  | list _ h1 _ h2 i1 i2 =>
    intro e e' he hf
    simp only [Node.expr, exprsOf, Option.bind_eq_some_iff, Option.some.injEq] at he
    obtain ⟨_, ⟨a, ha, b, hb, rfl⟩, rfl⟩ := he
    simp only [fold, foldBody, Option.bind_eq_some_iff, Option.some.injEq] at hf
    obtain ⟨_, ⟨a', ha', b', hb', rfl⟩, rfl⟩ := hf
    obtain ⟨na, a1, a2⟩ := i1 a a' ha ha'
    obtain ⟨nb, b1, b2⟩ := i2 b b' hb hb'
    exact ⟨_, .list a1 h1 b1 h2, by simp [Node.expr, exprsOf, a2, b2]⟩
  | tableEmpty =>
    intro e e' he hf
    simp only [Node.expr, exprsOf, Option.bind_some, Option.some.injEq] at he; subst he
    simp only [fold, foldBody, Option.bind_some, Option.some.injEq] at hf; subst hf
    exact ⟨_, .tableEmpty, rfl⟩
  | table _ _ h1 _ h2 i1 i2 i3 =>
    intro e e' he hf
    simp only [Node.expr, exprsOf, Option.bind_eq_some_iff, Option.some.injEq] at he
    obtain ⟨_, ⟨a, ha, _, ⟨b, hb, c, hc, rfl⟩, rfl⟩, rfl⟩ := he
    simp only [fold, foldBody, Option.bind_eq_some_iff, Option.some.injEq] at hf
    obtain ⟨_, ⟨a', ha', _, ⟨b', hb', c', hc', rfl⟩, rfl⟩, rfl⟩ := hf
    obtain ⟨na, a1, a2⟩ := i1 a a' ha ha'
    obtain ⟨nb, b1, b2⟩ := i2 b b' hb hb'
    obtain ⟨nc, c1, c2⟩ := i3 c c' hc hc'
    exact ⟨_, .table a1 b1 h1 c1 h2, by simp [Node.expr, exprsOf, a2, b2, c2]⟩
  | strEnd =>
    intro E E' hE hf
    simp only [List.map_nil, exprsOf, Option.some.injEq] at hE; subst hE
    cases hf
    exact ⟨[], .strEnd, rfl, rfl⟩
  | @strMore te tr v v' e ps t _ _ i1 i2 =>
    intro E E' hE hf
    simp only [List.map_cons, exprsOf, Option.bind_eq_some_iff, Option.some.injEq] at hE
    obtain ⟨a, ha, b, hb, rfl⟩ := hE
    simp only [foldBody, Option.bind_eq_some_iff, Option.some.injEq] at hf
    obtain ⟨a', ha', b', hb', rfl⟩ := hf
    obtain ⟨na, a1, a2⟩ := i1 a a' ha ha'
    obtain ⟨ps', g1, g2, g3⟩ := i2 b b' hb hb'
    exact ⟨(na, v') :: ps', .strMore a1 g1, by simp [g2], by simp [exprsOf, a2, g3]⟩
  | argsEnd | argsLast | args | condNone | cond | clausesEnd | clauses => trivial
  | moreEnd => intro E E' hE hf; simp only [exprsOf, Option.some.injEq] at hE; subst hE; cases hf; exact ⟨[], .moreEnd, rfl⟩
  | more _ _ i1 i2 =>
    intro E E' hE hf
    simp only [exprsOf, Option.bind_eq_some_iff, Option.some.injEq] at hE
    obtain ⟨a, ha, b, hb, rfl⟩ := hE
    simp only [foldBody, Option.bind_eq_some_iff, Option.some.injEq] at hf
    obtain ⟨a', ha', b', hb', rfl⟩ := hf
    obtain ⟨na, a1, a2⟩ := i1 a a' ha ha'
    obtain ⟨nb, b1, b2⟩ := i2 b b' hb hb'
    exact ⟨na :: nb, .more a1 b1, by simp [exprsOf, a2, b2]⟩
  | pairsEnd => intro E E' hE hf; simp only [exprsOf, Option.some.injEq] at hE; subst hE; cases hf; exact ⟨[], .pairsEnd, rfl⟩
  | pairs _ _ _ i1 i2 i3 =>
    intro E E' hE hf
    simp only [exprsOf, Option.bind_eq_some_iff, Option.some.injEq] at hE
    obtain ⟨a, ha, _, ⟨b, hb, c, hc, rfl⟩, rfl⟩ := hE
    simp only [foldBody, Option.bind_eq_some_iff, Option.some.injEq] at hf
    obtain ⟨a', ha', _, ⟨b', hb', c', hc', rfl⟩, rfl⟩ := hf
    obtain ⟨na, a1, a2⟩ := i1 a a' ha ha'
    obtain ⟨nb, b1, b2⟩ := i2 b b' hb hb'
    obtain ⟨nc, c1, c2⟩ := i3 c c' hc hc'
    exact ⟨na :: nb :: nc, .pairs a1 b1 c1, by simp [exprsOf, a2, b2, c2]⟩
  | iter _ ih =>
    rintro x m e e' hm he hf
    cases hm
    obtain ⟨n, g1, g2⟩ := ih e e' he hf
    exact ⟨n, .iter g1, g2⟩
  | echo _ ih =>
    intro s s' hs hf
    simp only [Node.stmt, Option.bind_eq_some_iff, Option.some.injEq] at hs
    obtain ⟨a, ha, rfl⟩ := hs
    simp only [foldStmt, Option.bind_eq_some_iff, Option.some.injEq] at hf
    obtain ⟨a', ha', rfl⟩ := hf
    obtain ⟨n, g1, g2⟩ := ih a a' ha ha'
    exact ⟨_, .echo g1, by simp [Node.stmt, g2]⟩
  | assert _ ih =>
    intro s s' hs hf
    simp only [Node.stmt, Option.bind_eq_some_iff, Option.some.injEq] at hs
    obtain ⟨a, ha, rfl⟩ := hs
    simp only [foldStmt, Option.bind_eq_some_iff, Option.some.injEq] at hf
    obtain ⟨a', ha', rfl⟩ := hf
    obtain ⟨n, g1, g2⟩ := ih a a' ha ha'
    exact ⟨_, .assert g1, by simp [Node.stmt, g2]⟩
  | brk => intro s s' hs hf; simp only [Node.stmt, Option.some.injEq] at hs; subst hs; cases hf; exact ⟨_, .brk, rfl⟩
  | cont => intro s s' hs hf; simp only [Node.stmt, Option.some.injEq] at hs; subst hs; cases hf; exact ⟨_, .cont, rfl⟩
  | export_ | ret | multiRet | fnConst | match_ => intro s s' hs; simp [Node.stmt] at hs
  | fnDecl => intro s s' hs; simp [Node.stmt, Node.expr] at hs
  | fnMember => intro s s' hs; simp [Node.stmt, Node.expr] at hs
  | fnExpr h _ => intro s s' hs; rw [fnExpr_none KeepsShape.none h] at hs; cases hs
  | @declLet x tl tr tm ls e0 es0 _ _ _ hl i1 i2 i3 =>
    intro s s' hs hf
    simp only [Node.stmt, lvalsOf, Node.lval, Option.bind_eq_some_iff, Option.some.injEq] at hs
    obtain ⟨_, ⟨_, rfl, L, hL, rfl⟩, R, hR, rfl⟩ := hs
    simp only [foldStmt, foldLVals, foldLVal, Option.bind_eq_some_iff, Option.some.injEq] at hf
    obtain ⟨_, ⟨_, rfl, L', hL', rfl⟩, R', hR', rfl⟩ := hf
    obtain ⟨nl, l1, l2⟩ := i1 L L' hL hL'
    have hlen : nl.length = ls.length := by rw [← lvalsOf_length l2, foldLVals_length hL']; exact lvalsOf_length hL
    obtain ⟨e, es, r1, r2, r3, r4⟩ := fwd_rhs i2 i3 hR hR'
    rw [← hlen] at r4 hl
    exact ⟨_, .declLet l1 r1 r2 (by simpa [r3] using hl), by simp [Node.stmt, lvalsOf, Node.lval, l2, r4]⟩
  | @declConst x tl tr tm ls e0 es0 _ _ _ hl i1 i2 i3 =>
    intro s s' hs hf
    simp only [Node.stmt, lvalsOf, Node.lval, Option.bind_eq_some_iff, Option.some.injEq] at hs
    obtain ⟨_, ⟨_, rfl, L, hL, rfl⟩, R, hR, rfl⟩ := hs
    simp only [foldStmt, foldLVals, foldLVal, Option.bind_eq_some_iff, Option.some.injEq] at hf
    obtain ⟨_, ⟨_, rfl, L', hL', rfl⟩, R', hR', rfl⟩ := hf
    obtain ⟨nl, l1, l2⟩ := i1 L L' hL hL'
    have hlen : nl.length = ls.length := by rw [← lvalsOf_length l2, foldLVals_length hL']; exact lvalsOf_length hL
    obtain ⟨e, es, r1, r2, r3, r4⟩ := fwd_rhs i2 i3 hR hR'
    rw [← hlen] at r4 hl
    exact ⟨_, .declConst l1 r1 r2 (by simpa [r3] using hl), by simp [Node.stmt, lvalsOf, Node.lval, l2, r4]⟩
  | @declVar x tl tr tm l ls e0 es0 _ _ _ hl i1 i2 i3 =>
    intro s s' hs hf
    rw [Node.stmt.eq_def] at hs
    dsimp only at hs
    rw [lvalsOf.eq_def] at hs
    simp only [Node.lval, Option.bind_eq_some_iff, Option.some.injEq] at hs
    obtain ⟨_, ⟨_, rfl, L, hL, rfl⟩, R, hR, rfl⟩ := hs
    simp only [foldStmt, foldLVals, foldLVal, Option.bind_eq_some_iff, Option.some.injEq] at hf
    obtain ⟨_, ⟨_, rfl, L', hL', rfl⟩, R', hR', rfl⟩ := hf
    obtain ⟨nl, l1, l2⟩ := i1 L L' hL hL'
    have hlen : nl.length = (l :: ls).length := by rw [← lvalsOf_length l2, foldLVals_length hL']; exact lvalsOf_length hL
    obtain ⟨e, es, r1, r2, r3, r4⟩ := fwd_rhs i2 i3 hR hR'
    rcases nl with _ | ⟨nl0, nls⟩
    · simp at hlen
    simp only [List.length_cons, Nat.add_right_cancel_iff] at hlen
    rw [← hlen] at r4 hl
    exact ⟨_, .declVar l1 r1 r2 (by simpa [r3] using hl), by simp [Node.stmt, lvalsOf.eq_def (_ :: nl0 :: nls), Node.lval, l2, r4]⟩
  | @declSet tx tl tr tm c k l ls e0 es0 _ _ _ _ hl i0 i1 i2 i3 =>
    intro s s' hs hf
    rw [Node.stmt.eq_def] at hs
    dsimp only at hs
    rw [lvalsOf.eq_def] at hs
    simp only [Node.lval, Option.bind_eq_some_iff, Option.some.injEq] at hs
    obtain ⟨_, ⟨_, ⟨xc, hc, xk, hk, rfl⟩, L, hL, rfl⟩, R, hR, rfl⟩ := hs
    simp only [foldStmt, foldLVals, foldLVal, Option.bind_eq_some_iff, Option.some.injEq] at hf
    obtain ⟨_, ⟨_, ⟨xc', hc', xk', hk', rfl⟩, L', hL', rfl⟩, R', hR', rfl⟩ := hf
    obtain ⟨n, g1, g2⟩ := i0 (.get xc xk) (.get xc' xk') (by simp [Node.expr, hc, hk]) (by simp [fold, hc', hk'])
    obtain ⟨nc, nk, rfl, hnc, hnk⟩ := Node.expr_get g2
    obtain ⟨nl, l1, l2⟩ := i1 L L' hL hL'
    have hlen : nl.length = (l :: ls).length := by rw [← lvalsOf_length l2, foldLVals_length hL']; exact lvalsOf_length hL
    obtain ⟨e, es, r1, r2, r3, r4⟩ := fwd_rhs i2 i3 hR hR'
    rcases nl with _ | ⟨nl0, nls⟩
    · simp at hlen
    simp only [List.length_cons, Nat.add_right_cancel_iff] at hlen
    rw [← hlen] at r4 hl
    exact ⟨_, .declSet g1 l1 r1 r2 (by simpa [r3] using hl),
      by simp [Node.stmt, lvalsOf.eq_def (_ :: nl0 :: nls), Node.lval, hnc, hnk, l2, r4]⟩
  | simple h1 h2 _ ih => intro s s' hs hf; obtain ⟨n, g1, g2⟩ := ih s s' hs hf; exact ⟨n, .simple h1 h2 g1, g2⟩
  | @forLet x te tc tp tb nl n1 n2 e0 c0 p0 ss0 _ _ _ _ i1 i2 i3 i4 =>
    intro s s' hs hf
    simp only [Node.stmt, stmtsOf, Option.bind_eq_some_iff, Option.some.injEq] at hs
    obtain ⟨_, ⟨_, ⟨e, he, rfl⟩, _, ⟨_, ⟨c, hc, _, ⟨b, hb, rfl⟩, p, hp, rfl⟩, _, rfl, rfl⟩, rfl⟩, rfl⟩ := hs
    simp only [foldStmt, foldStmts, Option.bind_eq_some_iff, Option.some.injEq] at hf
    obtain ⟨_, ⟨_, ⟨e', he', rfl⟩, _, ⟨_, ⟨c', hc', _, ⟨b', hb', rfl⟩, _, ⟨p', hp', rfl⟩, rfl⟩, _, rfl, rfl⟩, rfl⟩, rfl⟩ := hf
    obtain ⟨ne, e1, e2⟩ := i1 e e' he he'
    obtain ⟨nc, c1, c2⟩ := i2 c c' hc hc'
    obtain ⟨np, p1, p2⟩ := i3 p p' hp hp'
    obtain ⟨nb, b1, b2⟩ := i4 b b' hb hb'
    exact ⟨_, .forLet e1 c1 p1 b1, by simp [Node.stmt, stmtsOf, e2, c2, p2, b2]⟩
  | @forIter ti tb nl i ss _ _ i1 i2 =>
    intro s s' hs hf
    cases i <;> simp only [Node.stmt, reduceCtorEq] at hs
    rename_i _ x coll _
    simp only [Option.bind_eq_some_iff, Option.some.injEq] at hs
    obtain ⟨e, he, _, ⟨b, hb, rfl⟩, rfl⟩ := hs
    simp only [foldStmt, Option.bind_eq_some_iff, Option.some.injEq] at hf
    obtain ⟨e', he', _, ⟨b', hb', rfl⟩, rfl⟩ := hf
    obtain ⟨ne, e1, e2⟩ := i1 _ _ e e' rfl he he'
    obtain ⟨nb, b1, b2⟩ := i2 b b' hb hb'
    exact ⟨_, .forIter e1 b1, by simp [Node.stmt, e2, b2]⟩
  | while_ _ _ i1 i2 =>
    intro s s' hs hf
    simp only [Node.stmt, Option.bind_eq_some_iff, Option.some.injEq] at hs
    obtain ⟨e, he, _, ⟨b, hb, rfl⟩, rfl⟩ := hs
    simp only [foldStmt, Option.bind_eq_some_iff, Option.some.injEq] at hf
    obtain ⟨e', he', _, ⟨b', hb', rfl⟩, rfl⟩ := hf
    obtain ⟨ne, e1, e2⟩ := i1 e e' he he'
    obtain ⟨nb, b1, b2⟩ := i2 b b' hb hb'
    exact ⟨_, .while_ e1 b1, by simp [Node.stmt, e2, b2]⟩
  | if_ _ ih => intro s s' hs hf; obtain ⟨n, g1, g2⟩ := ih s s' hs hf; exact ⟨n, .if_ g1, g2⟩
  | exprStmt _ ih =>
    intro s s' hs hf
    simp only [Node.stmt, Option.bind_eq_some_iff, Option.some.injEq] at hs
    obtain ⟨a, ha, rfl⟩ := hs
    simp only [foldStmt, Option.bind_eq_some_iff, Option.some.injEq] at hf
    obtain ⟨a', ha', rfl⟩ := hf
    obtain ⟨n, g1, g2⟩ := ih a a' ha ha'
    exact ⟨_, .exprStmt g1, by simp [Node.stmt, g2]⟩
  | @assign tx te x e0 _ _ i1 i2 =>
    intro s s' hs hf
    simp only [Node.stmt, Option.bind_eq_some_iff, Option.some.injEq] at hs
    obtain ⟨a, ha, rfl⟩ := hs
    simp only [foldStmt, Option.bind_eq_some_iff, Option.some.injEq] at hf
    obtain ⟨a', ha', rfl⟩ := hf
    obtain ⟨n, g1, g2⟩ := i1 _ _ rfl rfl
    have := Node.expr_var g2; subst this
    obtain ⟨na, a1, a2⟩ := i2 a a' ha ha'
    exact ⟨_, .assign g1 a1, by simp [Node.stmt, a2]⟩
  | set _ _ i1 i2 =>
    intro s s' hs hf
    simp only [Node.stmt, Option.bind_eq_some_iff, Option.some.injEq] at hs
    obtain ⟨xc, hc, xk, hk, a, ha, rfl⟩ := hs
    simp only [foldStmt, Option.bind_eq_some_iff, Option.some.injEq] at hf
    obtain ⟨xc', hc', xk', hk', a', ha', rfl⟩ := hf
    obtain ⟨n, g1, g2⟩ := i1 (.get xc xk) (.get xc' xk') (by simp [Node.expr, hc, hk]) (by simp [fold, hc', hk'])
    obtain ⟨nc, nk, rfl, hnc, hnk⟩ := Node.expr_get g2
    obtain ⟨na, a1, a2⟩ := i2 a a' ha ha'
    exact ⟨_, .set g1 a1, by simp [Node.stmt, hnc, hnk, a2]⟩
  | @augAssign tx te x e0 t o0 ht _ _ i1 i2 =>
    intro s s' hs hf
    simp only [Node.stmt, Node.expr, Option.bind_eq_some_iff, Option.some.injEq] at hs
    obtain ⟨_, ⟨o, ho, _, rfl, a, ha, rfl⟩, rfl⟩ := hs
    simp only [foldStmt, fold, Option.bind_eq_some_iff, Option.some.injEq] at hf
    obtain ⟨_, ⟨_, rfl, a', ha', hfb⟩, rfl⟩ := hf
    rw [foldBin_other (l := .var _) (.inl rfl)] at hfb; cases hfb
    obtain ⟨n, g1, g2⟩ := i1 _ _ rfl rfl
    have := Node.expr_var g2; subst this
    obtain ⟨na, a1, a2⟩ := i2 a a' ha ha'
    exact ⟨_, .augAssign ht g1 a1, by simp [Node.stmt, Node.expr, ho, a2]⟩
  | augSet ht _ _ i1 i2 =>
    intro s s' hs hf
    simp only [Node.stmt, Node.expr, Option.bind_eq_some_iff, Option.some.injEq] at hs
    obtain ⟨xc, hc, xk, hk, _, ⟨o, ho, _, ⟨_, hc2, _, hk2, rfl⟩, a, ha, rfl⟩, rfl⟩ := hs
    rw [hc] at hc2; rw [hk] at hk2
    simp only [Option.some.injEq] at hc2 hk2; subst hc2; subst hk2
    simp only [foldStmt, fold, Option.bind_eq_some_iff, Option.some.injEq] at hf
    obtain ⟨xc', hc', xk', hk', _, ⟨_, ⟨_, hc3, _, hk3, rfl⟩, a', ha', hfb⟩, rfl⟩ := hf
    rw [hc'] at hc3; rw [hk'] at hk3
    simp only [Option.some.injEq] at hc3 hk3; subst hc3; subst hk3
    rw [foldBin_other (l := .get _ _) (.inl rfl)] at hfb; cases hfb
    obtain ⟨n, g1, g2⟩ := i1 (.get xc xk) (.get xc' xk') (by simp [Node.expr, hc, hk]) (by simp [fold, hc', hk'])
    obtain ⟨nc, nk, rfl, hnc, hnk⟩ := Node.expr_get g2
    obtain ⟨na, a1, a2⟩ := i2 a a' ha ha'
    exact ⟨_, .augSet ht g1 a1, by simp [Node.stmt, Node.expr, ho, hnc, hnk, a2]⟩
  | lvalLet => intro l l' hl hf; simp only [Node.lval, Option.some.injEq] at hl; subst hl; cases hf; exact ⟨_, .lvalLet, rfl⟩
  | lvalConst => intro l l' hl hf; simp only [Node.lval, Option.some.injEq] at hl; subst hl; cases hf; exact ⟨_, .lvalConst, rfl⟩
  | lvalVar _ ih =>
    intro l l' hl hf
    simp only [Node.lval, Option.some.injEq] at hl; subst hl; cases hf
    obtain ⟨n, g1, g2⟩ := ih _ _ rfl rfl
    have := Node.expr_var g2; subst this
    exact ⟨_, .lvalVar g1, rfl⟩
  | lvalGet _ ih =>
    intro l l' hl hf
    simp only [Node.lval, Option.bind_eq_some_iff, Option.some.injEq] at hl
    obtain ⟨xc, hc, xk, hk, rfl⟩ := hl
    simp only [foldLVal, Option.bind_eq_some_iff, Option.some.injEq] at hf
    obtain ⟨xc', hc', xk', hk', rfl⟩ := hf
    obtain ⟨n, g1, g2⟩ := ih (.get xc xk) (.get xc' xk') (by simp [Node.expr, hc, hk]) (by simp [fold, hc', hk'])
    obtain ⟨nc, nk, rfl, hnc, hnk⟩ := Node.expr_get g2
    exact ⟨_, .lvalGet g1, by simp [Node.lval, hnc, hnk]⟩
  | lvalsEnd => intro L L' hL hf; simp only [lvalsOf, Option.some.injEq] at hL; subst hL; cases hf; exact ⟨[], .lvalsEnd, rfl⟩
  | lvals _ _ i1 i2 =>
    intro L L' hL hf
    simp only [lvalsOf, Option.bind_eq_some_iff, Option.some.injEq] at hL
    obtain ⟨a, ha, b, hb, rfl⟩ := hL
    simp only [foldLVals, Option.bind_eq_some_iff, Option.some.injEq] at hf
    obtain ⟨a', ha', b', hb', rfl⟩ := hf
    obtain ⟨na, a1, a2⟩ := i1 a a' ha ha'
    obtain ⟨nb, b1, b2⟩ := i2 b b' hb hb'
    exact ⟨na :: nb, .lvals a1 b1, by simp [lvalsOf, a2, b2]⟩
  | ifEnd _ _ i1 i2 =>
    intro s s' hs hf
    simp only [Node.stmt, Option.bind_eq_some_iff, Option.some.injEq] at hs
    obtain ⟨e, he, _, ⟨b, hb, rfl⟩, rfl⟩ := hs
    simp only [foldStmt, Option.bind_eq_some_iff, Option.some.injEq] at hf
    obtain ⟨e', he', _, ⟨b', hb', rfl⟩, rfl⟩ := hf
    obtain ⟨ne, e1, e2⟩ := i1 e e' he he'
    obtain ⟨nb, b1, b2⟩ := i2 b b' hb hb'
    exact ⟨_, .ifEnd e1 b1, by simp [Node.stmt, e2, b2]⟩
  | ifElse _ _ _ i1 i2 i3 =>
    intro s s' hs hf
    simp only [Node.stmt, Option.bind_eq_some_iff, Option.some.injEq] at hs
    obtain ⟨e, he, _, ⟨b, hb, rfl⟩, _, ⟨c, hc, rfl⟩, rfl⟩ := hs
    simp only [foldStmt, Option.bind_eq_some_iff, Option.some.injEq] at hf
    obtain ⟨e', he', _, ⟨b', hb', rfl⟩, _, ⟨c', hc', rfl⟩, rfl⟩ := hf
    obtain ⟨ne, e1, e2⟩ := i1 e e' he he'
    obtain ⟨nb, b1, b2⟩ := i2 b b' hb hb'
    obtain ⟨nc, c1, c2⟩ := i3 c c' hc hc'
    exact ⟨_, .ifElse e1 b1 c1, by simp [Node.stmt, e2, b2, c2]⟩
  | ifElseif _ _ _ i1 i2 i3 =>
    intro s s' hs hf
    simp only [Node.stmt, Option.bind_eq_some_iff, Option.some.injEq] at hs
    obtain ⟨e, he, _, ⟨b, hb, rfl⟩, c, hc, rfl⟩ := hs
    simp only [foldStmt, Option.bind_eq_some_iff, Option.some.injEq] at hf
    obtain ⟨e', he', _, ⟨b', hb', rfl⟩, c', hc', rfl⟩ := hf
    obtain ⟨ne, e1, e2⟩ := i1 e e' he he'
    obtain ⟨nb, b1, b2⟩ := i2 b b' hb hb'
    obtain ⟨nc, c1, c2⟩ := i3 c c' hc hc'
    exact ⟨_, .ifElseif e1 b1 c1, by simp [Node.stmt, e2, b2, c2]⟩
  | body _ ih => intro s s' hs hf; obtain ⟨n, g1, g2⟩ := ih s s' hs hf; exact ⟨n, .body g1, g2⟩
  | stmtsEnd => intro S S' hS hf; simp only [stmtsOf, Option.some.injEq] at hS; subst hS; cases hf; exact ⟨[], .stmtsEnd, rfl⟩
  | stmts _ _ i1 i2 =>
    intro S S' hS hf
    simp only [stmtsOf, Option.bind_eq_some_iff, Option.some.injEq] at hS
    obtain ⟨a, ha, b, hb, rfl⟩ := hS
    simp only [foldStmts, Option.bind_eq_some_iff, Option.some.injEq] at hf
    obtain ⟨a', ha', b', hb', rfl⟩ := hf
    obtain ⟨na, a1, a2⟩ := i1 a a' ha ha'
    obtain ⟨nb, b1, b2⟩ := i2 b b' hb hb'
    exact ⟨na :: nb, .stmts a1 b1, by simp [stmtsOf, a2, b2]⟩

end
end Yasl
