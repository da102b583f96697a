import Verif.Model.NodeFold
import Verif.Spec.FoldProg
import Verif.Spec.Fits
set_option autoImplicit false
/-! # Constant folding on trees of statements; folding twice -/
namespace Yasl

/-- An int, float or bool. -/
def Expr.isConst : Expr → Bool
  | .int _ | .float _ | .bool _ => true
  | _ => false

theorem foldIntInt_cases {F : FloatOps} {t : BinTok} {x y : BitVec 64} {e : Expr} (h : foldIntInt F t x y = some e) :
    e.isConst = true ∨ e = .bin t (.int x) (.int y) := by
  rcases t with o | _ | _ | _ | _ | _
  · cases o <;> simp only [foldIntInt] at h <;>
      first
      | (obtain ⟨i, -, rfl⟩ := foldInt_some h; exact .inl rfl)
      | (simp only [Option.some.injEq] at h; subst h; exact .inl rfl)
      | (simp only [Option.some.injEq] at h; subst h; exact .inr rfl)
      | skip
    · split at h
      · obtain ⟨i, -, rfl⟩ := foldInt_some h; exact .inl rfl
      · simp only [Option.some.injEq] at h; exact .inr h.symm
    · split at h
      · split at h
        · cases h
        · obtain ⟨i, -, rfl⟩ := foldInt_some h; exact .inl rfl
      · simp only [Option.some.injEq] at h; exact .inr h.symm
  all_goals
    simp only [foldIntInt, Option.some.injEq] at h; subst h
    first | exact .inl rfl | exact .inr rfl

theorem foldFloat_cases (F : FloatOps) (n : Expr) (t : BinTok) (a b : BitVec 64) : (foldFloat F n t a b).isConst = true ∨ foldFloat F n t a b = n := by
  rcases t with o | _ | _ | _ | _ | _
  · cases o <;> simp [foldFloat, Expr.isConst]
  all_goals simp [foldFloat, Expr.isConst]

theorem foldBin_cases {F : FloatOps} {t : BinTok} {l r e : Expr} (h : foldBin F t l r = some e) : e.isConst = true ∨ e = .bin t l r := by
  unfold foldBin at h
  split at h
  · exact foldIntInt_cases h
  · simp only [Option.some.injEq] at h; subst h; exact foldFloat_cases ..
  · simp only [Option.some.injEq] at h; subst h; exact foldFloat_cases ..
  · simp only [Option.some.injEq] at h; subst h; exact foldFloat_cases ..
  · simp only [Option.some.injEq] at h; exact .inr h.symm

theorem foldUn_cases {o : UnOp} {e e' : Expr} (h : foldUn o e = some e') : e'.isConst = true ∨ e' = .un o e := by
  unfold foldUn at h
  split at h
  case h_2 => obtain ⟨i, -, rfl⟩ := foldInt_some h; exact .inl rfl
  all_goals (simp only [Option.some.injEq] at h; subst h; first | exact .inl rfl | exact .inr rfl)

theorem fold_const {F : FloatOps} {e : Expr} (h : e.isConst = true) : fold F e = some e := by
  cases e <;> first | rfl | (simp [Expr.isConst] at h)

theorem foldBin_other {F : FloatOps} {t : BinTok} {l r : Expr} (h : l.isConst = false ∨ r.isConst = false) : foldBin F t l r = some (.bin t l r) := by
  unfold foldBin
  split <;> first | rfl | (simp [Expr.isConst] at h)

theorem foldUn_other {o : UnOp} {e : Expr} (h : e.isConst = false) : foldUn o e = some (.un o e) := by
  unfold foldUn
  split <;> first | rfl | (simp [Expr.isConst] at h)

mutual
/-- Folding twice is folding once. -/
theorem fold_idem {F : FloatOps} : ∀ {e e' : Expr}, fold F e = some e' → fold F e' = some e'
  | .un o e, e', h => by
    simp only [fold, Option.bind_eq_some_iff] at h
    obtain ⟨a, h1, h2⟩ := h
    rcases foldUn_cases h2 with h3 | rfl
    · exact fold_const h3
    · simp only [fold, fold_idem h1, Option.bind_some]; exact h2
  | .bin t l r, e', h => by
    simp only [fold, Option.bind_eq_some_iff] at h
    obtain ⟨a, h1, b, h2, h3⟩ := h
    rcases foldBin_cases h3 with h4 | rfl
    · exact fold_const h4
    · simp only [fold, fold_idem h1, fold_idem h2, Option.bind_some]; exact h3
  | .tri c a b, e', h => by
    simp only [fold, Option.bind_eq_some_iff, Option.some.injEq] at h
    obtain ⟨c', h1, a', h2, b', h3, rfl⟩ := h
    simp only [fold, fold_idem h1, fold_idem h2, fold_idem h3, Option.bind_some]
  | .list es, e', h => by
    simp only [fold, Option.bind_eq_some_iff, Option.some.injEq] at h
    obtain ⟨c', h1, rfl⟩ := h
    simp only [fold, foldBody_idem h1, Option.bind_some]
  | .table es, e', h => by
    simp only [fold, Option.bind_eq_some_iff, Option.some.injEq] at h
    obtain ⟨c', h1, rfl⟩ := h
    simp only [fold, foldBody_idem h1, Option.bind_some]
  | .get c k, e', h => by
    simp only [fold, Option.bind_eq_some_iff, Option.some.injEq] at h
    obtain ⟨c', h1, a', h2, rfl⟩ := h
    simp only [fold, fold_idem h1, fold_idem h2, Option.bind_some]
  | .slice c a b, e', h => by
    simp only [fold, Option.bind_eq_some_iff, Option.some.injEq] at h
    obtain ⟨c', h1, a', h2, b', h3, rfl⟩ := h
    simp only [fold, fold_idem h1, fold_idem h2, fold_idem h3, Option.bind_some]
  | .undef, e', h => by simp only [fold, Option.some.injEq] at h; subst h; rfl
  | .bool _, e', h => by simp only [fold, Option.some.injEq] at h; subst h; rfl
  | .int _, e', h => by simp only [fold, Option.some.injEq] at h; subst h; rfl
  | .float _, e', h => by simp only [fold, Option.some.injEq] at h; subst h; rfl
  | .str _, e', h => by simp only [fold, Option.some.injEq] at h; subst h; rfl
  | .var _, e', h => by simp only [fold, Option.some.injEq] at h; subst h; rfl
theorem foldBody_idem {F : FloatOps} : ∀ {es es' : Exprs}, foldBody F es = some es' → foldBody F es' = some es'
  | .nil, es', h => by simp only [foldBody, Option.some.injEq] at h; subst h; rfl
  | .cons e es, es', h => by
    simp only [foldBody, Option.bind_eq_some_iff, Option.some.injEq] at h
    obtain ⟨c', h1, a', h2, rfl⟩ := h
    simp only [foldBody, fold_idem h1, foldBody_idem h2, Option.bind_some]
end

/-! ## `foldNode` is `fold` -/

theorem Node.const?_expr {n : Node} {e : Expr} (h : n.expr = some e) : n.const? = if e.isConst then some e else none := by
  cases n <;> simp only [Node.expr, Option.bind_eq_some_iff, Option.some.injEq, reduceCtorEq] at h <;>
    first
    | (subst h; rfl)
    | (obtain ⟨_, _, h⟩ := h; subst h; rfl)
    | (obtain ⟨_, _, _, _, h⟩ := h; subst h; rfl)
    | (obtain ⟨_, _, _, _, _, _, h⟩ := h; subst h; rfl)

theorem Expr.constNode_expr {n : Node} {e : Expr} (h : e.isConst = true) : (e.constNode n).expr = some e := by
  cases e <;> first | rfl | (simp [Expr.isConst] at h)

theorem Expr.constNode_other {n : Node} {e : Expr} (h : e.isConst = false) : e.constNode n = n := by
  cases e <;> first | rfl | (simp [Expr.isConst] at h)

/-- Both undefined, or both defined and the same tree. -/
def SameTree {α β : Type} (R : α → Option β) (n : Option α) (e : Option β) : Prop :=
  (n = none ∧ e = none) ∨ ∃ n' e', n = some n' ∧ e = some e' ∧ R n' = some e'

theorem SameTree.some {α β : Type} {R : α → Option β} {n : α} {e : β} (h : R n = some e) : SameTree R (some n) (some e) := .inr ⟨_, _, rfl, rfl, h⟩

theorem SameTree.bind {α β γ δ : Type} {R : α → Option β} {S : γ → Option δ} {n : Option α} {e : Option β} {f : α → Option γ} {g : β → Option δ} (h : SameTree R n e)
    (hfg : ∀ n e, R n = Option.some e → SameTree S (f n) (g e)) : SameTree S (n.bind f) (e.bind g) := by
  rcases h with ⟨rfl, rfl⟩ | ⟨n', e', rfl, rfl, h⟩
  · exact .inl ⟨rfl, rfl⟩
  · exact hfg _ _ h

theorem SameTree.left {α β : Type} {R : α → Option β} {n : Option α} {e : Option β} (h : SameTree R n e) {n' : α} (hn : n = Option.some n') :
    ∃ e', e = Option.some e' ∧ R n' = Option.some e' := by
  rcases h with ⟨rfl, rfl⟩ | ⟨n', e', rfl, rfl, h⟩
  · cases hn
  · simp only [Option.some.injEq] at hn; subst hn; exact ⟨_, rfl, h⟩

theorem SameTree.right {α β : Type} {R : α → Option β} {n : Option α} {e : Option β} (h : SameTree R n e) {e' : β} (he : e = Option.some e') :
    ∃ n', n = Option.some n' ∧ R n' = Option.some e' := by
  rcases h with ⟨rfl, rfl⟩ | ⟨n', e', rfl, rfl, h⟩
  · cases he
  · simp only [Option.some.injEq] at he; subst he; exact ⟨_, rfl, h⟩

theorem foldBinNode_eq {F : FloatOps} {t : Tok} {o : BinTok} {l r : Node} {a b : Expr} (ht : t.binTok = some o) (hl : l.expr = some a) (hr : r.expr = some b) :
    SameTree Node.expr (foldBinNode F t l r) (foldBin F o a b) := by
  have hn : (Node.bin t l r).expr = some (.bin o a b) := by simp [Node.expr, ht, hl, hr]
  unfold foldBinNode
  rw [ht, Node.const?_expr hl, Node.const?_expr hr]
  by_cases h : a.isConst = true ∧ b.isConst = true
  · rw [if_pos h.1, if_pos h.2]
    simp only
    rcases hf : foldBin F o a b with _ | e
    · exact .inl ⟨rfl, rfl⟩
    · refine .some ?_
      rcases foldBin_cases hf with h1 | rfl
      · exact Expr.constNode_expr h1
      · rw [Expr.constNode_other rfl]; exact hn
  · rw [foldBin_other (by by_contra hc; simp at hc; exact h hc)]
    split
    · rename_i h1 h2
      split at h1
      · split at h2
        · rename_i h3 h4; exact absurd ⟨h3, h4⟩ h
        · cases h2
      · cases h1
    · exact .some hn

theorem foldUnNode_eq {t : Tok} {o : UnOp} {n : Node} {a : Expr} (ht : t.unOp = some o) (hn : n.expr = some a) :
    SameTree Node.expr (foldUnNode t n) (foldUn o a) := by
  have hn' : (Node.un t n).expr = some (.un o a) := by simp [Node.expr, ht, hn]
  unfold foldUnNode
  rw [ht, Node.const?_expr hn]
  by_cases h : a.isConst = true
  · rw [if_pos h]
    simp only
    rcases hf : foldUn o a with _ | e
    · exact .inl ⟨rfl, rfl⟩
    · refine .some ?_
      rcases foldUn_cases hf with h1 | rfl
      · exact Expr.constNode_expr h1
      · rw [Expr.constNode_other rfl]; exact hn'
  · rw [foldUn_other (by simpa using h), if_neg h]
    exact .some hn'

mutual
/-- `foldNode` on the trees of expressions is `fold`. -/
theorem foldNode_eq {F : FloatOps} : ∀ {n : Node} {e : Expr}, n.expr = some e → SameTree Node.expr (foldNode F n) (fold F e)
  | .undef, e, h | .bool _, e, h | .int _, e, h | .float _, e, h | .str _, e, h | .var _, e, h => by
    simp only [Node.expr, Option.some.injEq] at h; subst h; exact .some rfl
  | .un t a, e, h => by
    simp only [Node.expr, Option.bind_eq_some_iff, Option.some.injEq] at h
    obtain ⟨o, ho, x, hx, rfl⟩ := h
    exact (foldNode_eq hx).bind fun _ _ h => foldUnNode_eq ho h
  | .bin t l r, e, h => by
    simp only [Node.expr, Option.bind_eq_some_iff, Option.some.injEq] at h
    obtain ⟨o, ho, x, hx, y, hy, rfl⟩ := h
    exact (foldNode_eq hx).bind fun _ _ h => (foldNode_eq hy).bind fun _ _ h' => foldBinNode_eq ho h h'
  | .tri c a b, e, h => by
    simp only [Node.expr, Option.bind_eq_some_iff, Option.some.injEq] at h
    obtain ⟨z, hz, x, hx, y, hy, rfl⟩ := h
    exact (foldNode_eq hz).bind fun _ _ h => (foldNode_eq hx).bind fun _ _ h' => (foldNode_eq hy).bind fun _ _ h'' => .some (by simp [Node.expr, h, h', h''])
  | .list es, e, h => by
    simp only [Node.expr, Option.bind_eq_some_iff, Option.some.injEq] at h
    obtain ⟨z, hz, rfl⟩ := h
    exact (foldNodes_eq hz).bind fun _ _ h => .some (by simp [Node.expr, h])
  | .table es, e, h => by
    simp only [Node.expr, Option.bind_eq_some_iff, Option.some.injEq] at h
    obtain ⟨z, hz, rfl⟩ := h
    exact (foldNodes_eq hz).bind fun _ _ h => .some (by simp [Node.expr, h])
  | .get c k, e, h => by
    simp only [Node.expr, Option.bind_eq_some_iff, Option.some.injEq] at h
    obtain ⟨z, hz, x, hx, rfl⟩ := h
    exact (foldNode_eq hz).bind fun _ _ h => (foldNode_eq hx).bind fun _ _ h' => .some (by simp [Node.expr, h, h'])
  | .slice c a b, e, h => by
    simp only [Node.expr, Option.bind_eq_some_iff, Option.some.injEq] at h
    obtain ⟨z, hz, x, hx, y, hy, rfl⟩ := h
    exact (foldNode_eq hz).bind fun _ _ h => (foldNode_eq hx).bind fun _ _ h' => (foldNode_eq hy).bind fun _ _ h'' => .some (by simp [Node.expr, h, h', h''])
  | .listComp _ _ _, e, h | .tableComp _ _ _, e, h | .call _ _, e, h | .mcall _ _ _, e, h | .variadic _ _, e, h | .fn _ _ _, e, h | .set _ _ _, e, h
  | .exprStmt _, e, h | .echo _, e, h | .assert _, e, h | .export_ _, e, h | .ret _, e, h | .multiRet _, e, h | .decl _ _, e, h | .let_ _ _, e, h
  | .const_ _ _, e, h | .assign _ _, e, h | .letIter _ _, e, h | .forIter _ _, e, h | .while_ _ _ _, e, h | .if_ _ _ _, e, h | .match_ _ _ _ _, e, h
  | .block _, e, h | .brk, e, h | .cont, e, h | .null, e, h => by
    simp [Node.expr] at h
/-- The same for several expressions. -/
theorem foldNodes_eq {F : FloatOps} : ∀ {ns : List Node} {es : Exprs}, exprsOf ns = some es → SameTree exprsOf (foldNodes F ns) (foldBody F es)
  | [], es, h => by simp only [exprsOf, Option.some.injEq] at h; subst h; exact .some rfl
  | n :: ns, es, h => by
    simp only [exprsOf, Option.bind_eq_some_iff, Option.some.injEq] at h
    obtain ⟨z, hz, x, hx, rfl⟩ := h
    exact (foldNode_eq hz).bind fun _ _ h => (foldNodes_eq hx).bind fun _ _ h' => .some (by simp [exprsOf, h, h'])
end

theorem foldBinNode_back {F : FloatOps} {t : Tok} {l r n : Node} (h : foldBinNode F t l r = some n) : (∃ o a b, t.binTok = some o ∧ l.const? = some a ∧ r.const? = some b) ∨
    n = .bin t l r := by
  unfold foldBinNode at h
  split at h
  · rename_i o a b h1 h2 h3; exact .inl ⟨_, _, _, h1, h2, h3⟩
  · simp only [Option.some.injEq] at h; exact .inr h.symm

theorem Node.expr_of_const? {n : Node} {a : Expr} (h : n.const? = some a) : n.expr = some a := by
  cases n <;> simp_all [Node.const?, Node.expr]

mutual
/-- Only a tree of an expression is folded to one. -/
theorem foldNode_back {F : FloatOps} : ∀ {n n' : Node} {e' : Expr}, foldNode F n = some n' → n'.expr = some e' → ∃ e, n.expr = some e
  | .undef, n', e', _, _ | .bool _, n', e', _, _ | .int _, n', e', _, _ | .float _, n', e', _, _ | .str _, n', e', _, _ | .var _, n', e', _, _ => ⟨_, rfl⟩
  | .un t a, n', e', h, h' => by
    simp only [foldNode, Option.bind_eq_some_iff] at h
    obtain ⟨a', h1, h2⟩ := h
    unfold foldUnNode at h2
    split at h2
    · rename_i o x ho hx
      obtain ⟨z, hz⟩ := foldNode_back h1 (Node.expr_of_const? hx)
      simp [Node.expr, ho, hz]
    · simp only [Option.some.injEq] at h2; subst h2
      simp only [Node.expr, Option.bind_eq_some_iff] at h'
      obtain ⟨o, ho, x, hx, -⟩ := h'
      obtain ⟨z, hz⟩ := foldNode_back h1 hx
      simp [Node.expr, ho, hz]
  | .bin t l r, n', e', h, h' => by
    simp only [foldNode, Option.bind_eq_some_iff] at h
    obtain ⟨l', h1, r', h2, h3⟩ := h
    have : ∃ o x y, t.binTok = some o ∧ l'.expr = some x ∧ r'.expr = some y := by
      rcases foldBinNode_back h3 with ⟨o, a, b, ho, ha, hb⟩ | rfl
      · exact ⟨_, _, _, ho, Node.expr_of_const? ha, Node.expr_of_const? hb⟩
      · simp only [Node.expr, Option.bind_eq_some_iff] at h'
        obtain ⟨o, ho, x, hx, y, hy, -⟩ := h'
        exact ⟨_, _, _, ho, hx, hy⟩
    obtain ⟨o, x, y, ho, hx, hy⟩ := this
    obtain ⟨z, hz⟩ := foldNode_back h1 hx
    obtain ⟨z', hz'⟩ := foldNode_back h2 hy
    simp [Node.expr, ho, hz, hz']
  | .tri c a b, n', e', h, h' => by
    simp only [foldNode, Option.bind_eq_some_iff, Option.some.injEq] at h
    obtain ⟨c', h1, a', h2, b', h3, rfl⟩ := h
    simp only [Node.expr, Option.bind_eq_some_iff] at h'
    obtain ⟨x, hx, y, hy, z, hz, -⟩ := h'
    obtain ⟨u, hu⟩ := foldNode_back h1 hx
    obtain ⟨v, hv⟩ := foldNode_back h2 hy
    obtain ⟨w, hw⟩ := foldNode_back h3 hz
    simp [Node.expr, hu, hv, hw]
  | .list es, n', e', h, h' => by
    simp only [foldNode, Option.bind_eq_some_iff, Option.some.injEq] at h
    obtain ⟨c', h1, rfl⟩ := h
    simp only [Node.expr, Option.bind_eq_some_iff] at h'
    obtain ⟨x, hx, -⟩ := h'
    obtain ⟨u, hu⟩ := foldNodes_back h1 hx
    simp [Node.expr, hu]
  | .table es, n', e', h, h' => by
    simp only [foldNode, Option.bind_eq_some_iff, Option.some.injEq] at h
    obtain ⟨c', h1, rfl⟩ := h
    simp only [Node.expr, Option.bind_eq_some_iff] at h'
    obtain ⟨x, hx, -⟩ := h'
    obtain ⟨u, hu⟩ := foldNodes_back h1 hx
    simp [Node.expr, hu]
  | .get c a, n', e', h, h' => by
    simp only [foldNode, Option.bind_eq_some_iff, Option.some.injEq] at h
    obtain ⟨c', h1, a', h2, rfl⟩ := h
    simp only [Node.expr, Option.bind_eq_some_iff] at h'
    obtain ⟨x, hx, y, hy, -⟩ := h'
    obtain ⟨u, hu⟩ := foldNode_back h1 hx
    obtain ⟨v, hv⟩ := foldNode_back h2 hy
    simp [Node.expr, hu, hv]
  | .slice c a b, n', e', h, h' => by
    simp only [foldNode, Option.bind_eq_some_iff, Option.some.injEq] at h
    obtain ⟨c', h1, a', h2, b', h3, rfl⟩ := h
    simp only [Node.expr, Option.bind_eq_some_iff] at h'
    obtain ⟨x, hx, y, hy, z, hz, -⟩ := h'
    obtain ⟨u, hu⟩ := foldNode_back h1 hx
    obtain ⟨v, hv⟩ := foldNode_back h2 hy
    obtain ⟨w, hw⟩ := foldNode_back h3 hz
    simp [Node.expr, hu, hv, hw]
  | .listComp _ _ _, n', e', h, h' | .tableComp _ _ _, n', e', h, h' | .call _ _, n', e', h, h' | .mcall _ _ _, n', e', h, h' | .variadic _ _, n', e', h, h'
  | .fn _ _ _, n', e', h, h' | .set _ _ _, n', e', h, h'
  | .exprStmt _, n', e', h, h' | .echo _, n', e', h, h' | .assert _, n', e', h, h' | .export_ _, n', e', h, h' | .ret _, n', e', h, h' | .multiRet _, n', e', h, h'
  | .decl _ _, n', e', h, h' | .let_ _ _, n', e', h, h'
  | .const_ _ _, n', e', h, h' | .assign _ _, n', e', h, h' | .letIter _ _, n', e', h, h' | .forIter _ _, n', e', h, h' | .while_ _ _ _, n', e', h, h'
  | .if_ _ _ _, n', e', h, h' | .match_ _ _ _ _, n', e', h, h'
  | .block _, n', e', h, h' | .brk, n', e', h, h' | .cont, n', e', h, h' | .null, n', e', h, h' => by
    simp only [foldNode, Option.bind_eq_some_iff, Option.some.injEq] at h
    first
    | (subst h; simp [Node.expr] at h')
    | (obtain ⟨_, -, h⟩ := h; subst h; simp [Node.expr] at h')
    | (obtain ⟨_, -, _, -, h⟩ := h; subst h; simp [Node.expr] at h')
    | (obtain ⟨_, -, _, -, _, -, h⟩ := h; subst h; simp [Node.expr] at h')
/-- The same for several expressions. -/
theorem foldNodes_back {F : FloatOps} : ∀ {ns ns' : List Node} {es' : Exprs}, foldNodes F ns = some ns' → exprsOf ns' = some es' → ∃ es, exprsOf ns = some es
  | [], _, _, _, _ => ⟨_, rfl⟩
  | n :: ns, n', e', h, h' => by
    simp only [foldNodes, Option.bind_eq_some_iff, Option.some.injEq] at h
    obtain ⟨c', h1, a', h2, rfl⟩ := h
    simp only [exprsOf, Option.bind_eq_some_iff] at h'
    obtain ⟨x, hx, y, hy, -⟩ := h'
    obtain ⟨u, hu⟩ := foldNode_back h1 hx
    obtain ⟨v, hv⟩ := foldNodes_back h2 hy
    simp [exprsOf, hu, hv]
end

/-! ## The meaning of a folded program -/

section
variable {W : Type} (F : FloatOps) (P : Prims W)

theorem bindAll_fold : ∀ (ls ls' : List LVal) (vs : List Val) (s : PState W), (∀ l ∈ ls, SafeLVal F l) → foldLVals F ls = some ls' →
    bindAll F P ls' vs s = bindAll F P ls vs s
  | [], ls', vs, s, _, h => by simp only [foldLVals, Option.some.injEq] at h; subst h; rfl
  | l :: ls, ls', vs, s, hs, h => by
    simp only [foldLVals, Option.bind_eq_some_iff, Option.some.injEq] at h
    obtain ⟨l', h1, ls1, h2, rfl⟩ := h
    have hs2 : ∀ l ∈ ls, SafeLVal F l := fun x hx => hs x (by simp [hx])
    have hs1 : SafeLVal F l := hs l (by simp)
    have ih := fun vs s => bindAll_fold ls ls1 vs s hs2 h2
    cases l with
    | set c k =>
      simp only [foldLVal, Option.bind_eq_some_iff, Option.some.injEq] at h1
      obtain ⟨c', hc, k', hk, rfl⟩ := h1
      cases vs with
      | nil => rfl
      | cons v vs => simp only [bindAll, ih, fold_same F P c c' hs1.1 hc _, fold_same F P k k' hs1.2 hk _]
    | _ =>
      simp only [foldLVal, Option.some.injEq] at h1; subst h1
      cases vs with
      | nil => rfl
      | cons v vs => simp only [bindAll, ih]

mutual
theorem exec_fold (fuel : Nat) : ∀ (st st' : Stmt), SafeStmt F st → foldStmt F st = some st' → exec F P fuel st' = exec F P fuel st
  | .expr e, st', hs, h | .letOne _ e, st', hs, h | .assign _ e, st', hs, h | .echo e, st', hs, h | .assert e, st', hs, h => by
    simp only [foldStmt, Option.bind_eq_some_iff, Option.some.injEq] at h
    obtain ⟨e', h1, rfl⟩ := h
    funext s; simp only [exec, fold_same F P e e' hs h1 _]
  | .post st, st', hs, h => by
    simp only [foldStmt, Option.bind_eq_some_iff, Option.some.injEq] at h
    obtain ⟨e', h1, rfl⟩ := h
    funext s; simp only [exec, exec_fold fuel st e' hs h1]
  | .decl ls rs, st', hs, h => by
    simp only [foldStmt, Option.bind_eq_some_iff, Option.some.injEq] at h
    obtain ⟨ls', h1, rs', h2, rfl⟩ := h
    funext s; simp only [exec, folds_same F P rs rs' hs.2 h2 _, bindAll_fold F P ls ls' _ _ hs.1 h1]
  | .set c k v, st', hs, h => by
    simp only [foldStmt, Option.bind_eq_some_iff, Option.some.injEq] at h
    obtain ⟨c', h1, k', h2, v', h3, rfl⟩ := h
    funext s; simp only [exec, fold_same F P c c' hs.1 h1 _, fold_same F P k k' hs.2.1 h2 _, fold_same F P v v' hs.2.2 h3 _]
  | .block ss, st', hs, h => by
    simp only [foldStmt, Option.bind_eq_some_iff, Option.some.injEq] at h
    obtain ⟨e', h1, rfl⟩ := h
    funext s; simp only [exec, execAll_fold fuel _ _ hs h1]
  | .ifThen c t, st', hs, h => by
    simp only [foldStmt, Option.bind_eq_some_iff, Option.some.injEq] at h
    obtain ⟨c', h1, t', h2, rfl⟩ := h
    funext s; simp only [exec, fold_same F P c c' hs.1 h1 _, exec_fold fuel _ _ hs.2 h2]
  | .ifElse c t e, st', hs, h => by
    simp only [foldStmt, Option.bind_eq_some_iff, Option.some.injEq] at h
    obtain ⟨c', h1, t', h2, e', h3, rfl⟩ := h
    funext s; simp only [exec, fold_same F P c c' hs.1 h1 _, exec_fold fuel _ _ hs.2.1 h2, exec_fold fuel _ _ hs.2.2 h3]
  | .while_ c b, st', hs, h => by
    simp only [foldStmt, Option.bind_eq_some_iff, Option.some.injEq] at h
    obtain ⟨c', h1, t', h2, rfl⟩ := h
    funext s; simp only [exec, fold_same F P c c' hs.1 h1 _, exec_fold fuel _ _ hs.2 h2]
  | .forLoop c b p, st', hs, h => by
    simp only [foldStmt, Option.bind_eq_some_iff, Option.some.injEq] at h
    obtain ⟨c', h1, t', h2, e', h3, rfl⟩ := h
    funext s; simp only [exec, fold_same F P c c' hs.1 h1 _, exec_fold fuel _ _ hs.2.1 h2, exec_fold fuel _ _ hs.2.2 h3]
  | .forIter x c b, st', hs, h => by
    simp only [foldStmt, Option.bind_eq_some_iff, Option.some.injEq] at h
    obtain ⟨c', h1, t', h2, rfl⟩ := h
    funext s; simp only [exec, fold_same F P c c' hs.1 h1 _, exec_fold fuel _ _ hs.2 h2]
  | .brk, st', _, h | .cont, st', _, h => by simp only [foldStmt, Option.some.injEq] at h; subst h; rfl
/-- A folded program does the same. -/
theorem execAll_fold (fuel : Nat) : ∀ (ss ss' : Stmts), SafeStmts F ss → foldStmts F ss = some ss' → execAll F P fuel ss' = execAll F P fuel ss
  | .nil, ss', _, h => by simp only [foldStmts, Option.some.injEq] at h; subst h; rfl
  | .cons s ss, ss', hs, h => by
    simp only [foldStmts, Option.bind_eq_some_iff, Option.some.injEq] at h
    obtain ⟨s', h1, ss1, h2, rfl⟩ := h
    funext s; simp only [execAll, exec_fold fuel _ _ hs.1 h1, execAll_fold fuel _ _ hs.2 h2]
end
end

/-! ## A folded program needs no more room -/

theorem needE_one_le : ∀ e : Expr, 1 ≤ needE e
  | .un _ e => by rw [needE]; exact needE_one_le e
  | .bin t l r => by rcases t with _ | _ | _ | _ | _ | _ <;> simp only [needE] <;> have := needE_one_le l <;> omega
  | .tri c a b => by rw [needE]; have := needE_one_le c; omega
  | .list es => by rw [needE]; omega
  | .table es => by rw [needE]; omega
  | .get c k => by rw [needE]; have := needE_one_le c; omega
  | .slice c a b => by rw [needE]; have := needE_one_le c; omega
  | .undef | .bool _ | .int _ | .float _ | .str _ | .var _ => by simp [needE]

theorem needE_const {e : Expr} (h : e.isConst = true) : needE e = 1 ∧ WfE e := by
  cases e <;> simp_all [Expr.isConst, needE, WfE]

theorem foldBody_length {F : FloatOps} : ∀ {es es' : Exprs}, foldBody F es = some es' → es'.length = es.length
  | .nil, es', h => by simp only [foldBody, Option.some.injEq] at h; subst h; rfl
  | .cons e es, es', h => by
    simp only [foldBody, Option.bind_eq_some_iff, Option.some.injEq] at h
    obtain ⟨e', h1, es1, h2, rfl⟩ := h
    simp [Exprs.length, foldBody_length h2]

mutual
theorem fold_need {F : FloatOps} : ∀ {e e' : Expr}, fold F e = some e' → needE e' ≤ needE e ∧ (WfE e → WfE e')
  | .un o e, e', h => by
    simp only [fold, Option.bind_eq_some_iff] at h
    obtain ⟨a, h1, h2⟩ := h
    have ih := fold_need h1
    rcases foldUn_cases h2 with h3 | rfl
    · have := needE_const h3; have := needE_one_le (.un o e); exact ⟨by omega, fun _ => by tauto⟩
    · simp only [needE, WfE]; exact ih
  | .bin t l r, e', h => by
    simp only [fold, Option.bind_eq_some_iff] at h
    obtain ⟨a, h1, b, h2, h3⟩ := h
    have ih := fold_need h1
    have ih' := fold_need h2
    rcases foldBin_cases h3 with h4 | rfl
    · have := needE_const h4; have := needE_one_le (.bin t l r); exact ⟨by omega, fun _ => by tauto⟩
    · refine ⟨?_, by simp only [WfE]; tauto⟩
      rcases t with _ | _ | _ | _ | _ | _ <;> simp only [needE] <;> omega
  | .tri c a b, e', h => by
    simp only [fold, Option.bind_eq_some_iff, Option.some.injEq] at h
    obtain ⟨c', h1, a', h2, b', h3, rfl⟩ := h
    have i1 := fold_need h1; have i2 := fold_need h2; have i3 := fold_need h3
    simp only [needE, WfE]; exact ⟨by omega, by tauto⟩
  | .list es, e', h => by
    simp only [fold, Option.bind_eq_some_iff, Option.some.injEq] at h
    obtain ⟨c', h1, rfl⟩ := h
    have i1 := foldBody_need h1
    simp only [needE, WfE]; exact ⟨by omega, by tauto⟩
  | .table es, e', h => by
    simp only [fold, Option.bind_eq_some_iff, Option.some.injEq] at h
    obtain ⟨c', h1, rfl⟩ := h
    have i1 := foldBody_need h1
    simp only [needE, WfE, foldBody_length h1]; exact ⟨by omega, by tauto⟩
  | .get c k, e', h => by
    simp only [fold, Option.bind_eq_some_iff, Option.some.injEq] at h
    obtain ⟨c', h1, a', h2, rfl⟩ := h
    have i1 := fold_need h1; have i2 := fold_need h2
    simp only [needE, WfE]; exact ⟨by omega, by tauto⟩
  | .slice c a b, e', h => by
    simp only [fold, Option.bind_eq_some_iff, Option.some.injEq] at h
    obtain ⟨c', h1, a', h2, b', h3, rfl⟩ := h
    have i1 := fold_need h1; have i2 := fold_need h2; have i3 := fold_need h3
    simp only [needE, WfE]; exact ⟨by omega, by tauto⟩
  | .undef, e', h | .bool _, e', h | .int _, e', h | .float _, e', h | .str _, e', h | .var _, e', h => by
    simp only [fold, Option.some.injEq] at h; subst h; exact ⟨le_rfl, fun h => h⟩
theorem foldBody_need {F : FloatOps} : ∀ {es es' : Exprs}, foldBody F es = some es' → needEs es' ≤ needEs es ∧ (WfEs es → WfEs es')
  | .nil, es', h => by simp only [foldBody, Option.some.injEq] at h; subst h; exact ⟨le_rfl, fun h => h⟩
  | .cons e es, es', h => by
    simp only [foldBody, Option.bind_eq_some_iff, Option.some.injEq] at h
    obtain ⟨c', h1, a', h2, rfl⟩ := h
    have i1 := fold_need h1; have i2 := foldBody_need h2
    simp only [needEs, WfEs]; exact ⟨by omega, by tauto⟩
end

theorem FitsE.fold {F : FloatOps} {e e' : Expr} {n : Nat} (hf : FitsE e n) (h : fold F e = some e') : FitsE e' n := by
  have := fold_need h
  unfold FitsE at *
  exact ⟨this.2 hf.1, by omega⟩

theorem FitsL.fold {F : FloatOps} : ∀ {ls ls' : List LVal} {n m : Nat}, FitsL ls n m → foldLVals F ls = some ls' →
    FitsL ls' n m ∧ ls'.length = ls.length ∧ ls'.map LVal.declares = ls.map LVal.declares
  | [], ls', n, m, _, h => by simp only [foldLVals, Option.some.injEq] at h; subst h; simp [FitsL]
  | l :: ls, ls', n, m, hf, h => by
    simp only [foldLVals, Option.bind_eq_some_iff, Option.some.injEq] at h
    obtain ⟨l', h1, ls1, h2, rfl⟩ := h
    cases l with
    | set c k =>
      simp only [foldLVal, Option.bind_eq_some_iff, Option.some.injEq] at h1
      obtain ⟨c', hc, k', hk, rfl⟩ := h1
      simp only [FitsL] at hf ⊢
      obtain ⟨i1, i2, i3⟩ := FitsL.fold hf.2.2.2 h2
      exact ⟨⟨hf.1, hf.2.1.fold hc, hf.2.2.1.fold hk, i1⟩, by simp [i2], by simp [i3, LVal.declares]⟩
    | _ =>
      simp only [foldLVal, Option.some.injEq] at h1; subst h1
      simp only [FitsL] at hf ⊢
      obtain ⟨i1, i2, i3⟩ := FitsL.fold hf.2 h2
      exact ⟨⟨hf.1, i1⟩, by simp [i2], by simp [i3]⟩

theorem foldLVals_declares {F : FloatOps} : ∀ {ls ls' : List LVal}, foldLVals F ls = some ls' → ls'.map LVal.declares = ls.map LVal.declares
  | [], ls', h => by simp only [foldLVals, Option.some.injEq] at h; subst h; rfl
  | l :: ls, ls', h => by
    simp only [foldLVals, Option.bind_eq_some_iff, Option.some.injEq] at h
    obtain ⟨l', h1, ls1, h2, rfl⟩ := h
    have ih := foldLVals_declares h2
    cases l with
    | set c k =>
      simp only [foldLVal, Option.bind_eq_some_iff, Option.some.injEq] at h1
      obtain ⟨c', hc, k', hk, rfl⟩ := h1
      simp [ih, LVal.declares]
    | _ => simp only [foldLVal, Option.some.injEq] at h1; subst h1; simp [ih]

theorem foldStmt_declares {F : FloatOps} {s s' : Stmt} (h : foldStmt F s = some s') : s'.declares = s.declares := by
  cases s <;> simp only [foldStmt, Option.bind_eq_some_iff, Option.some.injEq] at h <;>
    first
    | (subst h; rfl)
    | (obtain ⟨_, h1, _, _, rfl⟩ := h; simp only [Stmt.declares, foldLVals_declares h1])
    | (obtain ⟨_, _, rfl⟩ := h; rfl)
    | (obtain ⟨_, _, _, _, rfl⟩ := h; rfl)
    | (obtain ⟨_, _, _, _, _, _, rfl⟩ := h; rfl)

mutual
theorem Fits.fold {F : FloatOps} : ∀ {s s' : Stmt} {n L d : Nat}, Fits s n L d → foldStmt F s = some s' → Fits s' n L d
  | .expr e, s', n, L, d, hf, h | .assign _ e, s', n, L, d, hf, h | .echo e, s', n, L, d, hf, h | .assert e, s', n, L, d, hf, h => by
    simp only [foldStmt, Option.bind_eq_some_iff, Option.some.injEq] at h
    obtain ⟨e', h1, rfl⟩ := h
    simp only [Fits] at hf ⊢; exact hf.fold h1
  | .letOne _ e, s', n, L, d, hf, h => by
    simp only [foldStmt, Option.bind_eq_some_iff, Option.some.injEq] at h
    obtain ⟨e', h1, rfl⟩ := h
    simp only [Fits] at hf ⊢; exact ⟨hf.1.fold h1, hf.2⟩
  | .post (.assign x e), s', n, L, d, hf, h => by
    simp only [foldStmt, Option.bind_eq_some_iff, Option.some.injEq] at h
    obtain ⟨_, ⟨e', h1, rfl⟩, rfl⟩ := h
    simp only [Fits] at hf ⊢; exact hf.fold h1
  | .post (.set c k v), s', n, L, d, hf, h => by
    simp only [foldStmt, Option.bind_eq_some_iff, Option.some.injEq] at h
    obtain ⟨_, ⟨c', h1, k', h2, v', h3, rfl⟩, rfl⟩ := h
    simp only [Fits] at hf ⊢; exact ⟨hf.1.fold h1, hf.2.1.fold h2, hf.2.2.fold h3⟩
  | .post (.expr _), s', n, L, d, hf, h | .post (.post _), s', n, L, d, hf, h | .post (.decl _ _), s', n, L, d, hf, h | .post (.letOne _ _), s', n, L, d, hf, h
  | .post (.echo _), s', n, L, d, hf, h | .post (.assert _), s', n, L, d, hf, h | .post (.block _), s', n, L, d, hf, h | .post (.ifThen _ _), s', n, L, d, hf, h
  | .post (.ifElse _ _ _), s', n, L, d, hf, h | .post (.while_ _ _), s', n, L, d, hf, h | .post (.forLoop _ _ _), s', n, L, d, hf, h
  | .post (.forIter _ _ _), s', n, L, d, hf, h | .post .brk, s', n, L, d, hf, h | .post .cont, s', n, L, d, hf, h => by simp [Fits] at hf
  | .decl ls rs, s', n, L, d, hf, h => by
    simp only [foldStmt, Option.bind_eq_some_iff, Option.some.injEq] at h
    obtain ⟨ls', h1, rs', h2, rfl⟩ := h
    simp only [Fits] at hf ⊢
    obtain ⟨i1, i2, i3⟩ := FitsL.fold hf.2.2.2 h1
    have := foldBody_need h2
    rw [foldBody_length h2]
    exact ⟨by omega, this.2 hf.2.1, by omega, i1⟩
  | .set c k v, s', n, L, d, hf, h => by
    simp only [foldStmt, Option.bind_eq_some_iff, Option.some.injEq] at h
    obtain ⟨c', h1, k', h2, v', h3, rfl⟩ := h
    simp only [Fits] at hf ⊢; exact ⟨hf.1.fold h1, hf.2.1.fold h2, hf.2.2.fold h3⟩
  | .block ss, s', n, L, d, hf, h => by
    simp only [foldStmt, Option.bind_eq_some_iff, Option.some.injEq] at h
    obtain ⟨e', h1, rfl⟩ := h
    simp only [Fits] at hf ⊢; exact FitsAll.fold hf h1
  | .ifThen c t, s', n, L, d, hf, h => by
    simp only [foldStmt, Option.bind_eq_some_iff, Option.some.injEq] at h
    obtain ⟨c', h1, t', h2, rfl⟩ := h
    simp only [Fits, foldStmt_declares h2] at hf ⊢; exact ⟨hf.1.fold h1, hf.2.1, Fits.fold hf.2.2 h2⟩
  | .ifElse c t e, s', n, L, d, hf, h => by
    simp only [foldStmt, Option.bind_eq_some_iff, Option.some.injEq] at h
    obtain ⟨c', h1, t', h2, e', h3, rfl⟩ := h
    simp only [Fits, foldStmt_declares h2, foldStmt_declares h3] at hf ⊢
    exact ⟨hf.1.fold h1, ⟨hf.2.1.1, Fits.fold hf.2.1.2 h2⟩, hf.2.2.1, Fits.fold hf.2.2.2 h3⟩
  | .while_ c b, s', n, L, d, hf, h => by
    simp only [foldStmt, Option.bind_eq_some_iff, Option.some.injEq] at h
    obtain ⟨c', h1, t', h2, rfl⟩ := h
    simp only [Fits, foldStmt_declares h2] at hf ⊢; exact ⟨hf.1.fold h1, hf.2.1, Fits.fold hf.2.2 h2⟩
  | .forLoop c b p, s', n, L, d, hf, h => by
    simp only [foldStmt, Option.bind_eq_some_iff, Option.some.injEq] at h
    obtain ⟨c', h1, t', h2, e', h3, rfl⟩ := h
    simp only [Fits, foldStmt_declares h2] at hf ⊢
    refine ⟨hf.1.fold h1, ⟨hf.2.1.1, Fits.fold hf.2.1.2 h2⟩, ?_, Fits.fold hf.2.2.2 h3⟩
    obtain ⟨q, rfl⟩ := hf.2.2.1
    simp only [foldStmt, Option.bind_eq_some_iff, Option.some.injEq] at h3
    obtain ⟨q', _, rfl⟩ := h3
    exact ⟨_, rfl⟩
  | .forIter x c b, s', n, L, d, hf, h => by
    simp only [foldStmt, Option.bind_eq_some_iff, Option.some.injEq] at h
    obtain ⟨c', h1, t', h2, rfl⟩ := h
    simp only [Fits, foldStmt_declares h2] at hf ⊢
    exact ⟨hf.1.fold h1, hf.2.1, hf.2.2.1, hf.2.2.2.1, hf.2.2.2.2.1, Fits.fold hf.2.2.2.2.2 h2⟩
  | .brk, s', n, L, d, hf, h | .cont, s', n, L, d, hf, h => by simp only [foldStmt, Option.some.injEq] at h; subst h; exact hf
/-- A folded program respects the limits if the program does. -/
theorem FitsAll.fold {F : FloatOps} : ∀ {ss ss' : Stmts} {n L d : Nat}, FitsAll ss n L d → foldStmts F ss = some ss' → FitsAll ss' n L d
  | .nil, ss', _, _, _, _, h => by simp only [foldStmts, Option.some.injEq] at h; subst h; simp [FitsAll]
  | .cons s ss, ss', n, L, d, hf, h => by
    simp only [foldStmts, Option.bind_eq_some_iff, Option.some.injEq] at h
    obtain ⟨s', h1, ss1, h2, rfl⟩ := h
    simp only [FitsAll, foldStmt_declares h1] at hf ⊢
    exact ⟨Fits.fold hf.1 h1, FitsAll.fold hf.2 h2⟩
end

end Yasl
