import Verif.Spec.Tree
import Verif.Model.NodeFold
import Verif.Model.FExecute
set_option autoImplicit false
/-! # The trees of the compiler models are those of the parser -/
namespace Yasl

theorem binTok_sign {t : Tok} {o : BinTok} (h : t.binTok = some o) : t = o.sign := by
  cases t <;> simp [Tok.binTok] at h <;> subst h <;> rfl

theorem unOp_sign {t : Tok} {o : UnOp} (h : t.unOp = some o) : t = o.sign := by
  cases t <;> simp [Tok.unOp] at h <;> subst h <;> rfl

mutual
theorem expr_node : ∀ (n : Node) (e : Expr), n.expr = some e → n = e.node
  | .undef, e, h | .bool _, e, h | .int _, e, h | .float _, e, h | .str _, e, h | .var _, e, h => by
    simp only [Node.expr, Option.some.injEq] at h; subst h; rfl
  | .un t a, e, h => by
    simp only [Node.expr, Option.bind_eq_some_iff, Option.some.injEq] at h
    obtain ⟨o, h1, x, h2, rfl⟩ := h
    rw [Expr.node, ← unOp_sign h1, ← expr_node a x h2]
  | .bin t a b, e, h => by
    simp only [Node.expr, Option.bind_eq_some_iff, Option.some.injEq] at h
    obtain ⟨o, h1, x, h2, y, h3, rfl⟩ := h
    rw [Expr.node, ← binTok_sign h1, ← expr_node a x h2, ← expr_node b y h3]
  | .tri a b c, e, h => by
    simp only [Node.expr, Option.bind_eq_some_iff, Option.some.injEq] at h
    obtain ⟨x, h1, y, h2, z, h3, rfl⟩ := h
    rw [Expr.node, ← expr_node a x h1, ← expr_node b y h2, ← expr_node c z h3]
  | .slice a b c, e, h => by
    simp only [Node.expr, Option.bind_eq_some_iff, Option.some.injEq] at h
    obtain ⟨x, h1, y, h2, z, h3, rfl⟩ := h
    rw [Expr.node, ← expr_node a x h1, ← expr_node b y h2, ← expr_node c z h3]
  | .get a b, e, h => by
    simp only [Node.expr, Option.bind_eq_some_iff, Option.some.injEq] at h
    obtain ⟨x, h1, y, h2, rfl⟩ := h
    rw [Expr.node, ← expr_node a x h1, ← expr_node b y h2]
  | .list es, e, h => by
    simp only [Node.expr, Option.bind_eq_some_iff, Option.some.injEq] at h
    obtain ⟨x, h1, rfl⟩ := h
    rw [Expr.node, ← exprs_nodes es x h1]
  | .table es, e, h => by
    simp only [Node.expr, Option.bind_eq_some_iff, Option.some.injEq] at h
    obtain ⟨x, h1, rfl⟩ := h
    rw [Expr.node, ← exprs_nodes es x h1]
  | .listComp .., e, h | .tableComp .., e, h | .call .., e, h | .mcall .., e, h | .variadic .., e, h | .fn .., e, h | .set .., e, h | .exprStmt _, e, h
  | .echo _, e, h | .assert _, e, h | .export_ _, e, h | .ret _, e, h | .multiRet _, e, h | .decl .., e, h | .let_ .., e, h | .const_ .., e, h | .assign .., e, h
  | .letIter .., e, h | .forIter .., e, h | .while_ .., e, h | .if_ .., e, h | .match_ .., e, h | .block _, e, h | .brk, e, h | .cont, e, h | .null, e, h => by
    simp [Node.expr] at h
theorem exprs_nodes : ∀ (ns : List Node) (es : Exprs), exprsOf ns = some es → ns = es.nodes
  | [], es, h => by simp only [exprsOf, Option.some.injEq] at h; subst h; rfl
  | n :: ns, es, h => by
    simp only [exprsOf, Option.bind_eq_some_iff, Option.some.injEq] at h
    obtain ⟨x, h1, y, h2, rfl⟩ := h
    rw [Exprs.nodes, ← expr_node n x h1, ← exprs_nodes ns y h2]
end

theorem lval_node {n : Node} {l : LVal} (h : n.lval = some l) : n = l.node := by
  unfold Node.lval at h
  split at h
  · cases h; rfl
  · cases h; rfl
  · cases h; rfl
  · simp only [Option.bind_eq_some_iff, Option.some.injEq] at h
    obtain ⟨x, h1, y, h2, rfl⟩ := h
    rw [LVal.node, ← expr_node _ x h1, ← expr_node _ y h2]
  · cases h

theorem lvals_nodes : ∀ (ns : List Node) (ls : List LVal), lvalsOf ns = some ls → ns = ls.map LVal.node
  | [], ls, h => by simp only [lvalsOf, Option.some.injEq] at h; subst h; rfl
  | n :: ns, ls, h => by
    simp only [lvalsOf, Option.bind_eq_some_iff, Option.some.injEq] at h
    obtain ⟨x, h1, y, h2, rfl⟩ := h
    rw [List.map_cons, ← lval_node h1, ← lvals_nodes ns y h2]

mutual
theorem stmt_node : ∀ (n : Node) (s : Stmt), n.stmt = some s → n = s.node
  | .exprStmt a, s, h => by
    simp only [Node.stmt, Option.bind_eq_some_iff, Option.some.injEq] at h
    obtain ⟨x, h1, rfl⟩ := h
    rw [Stmt.node, ← expr_node a x h1]
  | .decl a b, s, h => by
    simp only [Node.stmt, Option.bind_eq_some_iff, Option.some.injEq] at h
    obtain ⟨x, h1, y, h2, rfl⟩ := h
    rw [Stmt.node, ← lvals_nodes a x h1, ← exprs_nodes b y h2]
  | .let_ _ (some a), s, h => by
    simp only [Node.stmt, Option.bind_eq_some_iff, Option.some.injEq] at h
    obtain ⟨x, h1, rfl⟩ := h
    rw [Stmt.node, ← expr_node a x h1]
  | .assign _ (some a), s, h => by
    simp only [Node.stmt, Option.bind_eq_some_iff, Option.some.injEq] at h
    obtain ⟨x, h1, rfl⟩ := h
    rw [Stmt.node, ← expr_node a x h1]
  | .set a b (some c), s, h => by
    simp only [Node.stmt, Option.bind_eq_some_iff, Option.some.injEq] at h
    obtain ⟨x, h1, y, h2, z, h3, rfl⟩ := h
    rw [Stmt.node, ← expr_node a x h1, ← expr_node b y h2, ← expr_node c z h3]
  | .echo a, s, h => by
    simp only [Node.stmt, Option.bind_eq_some_iff, Option.some.injEq] at h
    obtain ⟨x, h1, rfl⟩ := h
    rw [Stmt.node, ← expr_node a x h1]
  | .assert a, s, h => by
    simp only [Node.stmt, Option.bind_eq_some_iff, Option.some.injEq] at h
    obtain ⟨x, h1, rfl⟩ := h
    rw [Stmt.node, ← expr_node a x h1]
  | .block ss, s, h => by
    simp only [Node.stmt, Option.bind_eq_some_iff, Option.some.injEq] at h
    obtain ⟨x, h1, rfl⟩ := h
    rw [Stmt.node, ← stmts_nodes ss x h1]
  | .if_ c t none, s, h => by
    simp only [Node.stmt, Option.bind_eq_some_iff, Option.some.injEq] at h
    obtain ⟨x, h1, y, h2, rfl⟩ := h
    rw [Stmt.node, ← expr_node c x h1, ← stmt_node t y h2]
  | .if_ c t (some e), s, h => by
    simp only [Node.stmt, Option.bind_eq_some_iff, Option.some.injEq] at h
    obtain ⟨x, h1, y, h2, z, h3, rfl⟩ := h
    rw [Stmt.node, ← expr_node c x h1, ← stmt_node t y h2, ← stmt_node e z h3]
  | .while_ c b none, s, h => by
    simp only [Node.stmt, Option.bind_eq_some_iff, Option.some.injEq] at h
    obtain ⟨x, h1, y, h2, rfl⟩ := h
    rw [Stmt.node, ← expr_node c x h1, ← stmt_node b y h2]
  | .while_ c b (some q), s, h => by
    cases q <;> first
      | (simp [Node.stmt] at h; done)
      | (simp only [Node.stmt, Option.bind_eq_some_iff, Option.some.injEq] at h
         obtain ⟨x, h1, y, h2, z, h3, rfl⟩ := h
         rw [Stmt.node, Stmt.node, ← expr_node c x h1, ← stmt_node b y h2, ← stmt_node _ z h3])
  | .forIter i b, s, h => by
    cases i <;> first
      | (simp [Node.stmt] at h; done)
      | (simp only [Node.stmt, Option.bind_eq_some_iff, Option.some.injEq] at h
         obtain ⟨x, h1, y, h2, rfl⟩ := h
         rw [Stmt.node, ← expr_node _ x h1, ← stmt_node b y h2])
  | .brk, s, h => by simp only [Node.stmt, Option.some.injEq] at h; subst h; rfl
  | .cont, s, h => by simp only [Node.stmt, Option.some.injEq] at h; subst h; rfl
  | .undef, e, h | .bool _, e, h | .int _, e, h | .float _, e, h | .str _, e, h | .var _, e, h | .un .., e, h | .bin .., e, h | .tri .., e, h | .slice .., e, h
  | .get .., e, h | .list _, e, h | .table _, e, h | .listComp .., e, h | .tableComp .., e, h | .call .., e, h | .mcall .., e, h | .variadic .., e, h
  | .fn .., e, h | .set _ _ none, e, h | .export_ _, e, h | .ret _, e, h | .multiRet _, e, h | .let_ _ none, e, h | .const_ .., e, h | .assign _ none, e, h
  | .letIter .., e, h | .match_ .., e, h | .null, e, h => by
    simp [Node.stmt] at h
theorem stmts_nodes : ∀ (ns : List Node) (ss : Stmts), stmtsOf ns = some ss → ns = ss.nodes
  | [], es, h => by simp only [stmtsOf, Option.some.injEq] at h; subst h; rfl
  | n :: ns, es, h => by
    simp only [stmtsOf, Option.bind_eq_some_iff, Option.some.injEq] at h
    obtain ⟨x, h1, y, h2, rfl⟩ := h
    rw [Stmts.nodes, ← stmt_node n x h1, ← stmts_nodes ns y h2]
end

/-! ## With functions -/

theorem params_nodes : ∀ (ns : List Node) (xs : List Name), paramsOf ns = some xs → ns = xs.map fun x => .let_ x none
  | [], xs, h => by simp only [paramsOf, Option.some.injEq] at h; subst h; rfl
  | n :: ns, xs, h => by
    unfold paramsOf at h
    split at h
    · cases ‹_ = []›
    · rename_i x ps he
      cases he
      simp only [Option.bind_eq_some_iff, Option.some.injEq] at h
      obtain ⟨ys, h1, rfl⟩ := h
      rw [List.map_cons, ← params_nodes ns ys h1]
    · cases h

theorem targets_nodes : ∀ (ns : List Node) (ts : List FTarget), targetsOf ns = some ts → ns = ts.map FTarget.node
  | [], xs, h => by simp only [targetsOf, Option.some.injEq] at h; subst h; rfl
  | n :: ns, xs, h => by
    unfold targetsOf at h
    split at h
    · cases ‹_ = []›
    all_goals try (cases h; done)
    all_goals
      rename_i x ps he
      cases he
      simp only [Option.bind_eq_some_iff, Option.some.injEq] at h
      obtain ⟨ys, h1, rfl⟩ := h
      rw [List.map_cons, ← targets_nodes ns ys h1]
      rfl

theorem ctxOf_is {c : Int} {e d : FExpr} {a : Node} (h : ctxOf c e = some d) (he : e.Is a) : d.Is (.variadic a c) := by
  unfold ctxOf at h
  split at h
  · rename_i hc; cases h; subst hc; rw [FExpr.Is]; exact ⟨a, rfl, he⟩
  · split at h
    · rename_i hc; cases h; subst hc; rw [FExpr.Is]; exact ⟨a, rfl, he⟩
    · cases h

theorem one_is {es : FExprs} {e : FExpr} {ns : List Node} (h : es.one = some e) (hs : es.Is ns) : ∃ a, ns = [a] ∧ e.Is a := by
  unfold FExprs.one at h
  split at h
  · cases h
    simp only [FExprs.Is] at hs
    obtain ⟨a, as, rfl, h1, rfl⟩ := hs
    exact ⟨a, rfl, h1⟩
  · cases h

theorem declTarget_node {ls : List Node} {t : Bool × Name} (h : declTarget ls = some t) : ls = [if t.1 then .const_ t.2 none else .let_ t.2 none] := by
  unfold declTarget at h
  split at h <;> cases h <;> rfl

theorem declsOf_is {ls ns : List Node} {es : FExprs} {s : FStmt} (h : declsOf ls es = some s) (hs : es.Is ns) : s.Is (.decl ls ns) := by
  unfold declsOf at h
  split at h
  · rename_i t ht
    simp only [Option.bind_eq_some_iff, Option.some.injEq] at h
    obtain ⟨e, h1, rfl⟩ := h
    obtain ⟨a, rfl, ha⟩ := one_is h1 hs
    rw [declTarget_node ht]
    unfold declOf
    obtain ⟨b, x⟩ := t
    cases b
    · simp only [Bool.false_eq_true, if_false, FStmt.Is]; exact ⟨a, .inl rfl, ha⟩
    · simp only [if_true, FStmt.Is]; exact ⟨a, rfl, ha⟩
  · simp only [Option.bind_eq_some_iff] at h
    obtain ⟨ts, h1, h⟩ := h
    split at h <;> cases h
    rw [targets_nodes ls ts h1]
    simp only [FStmt.Is]; exact ⟨ns, rfl, hs⟩

theorem isNamed_fn {n : Node} (h : n.isNamed = true) : ∃ ps b x, n = .fn ps b (some x) := by
  unfold Node.isNamed at h
  split at h
  · obtain ⟨x, rfl⟩ := Option.isSome_iff_exists.1 h; exact ⟨_, _, _, rfl⟩
  · cases h

theorem named_is {x : Name} {e : FExpr} {n : Node} {s : FStmt} (hn : n.isNamed = true) (h : e.named x = some s) (he : e.Is n) : s.Is (.let_ x (some n)) := by
  obtain ⟨ps, b, y, rfl⟩ := isNamed_fn hn
  unfold FExpr.named at h
  split at h
  · cases h
    simp only [FExpr.Is] at he
    obtain ⟨nm, b', h1, h2⟩ := he
    cases h1
    simp only [FStmt.Is]; exact ⟨y, b, rfl, h2⟩
  · cases h

theorem isStore_is {n : Node} {s : FStmt} (hn : n.isStore = true) (h : s.Is n) : s.Is (.exprStmt n) := by
  cases s <;> simp only [FStmt.Is] at h ⊢
  case assign x e =>
    obtain ⟨a, rfl | rfl, h1⟩ := h
    · exact ⟨a, .inr rfl, h1⟩
    · cases hn
  case set c k v =>
    obtain ⟨a, b, d, rfl | rfl, h1⟩ := h
    · exact ⟨a, b, d, .inr rfl, h1⟩
    · cases hn
  case let_ x e =>
    obtain ⟨a, rfl | rfl, h1⟩ := h <;> cases hn
  case fnDecl => obtain ⟨a, b, rfl, h1⟩ := h; cases hn
  case multi => obtain ⟨a, rfl, h1⟩ := h; cases hn
  case const_ => obtain ⟨a, rfl, h1⟩ := h; cases hn
  case expr => obtain ⟨a, rfl, h1⟩ := h; cases hn
  case echo => obtain ⟨a, rfl, h1⟩ := h; cases hn
  case assert => obtain ⟨a, rfl, h1⟩ := h; cases hn
  case block => obtain ⟨a, rfl, h1⟩ := h; cases hn
  case ret => obtain ⟨a, rfl, h1⟩ := h; cases hn
  case ifThen => obtain ⟨a, b, rfl, h1⟩ := h; cases hn
  case while_ => obtain ⟨a, b, rfl, h1⟩ := h; cases hn
  case forIter => obtain ⟨a, b, rfl, h1⟩ := h; cases hn
  case ifElse => obtain ⟨a, b, c, rfl, h1⟩ := h; cases hn
  case loop => obtain ⟨a, b, c, rfl, h1⟩ := h; cases hn
  case brk => subst h; cases hn
  case cont => subst h; cases hn

mutual
theorem fexpr_is : ∀ (n : Node) (k : Nat) (r : FExpr × Nat), n.fexpr k = some r → r.1.Is n
  | .undef, k, e, h | .bool _, k, e, h | .int _, k, e, h | .float _, k, e, h | .str _, k, e, h | .var _, k, e, h => by
    simp only [Node.fexpr, Option.some.injEq] at h; subst h; rfl
  | .un t a, k, e, h => by
    simp only [Node.fexpr, Option.bind_eq_some_iff, Option.some.injEq] at h
    obtain ⟨o, h1, x, h2, rfl⟩ := h
    rw [unOp_sign h1, FExpr.Is]; exact ⟨a, rfl, fexpr_is a _ x h2⟩
  | .bin t a b, k, e, h => by
    simp only [Node.fexpr, Option.bind_eq_some_iff, Option.some.injEq] at h
    obtain ⟨o, h1, x, h2, y, h3, rfl⟩ := h
    rw [binTok_sign h1, FExpr.Is]; exact ⟨a, b, rfl, fexpr_is a _ x h2, fexpr_is b _ y h3⟩
  | .tri a b c, k, e, h => by
    simp only [Node.fexpr, Option.bind_eq_some_iff, Option.some.injEq] at h
    obtain ⟨x, h1, y, h2, z, h3, rfl⟩ := h
    rw [FExpr.Is]; exact ⟨a, b, c, rfl, fexpr_is a _ x h1, fexpr_is b _ y h2, fexpr_is c _ z h3⟩
  | .slice a b c, k, e, h => by
    simp only [Node.fexpr, Option.bind_eq_some_iff, Option.some.injEq] at h
    obtain ⟨x, h1, y, h2, z, h3, rfl⟩ := h
    rw [FExpr.Is]; exact ⟨a, b, c, rfl, fexpr_is a _ x h1, fexpr_is b _ y h2, fexpr_is c _ z h3⟩
  | .get a b, k, e, h => by
    simp only [Node.fexpr, Option.bind_eq_some_iff, Option.some.injEq] at h
    obtain ⟨x, h1, y, h2, rfl⟩ := h
    rw [FExpr.Is]; exact ⟨a, b, rfl, fexpr_is a _ x h1, fexpr_is b _ y h2⟩
  | .list es, k, e, h => by
    simp only [Node.fexpr, Option.bind_eq_some_iff, Option.some.injEq] at h
    obtain ⟨x, h1, rfl⟩ := h
    rw [FExpr.Is]; exact ⟨es, rfl, fexprs_is es _ x h1⟩
  | .table es, k, e, h => by
    simp only [Node.fexpr, Option.bind_eq_some_iff, Option.some.injEq] at h
    obtain ⟨x, h1, rfl⟩ := h
    rw [FExpr.Is]; exact ⟨es, rfl, fexprs_is es _ x h1⟩
  | .call f es, k, e, h => by
    simp only [Node.fexpr, Option.bind_eq_some_iff, Option.some.injEq] at h
    obtain ⟨x, h1, y, h2, rfl⟩ := h
    rw [FExpr.Is]; exact ⟨f, es, rfl, fexpr_is f _ x h1, fexprs_is es _ y h2⟩
  | .mcall f m es, k, e, h => by
    simp only [Node.fexpr, Option.bind_eq_some_iff, Option.some.injEq] at h
    obtain ⟨x, h1, y, h2, rfl⟩ := h
    rw [FExpr.Is]; exact ⟨f, es, rfl, fexpr_is f _ x h1, fexprs_is es _ y h2⟩
  | .variadic a c, k, e, h => by
    simp only [Node.fexpr, Option.bind_eq_some_iff, Option.some.injEq] at h
    obtain ⟨x, h1, y, h2, rfl⟩ := h
    exact ctxOf_is h2 (fexpr_is a _ x h1)
  | .fn ps body nm, k, e, h => by
    simp only [Node.fexpr, Option.bind_eq_some_iff, Option.some.injEq] at h
    obtain ⟨x, h1, y, h2, rfl⟩ := h
    rw [params_nodes ps x h1, FExpr.Is]; exact ⟨nm, body, rfl, fstmts_is body _ y h2⟩
  | .listComp .., k, e, h | .tableComp .., k, e, h | .set .., k, e, h | .exprStmt _, k, e, h
  | .echo _, k, e, h | .assert _, k, e, h | .export_ _, k, e, h | .ret _, k, e, h | .multiRet _, k, e, h | .decl .., k, e, h | .let_ .., k, e, h
  | .const_ .., k, e, h | .assign .., k, e, h | .letIter .., k, e, h | .forIter .., k, e, h | .while_ .., k, e, h | .if_ .., k, e, h | .match_ .., k, e, h
  | .block _, k, e, h | .brk, k, e, h | .cont, k, e, h | .null, k, e, h => by
    simp [Node.fexpr] at h
theorem fexprs_is : ∀ (ns : List Node) (k : Nat) (r : FExprs × Nat), fexprsOf ns k = some r → r.1.Is ns
  | [], k, es, h => by simp only [fexprsOf, Option.some.injEq] at h; subst h; rfl
  | n :: ns, k, es, h => by
    simp only [fexprsOf, Option.bind_eq_some_iff, Option.some.injEq] at h
    obtain ⟨x, h1, y, h2, rfl⟩ := h
    rw [FExprs.Is]; exact ⟨n, ns, rfl, fexpr_is n _ x h1, fexprs_is ns _ y h2⟩
theorem fstmt_is : ∀ (n : Node) (k : Nat) (r : FStmt × Nat), n.fstmt k = some r → r.1.Is n
  | .exprStmt a, k, s, h => by
    simp only [Node.fstmt] at h
    split at h
    · rename_i hs
      exact isStore_is hs (fstmt_is a k s h)
    · simp only [Option.bind_eq_some_iff, Option.some.injEq] at h
      obtain ⟨x, h1, rfl⟩ := h
      rw [FStmt.Is]; exact ⟨a, rfl, fexpr_is a _ x h1⟩
  | .decl a b, k, s, h => by
    simp only [Node.fstmt, Option.bind_eq_some_iff, Option.some.injEq] at h
    obtain ⟨x, h1, y, h2, rfl⟩ := h
    exact declsOf_is h2 (fexprs_is b _ x h1)
  | .let_ v (some a), k, s, h => by
    simp only [Node.fstmt, Option.bind_eq_some_iff, Option.some.injEq] at h
    obtain ⟨x, h1, y, h2, rfl⟩ := h
    have := fexpr_is a _ x h1
    split at h2
    · exact named_is ‹_› h2 this
    · cases h2; rw [FStmt.Is]; exact ⟨a, .inr rfl, this⟩
  | .assign v (some a), k, s, h => by
    simp only [Node.fstmt, Option.bind_eq_some_iff, Option.some.injEq] at h
    obtain ⟨x, h1, rfl⟩ := h
    rw [FStmt.Is]; exact ⟨a, .inl rfl, fexpr_is a _ x h1⟩
  | .set a b (some c), k, s, h => by
    simp only [Node.fstmt, Option.bind_eq_some_iff, Option.some.injEq] at h
    obtain ⟨x, h1, y, h2, z, h3, rfl⟩ := h
    rw [FStmt.Is]; exact ⟨a, b, c, .inl rfl, fexpr_is a _ x h1, fexpr_is b _ y h2, fexpr_is c _ z h3⟩
  | .echo a, k, s, h => by
    simp only [Node.fstmt, Option.bind_eq_some_iff, Option.some.injEq] at h
    obtain ⟨x, h1, rfl⟩ := h
    rw [FStmt.Is]; exact ⟨a, rfl, fexpr_is a _ x h1⟩
  | .assert a, k, s, h => by
    simp only [Node.fstmt, Option.bind_eq_some_iff, Option.some.injEq] at h
    obtain ⟨x, h1, rfl⟩ := h
    rw [FStmt.Is]; exact ⟨a, rfl, fexpr_is a _ x h1⟩
  | .ret a, k, s, h => by
    simp only [Node.fstmt, Option.bind_eq_some_iff, Option.some.injEq] at h
    obtain ⟨x, h1, rfl⟩ := h
    rw [FStmt.Is]; exact ⟨a, rfl, fexpr_is a _ x h1⟩
  | .block ss, k, s, h => by
    simp only [Node.fstmt, Option.bind_eq_some_iff, Option.some.injEq] at h
    obtain ⟨x, h1, rfl⟩ := h
    rw [FStmt.Is]; exact ⟨ss, rfl, fstmts_is ss _ x h1⟩
  | .if_ c t none, k, s, h => by
    simp only [Node.fstmt, Option.bind_eq_some_iff, Option.some.injEq] at h
    obtain ⟨x, h1, y, h2, rfl⟩ := h
    rw [FStmt.Is]; exact ⟨c, t, rfl, fexpr_is c _ x h1, fstmt_is t _ y h2⟩
  | .if_ c t (some e), k, s, h => by
    simp only [Node.fstmt, Option.bind_eq_some_iff, Option.some.injEq] at h
    obtain ⟨x, h1, y, h2, z, h3, rfl⟩ := h
    rw [FStmt.Is]; exact ⟨c, t, e, rfl, fexpr_is c _ x h1, fstmt_is t _ y h2, fstmt_is e _ z h3⟩
  | .while_ c b none, k, s, h => by
    simp only [Node.fstmt, Option.bind_eq_some_iff, Option.some.injEq] at h
    obtain ⟨x, h1, y, h2, rfl⟩ := h
    rw [FStmt.Is]; exact ⟨c, b, rfl, fexpr_is c _ x h1, fstmt_is b _ y h2⟩
  | .while_ c b (some p), k, s, h => by
    simp only [Node.fstmt, Option.bind_eq_some_iff, Option.some.injEq] at h
    obtain ⟨z, h3, x, h1, y, h2, rfl⟩ := h
    rw [FStmt.Is]; exact ⟨c, b, p, rfl, fexpr_is c _ x h1, fstmt_is b _ y h2, fstmt_is p _ z h3⟩
  | .forIter i b, k, s, h => by
    cases i <;> first
      | (simp [Node.fstmt] at h; done)
      | (simp only [Node.fstmt, Option.bind_eq_some_iff, Option.some.injEq] at h
         obtain ⟨x, h1, y, h2, rfl⟩ := h
         rw [FStmt.Is]; exact ⟨_, b, rfl, fexpr_is _ _ x h1, fstmt_is b _ y h2⟩)
  | .brk, k, s, h => by simp only [Node.fstmt, Option.some.injEq] at h; subst h; rfl
  | .cont, k, s, h => by simp only [Node.fstmt, Option.some.injEq] at h; subst h; rfl
  | .undef, k, e, h | .bool _, k, e, h | .int _, k, e, h | .float _, k, e, h | .str _, k, e, h | .var _, k, e, h | .un .., k, e, h | .bin .., k, e, h
  | .tri .., k, e, h | .slice .., k, e, h | .get .., k, e, h | .list _, k, e, h | .table _, k, e, h | .listComp .., k, e, h | .tableComp .., k, e, h
  | .call .., k, e, h | .mcall .., k, e, h | .variadic .., k, e, h | .fn .., k, e, h | .set _ _ none, k, e, h | .export_ _, k, e, h | .multiRet _, k, e, h
  | .let_ _ none, k, e, h | .const_ .., k, e, h | .assign _ none, k, e, h | .letIter .., k, e, h | .match_ .., k, e, h | .null, k, e, h => by
    simp [Node.fstmt] at h
theorem fstmts_is : ∀ (ns : List Node) (k : Nat) (r : FStmts × Nat), fstmtsOf ns k = some r → r.1.Is ns
  | [], k, es, h => by simp only [fstmtsOf, Option.some.injEq] at h; subst h; rfl
  | n :: ns, k, es, h => by
    simp only [fstmtsOf, Option.bind_eq_some_iff, Option.some.injEq] at h
    obtain ⟨x, h1, y, h2, rfl⟩ := h
    rw [FStmts.Is]; exact ⟨n, ns, rfl, fstmt_is n _ x h1, fstmts_is ns _ y h2⟩
end

end Yasl
