import Verif.Proofs.NodeRed
import Verif.Model.FExecute
import Verif.Spec.Static
set_option autoImplicit false
/-! # The shape of the trees that the grammar gives -/
namespace Yasl

/-- A block, or (after `elseif`) another `if`. -/
def Node.isBody : Node → Bool
  | .block _ | .if_ _ _ _ => true
  | _ => false

/-- An expression as a statement, or the wrapped assignment at the end of a `for`. -/
def Node.isPost : Node → Bool
  | .exprStmt _ => true
  | _ => false

mutual
/-- Bodies and branches are blocks. -/
def Node.shp : Node → Bool
  | .un _ e | .exprStmt e | .echo e | .assert e | .ret e | .letIter _ e | .variadic e _ => e.shp
  | .bin _ a b | .get a b => a.shp && b.shp
  | .tri a b c | .slice a b c => a.shp && b.shp && c.shp
  | .list es | .table es | .block es => shps es
  | .call f as => f.shp && shps as
  | .mcall o _ as => o.shp && shps as
  | .fn _ body _ => shps body
  | .set a b v => a.shp && b.shp && shpo v
  | .decl _ rs => shps rs
  | .let_ _ e | .assign _ e => shpo e
  | .forIter i b => i.shp && b.isBody && b.shp
  | .while_ c b p => c.shp && b.isBody && b.shp && shppo p
  | .if_ c t e => c.shp && t.isBody && t.shp && shpbo e
  | _ => true
/-- All of some. -/
def shps : List Node → Bool
  | [] => true
  | n :: ns => n.shp && shps ns
/-- If there is one. -/
def shpo : Option Node → Bool
  | none => true
  | some n => n.shp
/-- If there is one, it is a body. -/
def shpbo : Option Node → Bool
  | none => true
  | some n => n.isBody && n.shp
/-- If there is one, it is an expression. -/
def shppo : Option Node → Bool
  | none => true
  | some n => n.isPost && n.shp
end

theorem shps_append : ∀ (a b : List Node), shps (a ++ b) = (shps a && shps b)
  | [], b => by simp [shps]
  | n :: a, b => by simp [shps, shps_append a b, Bool.and_assoc]

theorem shps_lastSpread (n : Int) : ∀ (es : List Node), shps (lastSpread n es) = shps es
  | [] => rfl
  | [e] => by cases e <;> simp [lastSpread, shps, Node.shp]
  | e :: e' :: es => by
    have h : lastSpread n (e :: e' :: es) = e :: lastSpread n (e' :: es) := by simp [lastSpread]
    rw [h]; simp only [shps]; rw [shps_lastSpread n (e' :: es)]; simp only [shps]

theorem shps_replicate (n : Nat) : shps (List.replicate n .undef) = true := by
  induction n with
  | zero => rfl
  | succ n ih => simp [List.replicate_succ, shps, Node.shp, ih]

theorem shps_padTo (n : Nat) (es : List Node) : shps (padTo n es) = shps es := by
  unfold padTo
  split <;> simp [shps_lastSpread, shps_append, shps_replicate]

theorem shp_interpolated : ∀ (ps : List (Node × List Byte)) (n : Node), n.shp = true → (∀ p ∈ ps, p.1.shp = true) →
    (ps.foldl (fun n p => Node.bin .tilde (.bin .tilde n p.1) (.str p.2)) n).shp = true
  | [], n, h, _ => h
  | p :: ps, n, h, h2 => by
    refine shp_interpolated ps _ ?_ (fun q hq => h2 q (List.mem_cons_of_mem _ hq))
    simp [Node.shp, h, h2 p List.mem_cons_self]

/-- The property for the categories of the grammar. -/
def ShpRes : (c : Cat) → c.Res → Prop
  | .expr, n | .tern, n | .bin _, n | .unary, n | .power, n | .post, n | .atom, n | .iter, n | .stmt, n | .simple, n | .lval, n => Node.shp n = true
  | .ifRest, n => Node.shp n = true ∧ Node.isBody n = true
  | .string, r => ∀ p ∈ r.2, Node.shp p.1 = true
  | .args, ns | .more, ns | .pairs, ns | .lvals, ns | .body, ns | .stmts, ns => shps ns = true
  | .cond, n => shpo n = true
  | .clauses, _ => True

theorem gram_shp {flt : List Byte → BitVec 64} {c : Cat} {ts : List TextItem} {r : c.Res} (h : Gram flt Option.some c ts r) : ShpRes c r := by
  induction h with
  | expr _ hf ih => cases hf; exact ih
  | string _ ih => exact shp_interpolated _ _ rfl ih
  | strMore _ _ i1 i2 =>
    intro p hp
    rcases List.mem_cons.1 hp with rfl | hp
    · exact i1
    · exact i2 p hp
  | strEnd => intro p hp; cases hp
  | clausesEnd | clauses => trivial
  | _ => simp_all [ShpRes, Node.shp, shps, shpo, shpbo, shppo, shps_lastSpread, shps_padTo, Node.isBody, Node.isPost]

/-! From the nodes to the trees of `Verif.Model.FAst`. -/

theorem shaped_one {es : FExprs} {e : FExpr} (h : es.one = some e) (hs : es.shaped = true) : e.shaped = true := by
  unfold FExprs.one at h
  split at h <;> cases h
  simp only [FExprs.shaped, Bool.and_true] at hs
  exact hs

theorem shaped_named {x : Name} {e : FExpr} {s : FStmt} (h : e.named x = some s) (hs : e.shaped = true) : s.shaped = true := by
  unfold FExpr.named at h
  split at h <;> cases h
  simp only [FExpr.shaped] at hs
  simp only [FStmt.shaped]; exact hs

theorem shaped_ctxOf {n : Int} {e c : FExpr} (h : ctxOf n e = some c) (hs : e.shaped = true) : c.shaped = true := by
  unfold ctxOf at h
  split at h
  · cases h; simp only [FExpr.shaped]; exact hs
  · split at h <;> cases h
    simp only [FExpr.shaped]; exact hs

theorem shaped_declOf (t : Bool × Name) {e : FExpr} (hs : e.shaped = true) : (declOf t e).shaped = true := by
  unfold declOf; split <;> (simp only [FStmt.shaped]; exact hs)

theorem shaped_declsOf {ls : List Node} {es : FExprs} {s : FStmt} (h : declsOf ls es = some s) (hs : es.shaped = true) : s.shaped = true := by
  unfold declsOf at h
  split at h
  · rw [Option.bind_eq_some_iff] at h
    obtain ⟨e, he, h⟩ := h
    cases h
    exact shaped_declOf _ (shaped_one he hs)
  · rw [Option.bind_eq_some_iff] at h
    obtain ⟨ts, -, h⟩ := h
    split at h <;> cases h
    simp only [FStmt.shaped]; exact hs

theorem isBody_decls {n : Node} {k : Nat} {r : FStmt × Nat} (hn : n.isBody = true) (h : n.fstmt k = some r) : r.1.decls.isEmpty = true := by
  unfold Node.isBody at hn
  split at hn
  · simp only [Node.fstmt, Option.bind_eq_some_iff, Option.some.injEq] at h
    obtain ⟨a, ha, rfl⟩ := h; rfl
  · rename_i c t e
    cases e with
    | none =>
      simp only [Node.fstmt, Option.bind_eq_some_iff, Option.some.injEq] at h
      obtain ⟨x, hx, y, hy, rfl⟩ := h; rfl
    | some e =>
      simp only [Node.fstmt, Option.bind_eq_some_iff, Option.some.injEq] at h
      obtain ⟨x, hx, y, hy, z, hz, rfl⟩ := h; rfl
  · cases hn

theorem isStore_decls {n : Node} {k : Nat} {r : FStmt × Nat} (hn : n.isStore = true) (h : n.fstmt k = some r) : r.1.decls.isEmpty = true := by
  unfold Node.isStore at hn
  split at hn
  · rename_i x e
    cases e with
    | none => simp [Node.fstmt] at h
    | some e =>
      simp only [Node.fstmt, Option.bind_eq_some_iff, Option.some.injEq] at h
      obtain ⟨x, hx, rfl⟩ := h; rfl
  · rename_i c i e
    cases e with
    | none => simp [Node.fstmt] at h
    | some e =>
      simp only [Node.fstmt, Option.bind_eq_some_iff, Option.some.injEq] at h
      obtain ⟨x, hx, y, hy, z, hz, rfl⟩ := h; rfl
  · cases hn

theorem isPost_decls {n : Node} {k : Nat} {r : FStmt × Nat} (hn : n.isPost = true) (h : n.fstmt k = some r) : r.1.decls.isEmpty = true := by
  unfold Node.isPost at hn
  split at hn
  · rename_i e
    simp only [Node.fstmt] at h
    split at h
    · rename_i he; exact isStore_decls he h
    · simp only [Option.bind_eq_some_iff, Option.some.injEq] at h
      obtain ⟨a, ha, rfl⟩ := h; rfl
  · cases hn

mutual
theorem fexpr_shaped : ∀ (n : Node) (k : Nat) (r : FExpr × Nat), n.shp = true → n.fexpr k = some r → r.1.shaped = true
  | .undef, k, r, _, h => by simp only [Node.fexpr, Option.some.injEq] at h; subst h; rfl
  | .bool b, k, r, _, h => by simp only [Node.fexpr, Option.some.injEq] at h; subst h; rfl
  | .int b, k, r, _, h => by simp only [Node.fexpr, Option.some.injEq] at h; subst h; rfl
  | .float b, k, r, _, h => by simp only [Node.fexpr, Option.some.injEq] at h; subst h; rfl
  | .str b, k, r, _, h => by simp only [Node.fexpr, Option.some.injEq] at h; subst h; rfl
  | .var b, k, r, _, h => by simp only [Node.fexpr, Option.some.injEq] at h; subst h; rfl
  | .un t e, k, r, s, h => by
    simp only [Node.fexpr, Option.bind_eq_some_iff, Option.some.injEq] at h
    obtain ⟨o, -, a, ha, rfl⟩ := h
    simp only [Node.shp] at s
    simp only [FExpr.shaped]; exact fexpr_shaped e k a s ha
  | .bin t l r, k, q, s, h => by
    simp only [Node.fexpr, Option.bind_eq_some_iff, Option.some.injEq] at h
    obtain ⟨o, -, a, ha, b, hb, rfl⟩ := h
    simp only [Node.shp, Bool.and_eq_true] at s
    simp only [FExpr.shaped, Bool.and_eq_true]; exact ⟨fexpr_shaped l k a s.1 ha, fexpr_shaped r _ b s.2 hb⟩
  | .tri c a b, k, q, s, h => by
    simp only [Node.fexpr, Option.bind_eq_some_iff, Option.some.injEq] at h
    obtain ⟨x, hx, y, hy, z, hz, rfl⟩ := h
    simp only [Node.shp, Bool.and_eq_true] at s
    simp only [FExpr.shaped, Bool.and_eq_true]
    exact ⟨⟨fexpr_shaped c k x s.1.1 hx, fexpr_shaped a _ y s.1.2 hy⟩, fexpr_shaped b _ z s.2 hz⟩
  | .list es, k, q, s, h => by
    simp only [Node.fexpr, Option.bind_eq_some_iff, Option.some.injEq] at h
    obtain ⟨a, ha, rfl⟩ := h
    simp only [Node.shp] at s
    simp only [FExpr.shaped]; exact fexprs_shaped es k a s ha
  | .table es, k, q, s, h => by
    simp only [Node.fexpr, Option.bind_eq_some_iff, Option.some.injEq] at h
    obtain ⟨a, ha, rfl⟩ := h
    simp only [Node.shp] at s
    simp only [FExpr.shaped]; exact fexprs_shaped es k a s ha
  | .get c i, k, q, s, h => by
    simp only [Node.fexpr, Option.bind_eq_some_iff, Option.some.injEq] at h
    obtain ⟨a, ha, b, hb, rfl⟩ := h
    simp only [Node.shp, Bool.and_eq_true] at s
    simp only [FExpr.shaped, Bool.and_eq_true]; exact ⟨fexpr_shaped c k a s.1 ha, fexpr_shaped i _ b s.2 hb⟩
  | .slice c a b, k, q, s, h => by
    simp only [Node.fexpr, Option.bind_eq_some_iff, Option.some.injEq] at h
    obtain ⟨x, hx, y, hy, z, hz, rfl⟩ := h
    simp only [Node.shp, Bool.and_eq_true] at s
    simp only [FExpr.shaped, Bool.and_eq_true]
    exact ⟨⟨fexpr_shaped c k x s.1.1 hx, fexpr_shaped a _ y s.1.2 hy⟩, fexpr_shaped b _ z s.2 hz⟩
  | .call f as, k, q, s, h => by
    simp only [Node.fexpr, Option.bind_eq_some_iff, Option.some.injEq] at h
    obtain ⟨a, ha, b, hb, rfl⟩ := h
    simp only [Node.shp, Bool.and_eq_true] at s
    simp only [FExpr.shaped, Bool.and_eq_true]; exact ⟨fexpr_shaped f k a s.1 ha, fexprs_shaped as _ b s.2 hb⟩
  | .mcall f m as, k, q, s, h => by
    simp only [Node.fexpr, Option.bind_eq_some_iff, Option.some.injEq] at h
    obtain ⟨a, ha, b, hb, rfl⟩ := h
    simp only [Node.shp, Bool.and_eq_true] at s
    simp only [FExpr.shaped, Bool.and_eq_true]; exact ⟨fexpr_shaped f k a s.1 ha, fexprs_shaped as _ b s.2 hb⟩
  | .variadic e n, k, q, s, h => by
    simp only [Node.fexpr, Option.bind_eq_some_iff, Option.some.injEq] at h
    obtain ⟨a, ha, b, hb, rfl⟩ := h
    simp only [Node.shp] at s
    exact shaped_ctxOf hb (fexpr_shaped e k a s ha)
  | .fn ps body nm, k, q, s, h => by
    simp only [Node.fexpr, Option.bind_eq_some_iff, Option.some.injEq] at h
    obtain ⟨xs, -, b, hb, rfl⟩ := h
    simp only [Node.shp] at s
    simp only [FExpr.shaped]; exact fstmts_shaped body _ b s hb
  | .export_ _, _, _, _, h | .exprStmt _, _, _, _, h | .decl _ _, _, _, _, h | .let_ _ _, _, _, _, h | .const_ _ _, _, _, _, h | .assign _ _, _, _, _, h
  | .set _ _ _, _, _, _, h | .echo _, _, _, _, h | .assert _, _, _, _, h | .ret _, _, _, _, h | .block _, _, _, _, h | .if_ _ _ _, _, _, _, h
  | .while_ _ _ _, _, _, _, h | .forIter _ _, _, _, _, h | .letIter _ _, _, _, _, h | .brk, _, _, _, h | .cont, _, _, _, h | .multiRet _, _, _, _, h
  | .match_ _ _ _ _, _, _, _, h | .listComp _ _ _, _, _, _, h | .tableComp _ _ _, _, _, _, h | .null, _, _, _, h => by simp [Node.fexpr] at h
theorem fexprs_shaped : ∀ (ns : List Node) (k : Nat) (r : FExprs × Nat), shps ns = true → fexprsOf ns k = some r → r.1.shaped = true
  | [], k, r, _, h => by simp only [fexprsOf, Option.some.injEq] at h; subst h; rfl
  | n :: ns, k, r, s, h => by
    simp only [fexprsOf, Option.bind_eq_some_iff, Option.some.injEq] at h
    obtain ⟨a, ha, b, hb, rfl⟩ := h
    simp only [shps, Bool.and_eq_true] at s
    simp only [FExprs.shaped, Bool.and_eq_true]; exact ⟨fexpr_shaped n k a s.1 ha, fexprs_shaped ns _ b s.2 hb⟩
theorem fstmt_shaped : ∀ (n : Node) (k : Nat) (r : FStmt × Nat), n.shp = true → n.fstmt k = some r → r.1.shaped = true
  | .exprStmt e, k, r, s, h => by
    simp only [Node.fstmt] at h
    simp only [Node.shp] at s
    split at h
    · exact fstmt_shaped e k r s h
    · simp only [Option.bind_eq_some_iff, Option.some.injEq] at h
      obtain ⟨a, ha, rfl⟩ := h
      simp only [FStmt.shaped]; exact fexpr_shaped e k a s ha
  | .echo e, k, r, s, h => by
    simp only [Node.fstmt, Option.bind_eq_some_iff, Option.some.injEq] at h
    obtain ⟨a, ha, rfl⟩ := h
    simp only [Node.shp] at s
    simp only [FStmt.shaped]; exact fexpr_shaped e k a s ha
  | .assert e, k, r, s, h => by
    simp only [Node.fstmt, Option.bind_eq_some_iff, Option.some.injEq] at h
    obtain ⟨a, ha, rfl⟩ := h
    simp only [Node.shp] at s
    simp only [FStmt.shaped]; exact fexpr_shaped e k a s ha
  | .ret e, k, r, s, h => by
    simp only [Node.fstmt, Option.bind_eq_some_iff, Option.some.injEq] at h
    obtain ⟨a, ha, rfl⟩ := h
    simp only [Node.shp] at s
    simp only [FStmt.shaped]; exact fexpr_shaped e k a s ha
  | .assign x (some e), k, r, s, h => by
    simp only [Node.fstmt, Option.bind_eq_some_iff, Option.some.injEq] at h
    obtain ⟨a, ha, rfl⟩ := h
    simp only [Node.shp, shpo] at s
    simp only [FStmt.shaped]; exact fexpr_shaped e k a s ha
  | .let_ x (some e), k, r, s, h => by
    simp only [Node.fstmt, Option.bind_eq_some_iff, Option.some.injEq] at h
    obtain ⟨a, ha, t, ht, rfl⟩ := h
    simp only [Node.shp, shpo] at s
    dsimp only
    split at ht
    · exact shaped_named ht (fexpr_shaped e k a s ha)
    · cases ht; simp only [FStmt.shaped]; exact fexpr_shaped e k a s ha
  | .decl ls rs, k, r, s, h => by
    simp only [Node.fstmt, Option.bind_eq_some_iff, Option.some.injEq] at h
    obtain ⟨a, ha, t, ht, rfl⟩ := h
    simp only [Node.shp] at s
    exact shaped_declsOf ht (fexprs_shaped rs k a s ha)
  | .set c i (some v), k, r, s, h => by
    simp only [Node.fstmt, Option.bind_eq_some_iff, Option.some.injEq] at h
    obtain ⟨x, hx, y, hy, z, hz, rfl⟩ := h
    simp only [Node.shp, shpo, Bool.and_eq_true] at s
    simp only [FStmt.shaped, Bool.and_eq_true]
    exact ⟨⟨fexpr_shaped c k x s.1.1 hx, fexpr_shaped i _ y s.1.2 hy⟩, fexpr_shaped v _ z s.2 hz⟩
  | .block ss, k, r, s, h => by
    simp only [Node.fstmt, Option.bind_eq_some_iff, Option.some.injEq] at h
    obtain ⟨a, ha, rfl⟩ := h
    simp only [Node.shp] at s
    simp only [FStmt.shaped]; exact fstmts_shaped ss k a s ha
  | .if_ c t none, k, r, s, h => by
    simp only [Node.fstmt, Option.bind_eq_some_iff, Option.some.injEq] at h
    obtain ⟨x, hx, y, hy, rfl⟩ := h
    simp only [Node.shp, shpbo, Bool.and_eq_true] at s
    simp only [FStmt.shaped, Bool.and_eq_true]
    exact ⟨⟨fexpr_shaped c k x s.1.1.1 hx, isBody_decls s.1.1.2 hy⟩, fstmt_shaped t _ y s.1.2 hy⟩
  | .if_ c t (some e), k, r, s, h => by
    simp only [Node.fstmt, Option.bind_eq_some_iff, Option.some.injEq] at h
    obtain ⟨x, hx, y, hy, z, hz, rfl⟩ := h
    simp only [Node.shp, shpbo, Bool.and_eq_true] at s
    simp only [FStmt.shaped, Bool.and_eq_true]
    exact ⟨⟨⟨⟨fexpr_shaped c k x s.1.1.1 hx, isBody_decls s.1.1.2 hy⟩, fstmt_shaped t _ y s.1.2 hy⟩, isBody_decls s.2.1 hz⟩, fstmt_shaped e _ z s.2.2 hz⟩
  | .while_ c b none, k, r, s, h => by
    simp only [Node.fstmt, Option.bind_eq_some_iff, Option.some.injEq] at h
    obtain ⟨x, hx, y, hy, rfl⟩ := h
    simp only [Node.shp, shppo, Bool.and_eq_true] at s
    simp only [FStmt.shaped, Bool.and_eq_true]
    exact ⟨⟨fexpr_shaped c k x s.1.1.1 hx, isBody_decls s.1.1.2 hy⟩, fstmt_shaped b _ y s.1.2 hy⟩
  | .while_ c b (some p), k, r, s, h => by
    simp only [Node.fstmt, Option.bind_eq_some_iff, Option.some.injEq] at h
    obtain ⟨z, hz, x, hx, y, hy, rfl⟩ := h
    simp only [Node.shp, shppo, Bool.and_eq_true] at s
    simp only [FStmt.shaped, Bool.and_eq_true]
    exact ⟨⟨⟨⟨fexpr_shaped c _ x s.1.1.1 hx, isBody_decls s.1.1.2 hy⟩, fstmt_shaped b _ y s.1.2 hy⟩, isPost_decls s.2.1 hz⟩, fstmt_shaped p k z s.2.2 hz⟩
  | .brk, k, r, _, h => by simp only [Node.fstmt, Option.some.injEq] at h; subst h; rfl
  | .cont, k, r, _, h => by simp only [Node.fstmt, Option.some.injEq] at h; subst h; rfl
  | .undef, _, _, _, h | .bool _, _, _, _, h | .int _, _, _, _, h | .float _, _, _, _, h | .str _, _, _, _, h | .var _, _, _, _, h | .un _ _, _, _, _, h
  | .bin _ _ _, _, _, _, h | .tri _ _ _, _, _, _, h | .list _, _, _, _, h | .table _, _, _, _, h | .get _ _, _, _, _, h | .slice _ _ _, _, _, _, h
  | .call _ _, _, _, _, h | .mcall _ _ _, _, _, _, h | .variadic _ _, _, _, _, h | .fn _ _ _, _, _, _, h | .export_ _, _, _, _, h
  | .let_ _ none, _, _, _, h | .const_ _ _, _, _, _, h | .assign _ none, _, _, _, h
  | .set _ _ none, _, _, _, h | .letIter _ _, _, _, _, h | .multiRet _, _, _, _, h | .match_ _ _ _ _, _, _, _, h
  | .listComp _ _ _, _, _, _, h | .tableComp _ _ _, _, _, _, h | .null, _, _, _, h => by simp [Node.fstmt] at h
  | .forIter i b, k, r, s, h => by
    cases i with
    | letIter x coll =>
      simp only [Node.fstmt, Option.bind_eq_some_iff, Option.some.injEq] at h
      obtain ⟨x, hx, y, hy, rfl⟩ := h
      simp only [Node.shp, Bool.and_eq_true] at s
      simp only [FStmt.shaped, Bool.and_eq_true]
      exact ⟨⟨fexpr_shaped coll k x s.1.1 hx, isBody_decls s.1.2 hy⟩, fstmt_shaped b _ y s.2 hy⟩
    | _ => simp [Node.fstmt] at h
theorem fstmts_shaped : ∀ (ns : List Node) (k : Nat) (r : FStmts × Nat), shps ns = true → fstmtsOf ns k = some r → r.1.shaped = true
  | [], k, r, _, h => by simp only [fstmtsOf, Option.some.injEq] at h; subst h; rfl
  | n :: ns, k, r, s, h => by
    simp only [fstmtsOf, Option.bind_eq_some_iff, Option.some.injEq] at h
    obtain ⟨a, ha, b, hb, rfl⟩ := h
    simp only [shps, Bool.and_eq_true] at s
    simp only [FStmts.shaped, Bool.and_eq_true]; exact ⟨fstmt_shaped n k a s.1 ha, fstmts_shaped ns _ b s.2 hb⟩
end

/-- The program of a text has the shape of `Verif.Spec.Static`. -/
theorem gram_shaped {flt : List Byte → BitVec 64} {ts : List TextItem} {ss : List Node} {prog : FStmts} (h : Gram flt Option.some .stmts ts ss)
    (hp : fprogOf ss = some prog) : prog.shaped = true := by
  obtain ⟨⟨p, k⟩, hp', rfl⟩ := Option.map_eq_some_iff.1 (show (fstmtsOf ss 0).map Prod.fst = some prog from hp)
  exact fstmts_shaped ss 0 _ (gram_shp h) hp'

end Yasl
