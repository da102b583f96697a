import Verif.Model.FExecute
import Verif.Spec.FFits
set_option autoImplicit false
/-! # The numbers of function literals are different -/
namespace Yasl

/-- Different numbers from `k` to `k'`. -/
def Fresh (ids : List Nat) (k k' : Nat) : Prop := k ≤ k' ∧ ids.Nodup ∧ ∀ i ∈ ids, k ≤ i ∧ i < k'

theorem Fresh.nil (k : Nat) : Fresh [] k k := ⟨Nat.le_refl _, List.nodup_nil, by simp⟩

theorem Fresh.append {l l' : List Nat} {k k' k'' : Nat} (h : Fresh l k k') (h' : Fresh l' k' k'') : Fresh (l ++ l') k k'' := by
  refine ⟨Nat.le_trans h.1 h'.1, ?_, ?_⟩
  · rw [List.nodup_append]
    refine ⟨h.2.1, h'.2.1, fun a ha b hb hab => ?_⟩
    have := h.2.2 a ha
    have := h'.2.2 b hb
    omega
  · intro i hi
    rcases List.mem_append.1 hi with hi | hi
    · have := h.2.2 i hi; have := h'.1; omega
    · have := h'.2.2 i hi; have := h.1; omega

theorem Fresh.fn {l : List Nat} {k k' : Nat} (h : Fresh l (k + 1) k') : Fresh (l ++ [k]) k k' := by
  refine ⟨by have := h.1; omega, ?_, ?_⟩
  · rw [List.nodup_append]
    refine ⟨h.2.1, by simp, fun a ha b hb hab => ?_⟩
    have := h.2.2 a ha
    simp at hb
    omega
  · intro i hi
    rcases List.mem_append.1 hi with hi | hi
    · have := h.2.2 i hi; omega
    · simp at hi; have := h.1; omega

theorem FExprs.one_ids {es : FExprs} {e : FExpr} (h : es.one = some e) : es.ids = e.ids := by
  unfold FExprs.one at h
  split at h <;> cases h
  simp [FExprs.ids]

theorem FExpr.named_ids {x : Name} {e : FExpr} {s : FStmt} (h : e.named x = some s) : s.ids = e.ids := by
  unfold FExpr.named at h
  split at h <;> cases h
  simp [FExpr.ids, FStmt.ids]

theorem ctxOf_ids {n : Int} {e c : FExpr} (h : ctxOf n e = some c) : c.ids = e.ids := by
  unfold ctxOf at h
  split at h
  · cases h; rw [FExpr.ids]
  · split at h <;> cases h
    rw [FExpr.ids]

theorem declOf_ids (t : Bool × Name) (e : FExpr) : (declOf t e).ids = e.ids := by
  unfold declOf; split <;> rw [FStmt.ids]

theorem declsOf_ids {ls : List Node} {es : FExprs} {s : FStmt} (h : declsOf ls es = some s) : s.ids = es.ids := by
  unfold declsOf at h
  split at h
  · rw [Option.bind_eq_some_iff] at h
    obtain ⟨e, he, h⟩ := h
    cases h
    rw [declOf_ids, FExprs.one_ids he]
  · rw [Option.bind_eq_some_iff] at h
    obtain ⟨ts, -, h⟩ := h
    split at h <;> cases h
    rw [FStmt.ids]

mutual
theorem fexpr_fresh : ∀ (n : Node) (k : Nat) (r : FExpr × Nat), n.fexpr k = some r → Fresh r.1.ids k r.2
  | .undef, k, r, h => by simp only [Node.fexpr, Option.some.injEq] at h; subst h; rw [FExpr.ids]; exact .nil _
  | .bool b, k, r, h => by simp only [Node.fexpr, Option.some.injEq] at h; subst h; rw [FExpr.ids]; exact .nil _
  | .int b, k, r, h => by simp only [Node.fexpr, Option.some.injEq] at h; subst h; rw [FExpr.ids]; exact .nil _
  | .float b, k, r, h => by simp only [Node.fexpr, Option.some.injEq] at h; subst h; rw [FExpr.ids]; exact .nil _
  | .str b, k, r, h => by simp only [Node.fexpr, Option.some.injEq] at h; subst h; rw [FExpr.ids]; exact .nil _
  | .var b, k, r, h => by simp only [Node.fexpr, Option.some.injEq] at h; subst h; rw [FExpr.ids]; exact .nil _
  | .un t e, k, r, h => by
    simp only [Node.fexpr, Option.bind_eq_some_iff, Option.some.injEq] at h
    obtain ⟨o, -, a, ha, rfl⟩ := h
    rw [FExpr.ids]; exact fexpr_fresh e k a ha
  | .bin t l r, k, q, h => by
    simp only [Node.fexpr, Option.bind_eq_some_iff, Option.some.injEq] at h
    obtain ⟨o, -, a, ha, b, hb, rfl⟩ := h
    rw [FExpr.ids]; exact (fexpr_fresh l k a ha).append (fexpr_fresh r _ b hb)
  | .tri c a b, k, q, h => by
    simp only [Node.fexpr, Option.bind_eq_some_iff, Option.some.injEq] at h
    obtain ⟨x, hx, y, hy, z, hz, rfl⟩ := h
    rw [FExpr.ids]; exact (fexpr_fresh c k x hx).append ((fexpr_fresh a _ y hy).append (fexpr_fresh b _ z hz))
  | .list es, k, q, h => by
    simp only [Node.fexpr, Option.bind_eq_some_iff, Option.some.injEq] at h
    obtain ⟨a, ha, rfl⟩ := h
    rw [FExpr.ids]; exact fexprs_fresh es k a ha
  | .table es, k, q, h => by
    simp only [Node.fexpr, Option.bind_eq_some_iff, Option.some.injEq] at h
    obtain ⟨a, ha, rfl⟩ := h
    rw [FExpr.ids]; exact fexprs_fresh es k a ha
  | .get c i, k, q, h => by
    simp only [Node.fexpr, Option.bind_eq_some_iff, Option.some.injEq] at h
    obtain ⟨a, ha, b, hb, rfl⟩ := h
    rw [FExpr.ids]; exact (fexpr_fresh c k a ha).append (fexpr_fresh i _ b hb)
  | .slice c a b, k, q, h => by
    simp only [Node.fexpr, Option.bind_eq_some_iff, Option.some.injEq] at h
    obtain ⟨x, hx, y, hy, z, hz, rfl⟩ := h
    rw [FExpr.ids]; exact (fexpr_fresh c k x hx).append ((fexpr_fresh a _ y hy).append (fexpr_fresh b _ z hz))
  | .call f as, k, q, h => by
    simp only [Node.fexpr, Option.bind_eq_some_iff, Option.some.injEq] at h
    obtain ⟨a, ha, b, hb, rfl⟩ := h
    rw [FExpr.ids]; exact (fexpr_fresh f k a ha).append (fexprs_fresh as _ b hb)
  | .mcall f m as, k, q, h => by
    simp only [Node.fexpr, Option.bind_eq_some_iff, Option.some.injEq] at h
    obtain ⟨a, ha, b, hb, rfl⟩ := h
    rw [FExpr.ids]; exact (fexpr_fresh f k a ha).append (fexprs_fresh as _ b hb)
  | .variadic e n, k, q, h => by
    simp only [Node.fexpr, Option.bind_eq_some_iff, Option.some.injEq] at h
    obtain ⟨a, ha, b, hb, rfl⟩ := h
    dsimp only
    rw [ctxOf_ids hb]; exact fexpr_fresh e k a ha
  | .fn ps body nm, k, q, h => by
    simp only [Node.fexpr, Option.bind_eq_some_iff, Option.some.injEq] at h
    obtain ⟨xs, -, b, hb, rfl⟩ := h
    rw [FExpr.ids]; exact (fstmts_fresh body _ b hb).fn
  | .export_ _, _, _, h | .exprStmt _, _, _, h | .decl _ _, _, _, h | .let_ _ _, _, _, h | .const_ _ _, _, _, h | .assign _ _, _, _, h | .set _ _ _, _, _, h
  | .echo _, _, _, h | .assert _, _, _, h | .ret _, _, _, h | .block _, _, _, h | .if_ _ _ _, _, _, h | .while_ _ _ _, _, _, h | .forIter _ _, _, _, h
  | .letIter _ _, _, _, h | .brk, _, _, h | .cont, _, _, h | .multiRet _, _, _, h | .match_ _ _ _ _, _, _, h | .listComp _ _ _, _, _, h
  | .tableComp _ _ _, _, _, h | .null, _, _, h => by simp [Node.fexpr] at h
theorem fexprs_fresh : ∀ (ns : List Node) (k : Nat) (r : FExprs × Nat), fexprsOf ns k = some r → Fresh r.1.ids k r.2
  | [], k, r, h => by simp only [fexprsOf, Option.some.injEq] at h; subst h; rw [FExprs.ids]; exact .nil _
  | n :: ns, k, r, h => by
    simp only [fexprsOf, Option.bind_eq_some_iff, Option.some.injEq] at h
    obtain ⟨a, ha, b, hb, rfl⟩ := h
    rw [FExprs.ids]; exact (fexpr_fresh n k a ha).append (fexprs_fresh ns _ b hb)
theorem fstmt_fresh : ∀ (n : Node) (k : Nat) (r : FStmt × Nat), n.fstmt k = some r → Fresh r.1.ids k r.2
  | .exprStmt e, k, r, h => by
    simp only [Node.fstmt] at h
    split at h
    · exact fstmt_fresh e k r h
    · simp only [Option.bind_eq_some_iff, Option.some.injEq] at h
      obtain ⟨a, ha, rfl⟩ := h
      rw [FStmt.ids]; exact fexpr_fresh e k a ha
  | .echo e, k, r, h => by
    simp only [Node.fstmt, Option.bind_eq_some_iff, Option.some.injEq] at h
    obtain ⟨a, ha, rfl⟩ := h
    rw [FStmt.ids]; exact fexpr_fresh e k a ha
  | .assert e, k, r, h => by
    simp only [Node.fstmt, Option.bind_eq_some_iff, Option.some.injEq] at h
    obtain ⟨a, ha, rfl⟩ := h
    rw [FStmt.ids]; exact fexpr_fresh e k a ha
  | .ret e, k, r, h => by
    simp only [Node.fstmt, Option.bind_eq_some_iff, Option.some.injEq] at h
    obtain ⟨a, ha, rfl⟩ := h
    rw [FStmt.ids]; exact fexpr_fresh e k a ha
  | .assign x (some e), k, r, h => by
    simp only [Node.fstmt, Option.bind_eq_some_iff, Option.some.injEq] at h
    obtain ⟨a, ha, rfl⟩ := h
    rw [FStmt.ids]; exact fexpr_fresh e k a ha
  | .let_ x (some e), k, r, h => by
    simp only [Node.fstmt, Option.bind_eq_some_iff, Option.some.injEq] at h
    obtain ⟨a, ha, s, hs, rfl⟩ := h
    dsimp only
    split at hs
    · rw [FExpr.named_ids hs]; exact fexpr_fresh e k a ha
    · cases hs; rw [FStmt.ids]; exact fexpr_fresh e k a ha
  | .decl ls rs, k, r, h => by
    simp only [Node.fstmt, Option.bind_eq_some_iff, Option.some.injEq] at h
    obtain ⟨a, ha, s, hs, rfl⟩ := h
    dsimp only
    rw [declsOf_ids hs]; exact fexprs_fresh rs k a ha
  | .set c i (some v), k, r, h => by
    simp only [Node.fstmt, Option.bind_eq_some_iff, Option.some.injEq] at h
    obtain ⟨x, hx, y, hy, z, hz, rfl⟩ := h
    rw [FStmt.ids]; exact (fexpr_fresh c k x hx).append ((fexpr_fresh i _ y hy).append (fexpr_fresh v _ z hz))
  | .block ss, k, r, h => by
    simp only [Node.fstmt, Option.bind_eq_some_iff, Option.some.injEq] at h
    obtain ⟨a, ha, rfl⟩ := h
    rw [FStmt.ids]; exact fstmts_fresh ss k a ha
  | .if_ c t none, k, r, h => by
    simp only [Node.fstmt, Option.bind_eq_some_iff, Option.some.injEq] at h
    obtain ⟨x, hx, y, hy, rfl⟩ := h
    rw [FStmt.ids]; exact (fexpr_fresh c k x hx).append (fstmt_fresh t _ y hy)
  | .if_ c t (some e), k, r, h => by
    simp only [Node.fstmt, Option.bind_eq_some_iff, Option.some.injEq] at h
    obtain ⟨x, hx, y, hy, z, hz, rfl⟩ := h
    rw [FStmt.ids]; exact (fexpr_fresh c k x hx).append ((fstmt_fresh t _ y hy).append (fstmt_fresh e _ z hz))
  | .while_ c b none, k, r, h => by
    simp only [Node.fstmt, Option.bind_eq_some_iff, Option.some.injEq] at h
    obtain ⟨x, hx, y, hy, rfl⟩ := h
    rw [FStmt.ids]; exact (fexpr_fresh c k x hx).append (fstmt_fresh b _ y hy)
  | .while_ c b (some p), k, r, h => by
    simp only [Node.fstmt, Option.bind_eq_some_iff, Option.some.injEq] at h
    obtain ⟨z, hz, x, hx, y, hy, rfl⟩ := h
    rw [FStmt.ids]; exact (fstmt_fresh p k z hz).append ((fexpr_fresh c _ x hx).append (fstmt_fresh b _ y hy))
  | .brk, k, r, h => by simp only [Node.fstmt, Option.some.injEq] at h; subst h; rw [FStmt.ids]; exact .nil _
  | .cont, k, r, h => by simp only [Node.fstmt, Option.some.injEq] at h; subst h; rw [FStmt.ids]; exact .nil _
  | .undef, _, _, h | .bool _, _, _, h | .int _, _, _, h | .float _, _, _, h | .str _, _, _, h | .var _, _, _, h | .un _ _, _, _, h | .bin _ _ _, _, _, h
  | .tri _ _ _, _, _, h | .list _, _, _, h | .table _, _, _, h | .get _ _, _, _, h | .slice _ _ _, _, _, h | .call _ _, _, _, h | .mcall _ _ _, _, _, h
  | .variadic _ _, _, _, h | .fn _ _ _, _, _, h | .export_ _, _, _, h | .let_ _ none, _, _, h | .const_ _ _, _, _, h | .assign _ none, _, _, h
  | .set _ _ none, _, _, h | .letIter _ _, _, _, h | .multiRet _, _, _, h | .match_ _ _ _ _, _, _, h
  | .listComp _ _ _, _, _, h | .tableComp _ _ _, _, _, h | .null, _, _, h => by simp [Node.fstmt] at h
  | .forIter i b, k, r, h => by
    cases i with
    | letIter x coll =>
      simp only [Node.fstmt, Option.bind_eq_some_iff, Option.some.injEq] at h
      obtain ⟨x, hx, y, hy, rfl⟩ := h
      rw [FStmt.ids]; exact (fexpr_fresh coll k x hx).append (fstmt_fresh b _ y hy)
    | _ => simp [Node.fstmt] at h
theorem fstmts_fresh : ∀ (ns : List Node) (k : Nat) (r : FStmts × Nat), fstmtsOf ns k = some r → Fresh r.1.ids k r.2
  | [], k, r, h => by simp only [fstmtsOf, Option.some.injEq] at h; subst h; rw [FStmts.ids]; exact .nil _
  | n :: ns, k, r, h => by
    simp only [fstmtsOf, Option.bind_eq_some_iff, Option.some.injEq] at h
    obtain ⟨a, ha, b, hb, rfl⟩ := h
    rw [FStmts.ids]; exact (fstmt_fresh n k a ha).append (fstmts_fresh ns _ b hb)
end

end Yasl
