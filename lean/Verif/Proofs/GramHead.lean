import Verif.Proofs.NodeFold
import Verif.Proofs.Gram
set_option autoImplicit false
/-! # A statement that starts with `fn` is not a statement of the compiler model -/
namespace Yasl

/-- The nodes that an expression can be. -/
def Node.isExpr : Node → Bool
  | .undef | .bool _ | .int _ | .float _ | .str _ | .var _ | .un _ _ | .bin _ _ _ | .tri _ _ _ | .list _ | .table _ | .listComp _ _ _ | .tableComp _ _ _
  | .get _ _ | .slice _ _ _ | .call _ _ | .mcall _ _ _ | .fn _ _ _ | .set _ _ _ => true
  | _ => false

/-- A tree of the compiler model, or an assignment to an element of one. -/
def Node.InModel (n : Node) : Prop := (∃ e, n.expr = some e) ∨ ∃ c k v e, n = .set c k v ∧ c.expr = some e

/-- What is needed of the rewriting of expressions. -/
structure KeepsShape (fold : Node → Option Node) : Prop where
  isExpr : ∀ n n', fold n = some n' → n.isExpr = true → n'.isExpr = true
  inModel : ∀ n n', fold n = some n' → n'.InModel → n.InModel

theorem KeepsShape.none : KeepsShape some :=
  ⟨fun n n' h hn => by simp only [Option.some.injEq] at h; rw [← h]; exact hn, fun n n' h hn => by simp only [Option.some.injEq] at h; rw [h]; exact hn⟩

theorem KeepsShape.folding (F : FloatOps) : KeepsShape (foldNode F) where
  isExpr n n' h hn := by
    cases n <;> simp only [Node.isExpr, reduceCtorEq] at hn <;> simp only [foldNode, Option.bind_eq_some_iff, Option.some.injEq] at h <;>
      first
      | (subst h; rfl)
      | (obtain ⟨_, _, h⟩ := h; subst h; rfl)
      | (obtain ⟨_, _, _, _, h⟩ := h; subst h; rfl)
      | (obtain ⟨_, _, _, _, _, _, h⟩ := h; subst h; rfl)
      | skip
    · obtain ⟨a, -, h⟩ := h
      unfold foldUnNode at h
      split at h
      · simp only [Option.map_eq_some_iff] at h
        obtain ⟨e, -, rfl⟩ := h
        cases e <;> rfl
      · simp only [Option.some.injEq] at h; subst h; rfl
    · obtain ⟨a, -, b, -, h⟩ := h
      unfold foldBinNode at h
      split at h
      · simp only [Option.map_eq_some_iff] at h
        obtain ⟨e, -, rfl⟩ := h
        cases e <;> rfl
      · simp only [Option.some.injEq] at h; subst h; rfl
  inModel n n' h hn := by
    rcases hn with ⟨e, he⟩ | ⟨c, k, v, e, rfl, he⟩
    · exact .inl (foldNode_back h he)
    · cases n <;> simp only [foldNode, Option.bind_eq_some_iff, Option.some.injEq, reduceCtorEq, and_false, exists_false] at h
      · obtain ⟨a, -, h⟩ := h
        unfold foldUnNode at h
        split at h
        · simp only [Option.map_eq_some_iff] at h
          obtain ⟨e, -, h⟩ := h
          cases e <;> cases h
        · cases h
      · obtain ⟨a, -, b, -, h⟩ := h
        unfold foldBinNode at h
        split at h
        · simp only [Option.map_eq_some_iff] at h
          obtain ⟨e, -, h⟩ := h
          cases e <;> cases h
        · cases h
      · obtain ⟨c', h1, k', -, v', -, h⟩ := h
        simp only [Node.set.injEq] at h
        obtain ⟨rfl, rfl, rfl⟩ := h
        obtain ⟨x, hx⟩ := foldNode_back h1 he
        exact .inr ⟨_, _, _, _, rfl, hx⟩

/-- A phrase that is a tree of the compiler model does not start with `fn`. -/
def NoFn (ts : List TextItem) (n : Node) : Prop := n.isExpr = true ∧ (n.InModel → ∀ rest, ts ≠ .op .fn :: rest)

/-- The same, for expressions. -/
def NoFnCat : (c : Cat) → List TextItem → c.Res → Prop
  | .expr, ts, n => NoFn ts n
  | .tern, ts, n => NoFn ts n
  | .bin _, ts, n => NoFn ts n
  | .unary, ts, n => NoFn ts n
  | .power, ts, n => NoFn ts n
  | .post, ts, n => NoFn ts n
  | .atom, ts, n => NoFn ts n
  | _, _, _ => True

theorem NoFn.append {ts us : List TextItem} {n m : Node} (h : NoFn ts n) (hs : ts ≠ []) (hm : m.isExpr = true) (hn : m.InModel → n.InModel) : NoFn (ts ++ us) m := by
  refine ⟨hm, fun h1 rest e => ?_⟩
  cases ts with
  | nil => exact hs rfl
  | cons i ts =>
    simp only [List.cons_append, List.cons.injEq] at e
    exact h.2 (hn h1) ts (by rw [e.1])

theorem NoFn.cons {i : TextItem} {us : List TextItem} {m : Node} (h : i ≠ .op .fn) (hm : m.isExpr = true) : NoFn (i :: us) m :=
  ⟨hm, fun _ rest e => by simp only [List.cons.injEq] at e; exact h e.1⟩

theorem interpolated_isExpr (v : List Byte) (ps : List (Node × List Byte)) : (interpolated v ps).isExpr = true := by
  have : ∀ n : Node, n.isExpr = true → (ps.foldl (fun n p => Node.bin .tilde (.bin .tilde n p.1) (.str p.2)) n).isExpr = true := by
    induction ps with
    | nil => intro n h; exact h
    | cons p ps ih => intro n h; exact ih _ rfl
  exact this _ rfl

theorem InModel.bin {t : Tok} {l r : Node} (h : (Node.bin t l r).InModel) : l.InModel := by
  rcases h with ⟨e, h⟩ | ⟨c, k, v, e, h, -⟩
  · simp only [Node.expr, Option.bind_eq_some_iff] at h
    obtain ⟨_, _, x, hx, _⟩ := h
    exact .inl ⟨x, hx⟩
  · cases h

theorem InModel.tri {c a b : Node} (h : (Node.tri c a b).InModel) : c.InModel := by
  rcases h with ⟨e, h⟩ | ⟨c, k, v, e, h, -⟩
  · simp only [Node.expr, Option.bind_eq_some_iff] at h
    obtain ⟨x, hx, _⟩ := h
    exact .inl ⟨x, hx⟩
  · cases h

theorem InModel.get {c k : Node} (h : (Node.get c k).InModel) : c.InModel := by
  rcases h with ⟨e, h⟩ | ⟨c, k, v, e, h, -⟩
  · simp only [Node.expr, Option.bind_eq_some_iff] at h
    obtain ⟨x, hx, _⟩ := h
    exact .inl ⟨x, hx⟩
  · cases h

theorem InModel.slice {c a b : Node} (h : (Node.slice c a b).InModel) : c.InModel := by
  rcases h with ⟨e, h⟩ | ⟨c, k, v, e, h, -⟩
  · simp only [Node.expr, Option.bind_eq_some_iff] at h
    obtain ⟨x, hx, _⟩ := h
    exact .inl ⟨x, hx⟩
  · cases h

theorem InModel.set {c k : Node} {v : Option Node} (h : (Node.set c k v).InModel) : c.InModel := by
  rcases h with ⟨e, h⟩ | ⟨c, k, v, e, h, h'⟩
  · simp [Node.expr] at h
  · simp only [Node.set.injEq] at h
    obtain ⟨rfl, -⟩ := h
    exact .inl ⟨_, h'⟩

theorem InModel.call {f : Node} {as : List Node} : ¬ (Node.call f as).InModel := by
  rintro (⟨e, h⟩ | ⟨c, k, v, e, h, -⟩)
  · simp [Node.expr] at h
  · cases h

theorem InModel.mcall {f : Node} {m : Name} {as : List Node} : ¬ (Node.mcall f m as).InModel := by
  rintro (⟨e, h⟩ | ⟨c, k, v, e, h, -⟩)
  · simp [Node.expr] at h
  · cases h

theorem InModel.fn {ps ss : List Node} {x : Option Name} : ¬ (Node.fn ps ss x).InModel := by
  rintro (⟨e, h⟩ | ⟨c, k, v, e, h, -⟩)
  · simp [Node.expr] at h
  · cases h

theorem gram_head {flt : List Byte → BitVec 64} {fold : Node → Option Node} (hf : KeepsShape fold) {c : Cat} {ts : List TextItem} {r : c.Res}
    (h : Gram flt fold c ts r) : NoFnCat c ts r := by
  have hne : ∀ {c : Cat} {ts : List TextItem} {r : c.Res}, Gram flt fold c ts r → StartsCat c ts := gram_starts
  induction h with
  | expr _ hfold ih => exact ⟨hf.isExpr _ _ hfold ih.1, fun hm => ih.2 (hf.inModel _ _ hfold hm)⟩
  | ternOne _ ih => exact ih
  | tern h _ _ ih _ _ => obtain ⟨i, rest, rfl, -⟩ := Starts.ex (hne h); exact NoFn.append ih (by simp) rfl InModel.tri
  | binUp _ _ ih => exact ih
  | binLeft _ h _ ih _ => obtain ⟨i, rest, rfl, -⟩ := Starts.ex (hne h); exact NoFn.append ih (by simp) rfl InModel.bin
  | binRight _ h _ ih _ => obtain ⟨i, rest, rfl, -⟩ := Starts.ex (hne h); exact NoFn.append ih (by simp) rfl InModel.bin
  | binUnary _ ih => exact ih
  | unaryOne _ ih => exact ih
  | @unary ts e t ht _ ih => exact NoFn.cons (by rintro e; cases e; revert ht; decide) rfl
  | powerOne _ ih => exact ih
  | power h _ ih _ => obtain ⟨i, rest, rfl, -⟩ := Starts.ex (hne h); exact NoFn.append ih (by simp) rfl InModel.bin
  | postOne _ ih => exact ih
  | call _ _ ih _ => exact ⟨rfl, fun h => absurd h InModel.call⟩
  | mcall _ _ _ ih _ _ => exact ⟨rfl, fun h => absurd h InModel.mcall⟩
  | dot h _ ih _ => obtain ⟨i, rest, rfl, -⟩ := Starts.ex (hne h); exact NoFn.append ih (by simp) rfl InModel.get
  | dotCall h _ ih _ => obtain ⟨i, rest, rfl, -⟩ := Starts.ex (hne h); exact NoFn.append ih (by simp) rfl InModel.set
  | index h _ ih _ => obtain ⟨i, rest, rfl, -⟩ := Starts.ex (hne h); exact NoFn.append ih (by simp) rfl InModel.get
  | slice h _ _ ih _ _ => obtain ⟨i, rest, rfl, -⟩ := Starts.ex (hne h); exact NoFn.append ih (by simp) rfl InModel.slice
  | sliceFrom h _ ih _ => obtain ⟨i, rest, rfl, -⟩ := Starts.ex (hne h); exact NoFn.append ih (by simp) rfl InModel.slice
  | sliceTo h _ ih _ => obtain ⟨i, rest, rfl, -⟩ := Starts.ex (hne h); exact NoFn.append ih (by simp) rfl InModel.slice
  | sliceAll h ih => obtain ⟨i, rest, rfl, -⟩ := Starts.ex (hne h); exact NoFn.append ih (by simp) rfl InModel.slice
  | paren _ ih => exact NoFn.cons (by simp) ih.1
  | fn _ _ _ => exact ⟨rfl, fun h => absurd h InModel.fn⟩
  | string h _ =>
    cases h with
    | strEnd => exact NoFn.cons (by simp) (interpolated_isExpr _ _)
    | strMore _ _ => exact NoFn.cons (by simp) (interpolated_isExpr _ _)
  | field | var | int | float | bool | undef | listEmpty | list _ _ _ _ _ _ | listComp _ _ _ _ _ _ _ _ | tableEmpty | table _ _ _ _ _ _ _ _
  | tableComp _ _ _ _ _ _ _ _ _ _ => exact NoFn.cons (by simp) rfl
  | _ => trivial

theorem fnExpr_none {flt : List Byte → BitVec 64} {fold : Node → Option Node} (hf : KeepsShape fold) {ts : List TextItem} {e : Node}
    (h : Gram flt fold .expr (.op .fn :: ts) e) : e.stmt = none := by
  have h1 : NoFn _ e := gram_head hf h
  by_contra hc
  cases e with
  | set c k v =>
    refine h1.2 ?_ _ rfl
    cases v with
    | none => simp [Node.stmt] at hc
    | some v =>
      have : ∃ s, (Node.set c k (some v)).stmt = some s := Option.ne_none_iff_exists'.1 hc
      obtain ⟨s, hs⟩ := this
      simp only [Node.stmt, Option.bind_eq_some_iff] at hs
      obtain ⟨x, hx, -⟩ := hs
      exact .inr ⟨_, _, _, _, rfl, hx⟩
  | _ => first | (simp [Node.stmt] at hc; done) | (have := h1.1; simp [Node.isExpr] at this)

end Yasl
