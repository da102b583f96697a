import Verif.Model.NodeFold
import Verif.Spec.Grammar
import Mathlib.Data.List.Forall2
set_option autoImplicit false
/-!
# Folding while parsing is folding afterwards, for all trees

`Red F .node n n'`: the tree `n'` is `n` with some constant operations replaced by their values, anywhere.
-/
namespace Yasl

/-- Trees, lists of trees, optional trees; and lists of these. -/
inductive NCat where
  | node | nodes | opt | opts | bodies

/-- The things of a category. -/
def NCat.T : NCat → Type
  | .node => Node
  | .nodes => List Node
  | .opt => Option Node
  | .opts => List (Option Node)
  | .bodies => List (List Node)

/-- Some constant operations are replaced by their values. -/
inductive Red (F : FloatOps) : (c : NCat) → c.T → c.T → Prop where
  | refl {c : NCat} (x : c.T) : Red F c x x
  | trans {c : NCat} {x y z : c.T} : Red F c x y → Red F c y z → Red F c x z
  | foldBin {t : Tok} {l r n : Node} : foldBinNode F t l r = some n → Red F .node (Node.bin t l r) n
  | foldUn {t : Tok} {e n : Node} : foldUnNode t e = some n → Red F .node (Node.un t e) n
  | cons {n n' : Node} {ns ns' : List Node} : Red F .node n n' → Red F .nodes ns ns' → Red F .nodes (List.cons n ns) (List.cons n' ns')
  | some {n n' : Node} : Red F .node n n' → Red F .opt (Option.some n) (Option.some n')
  | optsCons {n n' : Option Node} {ns ns' : List (Option Node)} : Red F .opt n n' → Red F .opts ns ns' → Red F .opts (List.cons n ns) (List.cons n' ns')
  | bodiesCons {n n' : List Node} {ns ns' : List (List Node)} : Red F .nodes n n' → Red F .bodies ns ns' → Red F .bodies (List.cons n ns) (List.cons n' ns')
  | un {t : Tok} {e e' : Node} : Red F .node e e' → Red F .node (Node.un t e) (Node.un t e')
  | bin {t : Tok} {l l' r r' : Node} : Red F .node l l' → Red F .node r r' → Red F .node (Node.bin t l r) (Node.bin t l' r')
  | tri {c c' a a' b b' : Node} : Red F .node c c' → Red F .node a a' → Red F .node b b' → Red F .node (Node.tri c a b) (Node.tri c' a' b')
  | list {es es' : List Node} : Red F .nodes es es' → Red F .node (Node.list es) (Node.list es')
  | table {es es' : List Node} : Red F .nodes es es' → Red F .node (Node.table es) (Node.table es')
  | listComp {e e' i i' : Node} {c c' : Option Node} : Red F .node e e' → Red F .node i i' → Red F .opt c c' →
      Red F .node (Node.listComp e i c) (Node.listComp e' i' c')
  | tableComp {e e' : List Node} {i i' : Node} {c c' : Option Node} : Red F .nodes e e' → Red F .node i i' → Red F .opt c c' →
      Red F .node (Node.tableComp e i c) (Node.tableComp e' i' c')
  | get {c c' k k' : Node} : Red F .node c c' → Red F .node k k' → Red F .node (Node.get c k) (Node.get c' k')
  | slice {c c' a a' b b' : Node} : Red F .node c c' → Red F .node a a' → Red F .node b b' → Red F .node (Node.slice c a b) (Node.slice c' a' b')
  | call {f f' : Node} {as as' : List Node} : Red F .node f f' → Red F .nodes as as' → Red F .node (Node.call f as) (Node.call f' as')
  | mcall {o o' : Node} {m : Name} {as as' : List Node} : Red F .node o o' → Red F .nodes as as' → Red F .node (Node.mcall o m as) (Node.mcall o' m as')
  | variadic {e e' : Node} {k : Int} : Red F .node e e' → Red F .node (Node.variadic e k) (Node.variadic e' k)
  | fn {ps ss ss' : List Node} {x : Option Name} : Red F .nodes ss ss' → Red F .node (Node.fn ps ss x) (Node.fn ps ss' x)
  | set {c c' k k' : Node} {v v' : Option Node} : Red F .node c c' → Red F .node k k' → Red F .opt v v' → Red F .node (Node.set c k v) (Node.set c' k' v')
  | exprStmt {e e' : Node} : Red F .node e e' → Red F .node (Node.exprStmt e) (Node.exprStmt e')
  | echo {e e' : Node} : Red F .node e e' → Red F .node (Node.echo e) (Node.echo e')
  | assert {e e' : Node} : Red F .node e e' → Red F .node (Node.assert e) (Node.assert e')
  | export_ {e e' : Node} : Red F .node e e' → Red F .node (Node.export_ e) (Node.export_ e')
  | ret {e e' : Node} : Red F .node e e' → Red F .node (Node.ret e) (Node.ret e')
  | multiRet {es es' : List Node} : Red F .nodes es es' → Red F .node (Node.multiRet es) (Node.multiRet es')
  | decl {ls ls' rs rs' : List Node} : Red F .nodes ls ls' → Red F .nodes rs rs' → Red F .node (Node.decl ls rs) (Node.decl ls' rs')
  | let_ {x : Name} {e e' : Option Node} : Red F .opt e e' → Red F .node (Node.let_ x e) (Node.let_ x e')
  | const_ {x : Name} {e e' : Option Node} : Red F .opt e e' → Red F .node (Node.const_ x e) (Node.const_ x e')
  | assign {x : Name} {e e' : Option Node} : Red F .opt e e' → Red F .node (Node.assign x e) (Node.assign x e')
  | letIter {x : Name} {e e' : Node} : Red F .node e e' → Red F .node (Node.letIter x e) (Node.letIter x e')
  | forIter {i i' b b' : Node} : Red F .node i i' → Red F .node b b' → Red F .node (Node.forIter i b) (Node.forIter i' b')
  | while_ {c c' b b' : Node} {p p' : Option Node} : Red F .node c c' → Red F .node b b' → Red F .opt p p' → Red F .node (Node.while_ c b p) (Node.while_ c' b' p')
  | if_ {c c' t t' : Node} {e e' : Option Node} : Red F .node c c' → Red F .node t t' → Red F .opt e e' → Red F .node (Node.if_ c t e) (Node.if_ c' t' e')
  | match_ {e e' : Node} {ps : List PatNode} {gs gs' : List (Option Node)} {bs bs' : List (List Node)} : Red F .node e e' → Red F .opts gs gs' → Red F .bodies bs bs' →
      Red F .node (Node.match_ e ps gs bs) (Node.match_ e' ps gs' bs')
  | block {ss ss' : List Node} : Red F .nodes ss ss' → Red F .node (Node.block ss) (Node.block ss')

section
variable {F : FloatOps}

mutual
/-- What `fold` does is such a replacement. -/
theorem foldNode_red : ∀ {n n' : Node}, foldNode F n = Option.some n' → Red F .node n n'
  | .exprStmt e, n', h => by
    simp only [foldNode, Option.bind_eq_some_iff, Option.some.injEq] at h
    obtain ⟨a, h1, rfl⟩ := h; exact .exprStmt (foldNode_red h1)
  | .block ss, n', h => by
    simp only [foldNode, Option.bind_eq_some_iff, Option.some.injEq] at h
    obtain ⟨a, h1, rfl⟩ := h; exact .block (foldNodes_red h1)
  | .call f as, n', h => by
    simp only [foldNode, Option.bind_eq_some_iff, Option.some.injEq] at h
    obtain ⟨a, h1, b, h2, rfl⟩ := h; exact .call (foldNode_red h1) (foldNodes_red h2)
  | .mcall f m as, n', h => by
    simp only [foldNode, Option.bind_eq_some_iff, Option.some.injEq] at h
    obtain ⟨a, h1, b, h2, rfl⟩ := h; exact .mcall (foldNode_red h1) (foldNodes_red h2)
  | .set c k v, n', h => by
    simp only [foldNode, Option.bind_eq_some_iff, Option.some.injEq] at h
    obtain ⟨a, h1, b, h2, c, h3, rfl⟩ := h; exact .set (foldNode_red h1) (foldNode_red h2) (foldNodeOpt_red h3)
  | .get c k, n', h => by
    simp only [foldNode, Option.bind_eq_some_iff, Option.some.injEq] at h
    obtain ⟨a, h1, b, h2, rfl⟩ := h; exact .get (foldNode_red h1) (foldNode_red h2)
  | .slice c a b, n', h => by
    simp only [foldNode, Option.bind_eq_some_iff, Option.some.injEq] at h
    obtain ⟨a, h1, b, h2, c, h3, rfl⟩ := h; exact .slice (foldNode_red h1) (foldNode_red h2) (foldNode_red h3)
  | .listComp e i c, n', h => by
    simp only [foldNode, Option.bind_eq_some_iff, Option.some.injEq] at h
    obtain ⟨a, h1, b, h2, rfl⟩ := h; exact .listComp (foldNode_red h1) (.refl _) (foldNodeOpt_red h2)
  | .tableComp e i c, n', h => by
    simp only [foldNode, Option.bind_eq_some_iff, Option.some.injEq] at h
    obtain ⟨a, h1, b, h2, rfl⟩ := h; exact .tableComp (foldNodes_red h1) (.refl _) (foldNodeOpt_red h2)
  | .tri c a b, n', h => by
    simp only [foldNode, Option.bind_eq_some_iff, Option.some.injEq] at h
    obtain ⟨a, h1, b, h2, c, h3, rfl⟩ := h; exact .tri (foldNode_red h1) (foldNode_red h2) (foldNode_red h3)
  | .bin t l r, n', h => by
    simp only [foldNode, Option.bind_eq_some_iff] at h
    obtain ⟨a, h1, b, h2, h3⟩ := h; exact .trans (.bin (foldNode_red h1) (foldNode_red h2)) (.foldBin h3)
  | .un t e, n', h => by
    simp only [foldNode, Option.bind_eq_some_iff] at h
    obtain ⟨a, h1, h3⟩ := h; exact .trans (.un (foldNode_red h1)) (.foldUn h3)
  | .assign x e, n', h => by
    simp only [foldNode, Option.bind_eq_some_iff, Option.some.injEq] at h
    obtain ⟨a, h1, rfl⟩ := h; exact .assign (foldNodeOpt_red h1)
  | .list es, n', h => by
    simp only [foldNode, Option.bind_eq_some_iff, Option.some.injEq] at h
    obtain ⟨a, h1, rfl⟩ := h; exact .list (foldNodes_red h1)
  | .table es, n', h => by
    simp only [foldNode, Option.bind_eq_some_iff, Option.some.injEq] at h
    obtain ⟨a, h1, rfl⟩ := h; exact .table (foldNodes_red h1)
  | .undef, _, h | .bool _, _, h | .int _, _, h | .float _, _, h | .str _, _, h | .var _, _, h | .variadic _ _, _, h | .fn _ _ _, _, h | .echo _, _, h
  | .assert _, _, h | .export_ _, _, h | .ret _, _, h | .multiRet _, _, h | .decl _ _, _, h | .let_ _ _, _, h | .const_ _ _, _, h | .letIter _ _, _, h
  | .forIter _ _, _, h | .while_ _ _ _, _, h | .if_ _ _ _, _, h | .match_ _ _ _ _, _, h | .brk, _, h | .cont, _, h | .null, _, h => by
    simp only [foldNode, Option.some.injEq] at h; subst h; exact .refl _
theorem foldNodes_red : ∀ {ns ns' : List Node}, foldNodes F ns = Option.some ns' → Red F .nodes ns ns'
  | [], ns', h => by simp only [foldNodes, Option.some.injEq] at h; subst h; exact .refl _
  | n :: ns, ns', h => by
    simp only [foldNodes, Option.bind_eq_some_iff, Option.some.injEq] at h
    obtain ⟨a, h1, b, h2, rfl⟩ := h; exact .cons (foldNode_red h1) (foldNodes_red h2)
theorem foldNodeOpt_red : ∀ {n n' : Option Node}, foldNodeOpt F n = Option.some n' → Red F .opt n n'
  | none, n', h => by simp only [foldNodeOpt, Option.some.injEq] at h; subst h; exact .refl _
  | Option.some n, n', h => by
    simp only [foldNodeOpt, Option.bind_eq_some_iff, Option.some.injEq] at h
    obtain ⟨a, h1, rfl⟩ := h; exact .some (foldNode_red h1)
end

theorem foldBinNode_shape {t : Tok} {l r n : Node} (h : foldBinNode F t l r = Option.some n) :
    n = .bin t l r ∨ (∃ e, n = Expr.constNode (.bin t l r) e) := by
  unfold foldBinNode at h
  split at h
  · rw [Option.map_eq_some_iff] at h; obtain ⟨e, -, rfl⟩ := h; exact .inr ⟨e, rfl⟩
  · simp only [Option.some.injEq] at h; exact .inl h.symm

theorem foldUnNode_shape {t : Tok} {l n : Node} (h : foldUnNode t l = Option.some n) : n = .un t l ∨ (∃ e, n = Expr.constNode (.un t l) e) := by
  unfold foldUnNode at h
  split at h
  · rw [Option.map_eq_some_iff] at h; obtain ⟨e, -, rfl⟩ := h; exact .inr ⟨e, rfl⟩
  · simp only [Option.some.injEq] at h; exact .inl h.symm

/-- What is known of the tree as written. -/
def RedInv (F : FloatOps) : (c : NCat) → c.T → c.T → Prop
  | .node, n, n' => (∀ x, n' = Node.var x → n = Node.var x) ∧
      (∀ c' k', n' = Node.get c' k' → ∃ c k, n = Node.get c k ∧ Red F .node c c' ∧ Red F .node k k') ∧
      (∀ f' as', n' = Node.call f' as' → ∃ f as, n = Node.call f as ∧ Red F .node f f' ∧ Red F .nodes as as') ∧
      Node.varExpands n = Node.varExpands n'
  | .nodes, ns, ns' => (ns' = [] → ns = []) ∧ (∀ a b, ns' = a :: b → ∃ c d, ns = List.cons c d ∧ Red F .node c a ∧ Red F .nodes d b) ∧
      List.length ns = List.length ns'
  | _, _, _ => True

theorem red_inv {c : NCat} {x y : c.T} (h : Red F c x y) : RedInv F c x y := by
  induction h with
  | @refl c x =>
    cases c with
    | node => exact ⟨fun _ h => h, fun c k h => ⟨c, k, h, .refl _, .refl _⟩, fun f as h => ⟨f, as, h, .refl _, .refl _⟩, rfl⟩
    | nodes => exact ⟨fun h => h, fun a b h => ⟨a, b, h, .refl _, .refl _⟩, rfl⟩
    | _ => trivial
  | @trans c x y z h1 h2 i1 i2 =>
    cases c with
    | node =>
      obtain ⟨a1, a2, a3, a4⟩ := i1
      obtain ⟨b1, b2, b3, b4⟩ := i2
      refine ⟨fun x h => a1 x (b1 x h), fun c k h => ?_, fun f as h => ?_, a4.trans b4⟩
      · obtain ⟨c1, k1, e1, e2, e3⟩ := b2 c k h
        obtain ⟨c2, k2, e4, e5, e6⟩ := a2 c1 k1 e1
        exact ⟨c2, k2, e4, .trans e5 e2, .trans e6 e3⟩
      · obtain ⟨c1, k1, e1, e2, e3⟩ := b3 f as h
        obtain ⟨c2, k2, e4, e5, e6⟩ := a3 c1 k1 e1
        exact ⟨c2, k2, e4, .trans e5 e2, .trans e6 e3⟩
    | nodes =>
      obtain ⟨a1, a2, a3⟩ := i1
      obtain ⟨b1, b2, b3⟩ := i2
      refine ⟨fun h => a1 (b1 h), fun a b h => ?_, a3.trans b3⟩
      obtain ⟨c1, k1, e1, e2, e3⟩ := b2 a b h
      obtain ⟨c2, k2, e4, e5, e6⟩ := a2 c1 k1 e1
      exact ⟨c2, k2, e4, .trans e5 e2, .trans e6 e3⟩
    | _ => trivial
  | foldBin h =>
    rcases foldBinNode_shape h with rfl | ⟨e, rfl⟩
    · simp [RedInv, Node.varExpands]
    · cases e <;> simp [RedInv, Node.varExpands, Expr.constNode]
  | foldUn h =>
    rcases foldUnNode_shape h with rfl | ⟨e, rfl⟩
    · simp [RedInv, Node.varExpands]
    · cases e <;> simp [RedInv, Node.varExpands, Expr.constNode]
  | cons h1 h2 i1 i2 =>
    refine ⟨by simp, ?_, ?_⟩
    · rintro a b h; cases h; exact ⟨_, _, rfl, h1, h2⟩
    · simp [i2.2.2]
  | some | optsCons | bodiesCons => trivial
  | get h1 h2 => refine ⟨by simp, ?_, by simp, rfl⟩; rintro a b h; cases h; exact ⟨_, _, rfl, h1, h2⟩
  | call h1 h2 => refine ⟨by simp, by simp, ?_, rfl⟩; rintro a b h; cases h; exact ⟨_, _, rfl, h1, h2⟩
  | _ => simp [RedInv, Node.varExpands]

theorem Red.var_inv {n : Node} {x : Name} (h : Red F .node n (Node.var x)) : n = .var x := (red_inv h).1 x rfl
theorem Red.get_inv {n c' k' : Node} (h : Red F .node n (Node.get c' k')) : ∃ c k, n = Node.get c k ∧ Red F .node c c' ∧ Red F .node k k' :=
  (red_inv h).2.1 c' k' rfl
theorem Red.call_inv {n f' : Node} {as' : List Node} (h : Red F .node n (Node.call f' as')) :
    ∃ f as, n = Node.call f as ∧ Red F .node f f' ∧ Red F .nodes as as' := (red_inv h).2.2.1 f' as' rfl
theorem Red.expands {n n' : Node} (h : Red F .node n n') : n.varExpands = n'.varExpands := (red_inv h).2.2.2
theorem Red.nil_inv {ns : List Node} (h : Red F .nodes ns ([] : List Node)) : ns = [] := (red_inv h).1 rfl
theorem Red.cons_inv {ns ns' : List Node} {n' : Node} (h : Red F .nodes ns (n' :: ns')) : ∃ c d, ns = c :: d ∧ Red F .node c n' ∧ Red F .nodes d ns' :=
  (red_inv h).2.1 n' ns' rfl
theorem Red.length {ns ns' : List Node} (h : Red F .nodes ns ns') : ns.length = ns'.length := (red_inv h).2.2

theorem lastSpread_one (k : Int) (e : Node) : lastSpread k [e] = if e.varExpands then [.variadic e k] else [e] := by
  cases e <;> rfl

theorem Red.lastSpread {k : Int} : ∀ {ns' ns : List Node}, Red F .nodes ns ns' → Red F .nodes (Yasl.lastSpread k ns) (Yasl.lastSpread k ns')
  | [], ns, h => by rw [h.nil_inv]; exact .refl _
  | [e'], ns, h => by
    obtain ⟨e, d, rfl, h1, h2⟩ := h.cons_inv
    rw [h2.nil_inv, lastSpread_one, lastSpread_one, h1.expands]
    split
    · exact .cons (.variadic h1) (.refl _)
    · exact .cons h1 (.refl _)
  | e' :: f' :: ns', ns, h => by
    obtain ⟨e, d, rfl, h1, h2⟩ := h.cons_inv
    obtain ⟨f, d, rfl, h3, h4⟩ := h2.cons_inv
    have := Red.lastSpread (k := k) h2
    have e1 : ∀ (a b : Node) c, Yasl.lastSpread k (a :: b :: c) = a :: Yasl.lastSpread k (b :: c) := by intro a b c; cases a <;> rfl
    rw [e1, e1]
    exact .cons h1 this

theorem Red.append {a' : List Node} : ∀ {a b b' : List Node}, Red F .nodes a a' → Red F .nodes b b' → Red F .nodes (a ++ b : List Node) (a' ++ b' : List Node) := by
  induction a' with
  | nil => intro a b b' h h'; rw [h.nil_inv]; exact h'
  | cons e' a' ih =>
    intro a b b' h h'
    obtain ⟨e, d, rfl, h1, h2⟩ := h.cons_inv
    exact .cons h1 (ih h2 h')

theorem padTo_nodes (n : Nat) (es : List Node) : padTo n es = if (es.getLast?.map Node.varExpands) = Option.some true then lastSpread ((n : Int) + 1 - es.length) es
    else es ++ List.replicate (n - es.length) .undef := by
  unfold padTo
  rcases h : es.getLast? with _ | e
  · simp
  · cases e <;> simp [Node.varExpands]

theorem Red.getLast {ns' : List Node} : ∀ {ns : List Node}, Red F .nodes ns ns' → ns.getLast?.map Node.varExpands = ns'.getLast?.map Node.varExpands := by
  induction ns' with
  | nil => intro ns h; rw [h.nil_inv]
  | cons e' ns' ih =>
    intro ns h
    obtain ⟨e, d, rfl, h1, h2⟩ := h.cons_inv
    have hl := h2.length
    rcases d with _ | ⟨a, d⟩
    · rcases ns' with _ | ⟨a', ns'⟩
      · simp [h1.expands]
      · simp at hl
    · rcases ns' with _ | ⟨a', ns'⟩
      · simp at hl
      · rw [List.getLast?_cons_cons, List.getLast?_cons_cons]; exact ih h2

theorem Red.padTo {n : Nat} {ns ns' : List Node} (h : Red F .nodes ns ns') : Red F .nodes (Yasl.padTo n ns) (Yasl.padTo n ns') := by
  rw [padTo_nodes, padTo_nodes, h.getLast, h.length]
  split
  · exact h.lastSpread
  · exact h.append (.refl _)

/-- The relation for what a phrase stands for. -/
def RedRes (F : FloatOps) : (c : Cat) → c.Res → c.Res → Prop
  | .expr, n, n' | .tern, n, n' | .bin _, n, n' | .unary, n, n' | .power, n, n' | .post, n, n' | .atom, n, n' | .iter, n, n' | .stmt, n, n' | .simple, n, n'
  | .lval, n, n' | .ifRest, n, n' => Red F .node n n'
  | .string, r, r' => r.1 = r'.1 ∧ List.Forall₂ (fun p p' => Red F .node p.1 p'.1 ∧ p.2 = p'.2) r.2 r'.2
  | .args, ns, ns' | .more, ns, ns' | .pairs, ns, ns' | .lvals, ns, ns' | .body, ns, ns' | .stmts, ns, ns' => Red F .nodes ns ns'
  | .cond, n, n' => Red F .opt n n'
  | .clauses, cs, cs' => List.Forall₂ (fun p p' => p.1 = p'.1 ∧ Red F .opt p.2.1 p'.2.1 ∧ Red F .nodes p.2.2 p'.2.2) cs cs'

theorem red_interp {ps ps' : List (Node × List Byte)} (h : List.Forall₂ (fun p p' => Red F .node p.1 p'.1 ∧ p.2 = p'.2) ps ps') : ∀ {n n' : Node}, Red F .node n n' →
    Red F .node (ps.foldl (fun n p => Node.bin .tilde (.bin .tilde n p.1) (.str p.2)) n) (ps'.foldl (fun n p => Node.bin .tilde (.bin .tilde n p.1) (.str p.2)) n') := by
  induction h with
  | nil => intro n n' h; exact h
  | @cons p p' ps ps' h1 _ ih =>
    intro n n' h
    exact ih (.bin (.bin h h1.1) (h1.2 ▸ .refl _))

theorem red_clauses {cs cs' : List (PatNode × Option Node × List Node)}
    (h : List.Forall₂ (fun p p' => p.1 = p'.1 ∧ Red F .opt p.2.1 p'.2.1 ∧ Red F .nodes p.2.2 p'.2.2) cs cs') :
    cs.map (·.1) = cs'.map (·.1) ∧ Red F .opts (cs.map (·.2.1)) (cs'.map (·.2.1)) ∧ Red F .bodies (cs.map (·.2.2)) (cs'.map (·.2.2)) := by
  induction h with
  | nil => exact ⟨rfl, .refl _, .refl _⟩
  | cons h1 _ ih =>
    obtain ⟨a, b, c⟩ := ih
    exact ⟨by simp [h1.1, a], .optsCons h1.2.1 b, .bodiesCons h1.2.2 c⟩

/-- The folded tree of a phrase is the tree as written with constant operations replaced by their values. -/
theorem gram_red {flt : List Byte → BitVec 64} {c : Cat} {ts : List TextItem} {r' : c.Res} (h : Gram flt (foldNode F) c ts r') :
    ∃ r, Gram flt Option.some c ts r ∧ RedRes F c r r' := by
  induction h with
  | expr _ hf ih => obtain ⟨n, g, h⟩ := ih; exact ⟨n, .expr g rfl, .trans h (foldNode_red hf)⟩
  | ternOne _ ih => obtain ⟨n, g, h⟩ := ih; exact ⟨n, .ternOne g, h⟩
  | tern _ _ _ i1 i2 i3 =>
    obtain ⟨n1, g1, h1⟩ := i1; obtain ⟨n2, g2, h2⟩ := i2; obtain ⟨n3, g3, h3⟩ := i3
    exact ⟨_, .tern g1 g2 g3, .tri h1 h2 h3⟩
  | binUp hk _ ih => obtain ⟨n, g, h⟩ := ih; exact ⟨n, .binUp hk g, h⟩
  | binLeft ho _ _ i1 i2 => obtain ⟨n1, g1, h1⟩ := i1; obtain ⟨n2, g2, h2⟩ := i2; exact ⟨_, .binLeft ho g1 g2, .bin h1 h2⟩
  | binRight ho _ _ i1 i2 => obtain ⟨n1, g1, h1⟩ := i1; obtain ⟨n2, g2, h2⟩ := i2; exact ⟨_, .binRight ho g1 g2, .bin h1 h2⟩
  | binUnary _ ih => obtain ⟨n, g, h⟩ := ih; exact ⟨n, .binUnary g, h⟩
  | unaryOne _ ih => obtain ⟨n, g, h⟩ := ih; exact ⟨n, .unaryOne g, h⟩
  | unary ht _ ih => obtain ⟨n, g, h⟩ := ih; exact ⟨_, .unary ht g, .un h⟩
  | powerOne _ ih => obtain ⟨n, g, h⟩ := ih; exact ⟨n, .powerOne g, h⟩
  | power _ _ i1 i2 => obtain ⟨n1, g1, h1⟩ := i1; obtain ⟨n2, g2, h2⟩ := i2; exact ⟨_, .power g1 g2, .bin h1 h2⟩
  | postOne _ ih => obtain ⟨n, g, h⟩ := ih; exact ⟨n, .postOne g, h⟩
  | call _ _ i1 i2 => obtain ⟨n1, g1, h1⟩ := i1; obtain ⟨n2, g2, h2⟩ := i2; exact ⟨_, .call g1 g2, .call h1 (Red.lastSpread h2)⟩
  | mcall _ _ _ i1 i2 i3 =>
    obtain ⟨n1, g1, h1⟩ := i1; obtain ⟨n2, g2, h2⟩ := i2; obtain ⟨n3, g3, h3⟩ := i3
    have := Red.var_inv h2; subst this
    exact ⟨_, .mcall g1 g2 g3, .mcall h1 (Red.lastSpread h3)⟩
  | dot _ _ i1 i2 =>
    obtain ⟨n1, g1, h1⟩ := i1; obtain ⟨n2, g2, h2⟩ := i2
    have := Red.var_inv h2; subst this
    exact ⟨_, .dot g1 g2, .get h1 (.refl _)⟩
  | dotCall _ _ i1 i2 =>
    obtain ⟨n1, g1, h1⟩ := i1; obtain ⟨n2, g2, h2⟩ := i2
    obtain ⟨f, as, rfl, -, h3⟩ := Red.call_inv h2
    obtain ⟨k, as, rfl, h4, h5⟩ := h3.cons_inv
    obtain ⟨v, as, rfl, h6, -⟩ := h5.cons_inv
    exact ⟨_, .dotCall g1 g2, .set h1 h4 (.some h6)⟩
  | index _ _ i1 i2 => obtain ⟨n1, g1, h1⟩ := i1; obtain ⟨n2, g2, h2⟩ := i2; exact ⟨_, .index g1 g2, .get h1 h2⟩
  | slice _ _ _ i1 i2 i3 =>
    obtain ⟨n1, g1, h1⟩ := i1; obtain ⟨n2, g2, h2⟩ := i2; obtain ⟨n3, g3, h3⟩ := i3
    exact ⟨_, .slice g1 g2 g3, .slice h1 h2 h3⟩
  | sliceFrom _ _ i1 i2 => obtain ⟨n1, g1, h1⟩ := i1; obtain ⟨n2, g2, h2⟩ := i2; exact ⟨_, .sliceFrom g1 g2, .slice h1 h2 (.refl _)⟩
  | sliceTo _ _ i1 i2 => obtain ⟨n1, g1, h1⟩ := i1; obtain ⟨n2, g2, h2⟩ := i2; exact ⟨_, .sliceTo g1 g2, .slice h1 (.refl _) h2⟩
  | sliceAll _ i1 => obtain ⟨n1, g1, h1⟩ := i1; exact ⟨_, .sliceAll g1, .slice h1 (.refl _) (.refl _)⟩
  | field => exact ⟨_, .field, .refl _⟩
  | var => exact ⟨_, .var, .refl _⟩
  | paren _ ih => obtain ⟨n, g, h⟩ := ih; exact ⟨n, .paren g, h⟩
  | int => exact ⟨_, .int, .refl _⟩
  | float => exact ⟨_, .float, .refl _⟩
  | bool => exact ⟨_, .bool, .refl _⟩
  | undef => exact ⟨_, .undef, .refl _⟩
  | string _ ih =>
    obtain ⟨⟨v, ps⟩, g, h1, h2⟩ := ih
    dsimp only at h1 h2; subst h1
    exact ⟨_, .string g, red_interp h2 (.refl _)⟩
  | fn hp _ ih => obtain ⟨n, g, h⟩ := ih; exact ⟨_, .fn hp g, .fn h⟩
  | listEmpty => exact ⟨_, .listEmpty, .refl _⟩
  | list _ hn _ hn' i1 i2 => obtain ⟨n1, g1, h1⟩ := i1; obtain ⟨n2, g2, h2⟩ := i2; exact ⟨_, .list g1 hn g2 hn', .list (.cons h1 h2)⟩
  | listComp _ hn _ _ hn' i1 i2 i3 =>
    obtain ⟨n1, g1, h1⟩ := i1; obtain ⟨n2, g2, h2⟩ := i2; obtain ⟨n3, g3, h3⟩ := i3
    exact ⟨_, .listComp g1 hn g2 g3 hn', .listComp h1 h2 h3⟩
  | tableEmpty => exact ⟨_, .tableEmpty, .refl _⟩
  | table _ _ hn _ hn' i1 i2 i3 =>
    obtain ⟨n1, g1, h1⟩ := i1; obtain ⟨n2, g2, h2⟩ := i2; obtain ⟨n3, g3, h3⟩ := i3
    exact ⟨_, .table g1 g2 hn g3 hn', .table (.cons h1 (.cons h2 h3))⟩
  | tableComp _ _ hn _ _ hn' i1 i2 i3 i4 =>
    obtain ⟨n1, g1, h1⟩ := i1; obtain ⟨n2, g2, h2⟩ := i2; obtain ⟨n3, g3, h3⟩ := i3; obtain ⟨n4, g4, h4⟩ := i4
    exact ⟨_, .tableComp g1 g2 hn g3 g4 hn', .tableComp (.cons h1 (.cons h2 (.refl _))) h3 h4⟩
  | strEnd => exact ⟨_, .strEnd, rfl, .nil⟩
  | strMore _ _ i1 i2 =>
    obtain ⟨n1, g1, h1⟩ := i1; obtain ⟨⟨v, ps⟩, g2, h2, h3⟩ := i2
    exact ⟨_, .strMore g1 g2, rfl, .cons ⟨h1, h2⟩ h3⟩
  | argsEnd => exact ⟨_, .argsEnd, .refl _⟩
  | argsLast _ ih => obtain ⟨n, g, h⟩ := ih; exact ⟨_, .argsLast g, .cons h (.refl _)⟩
  | args _ _ i1 i2 => obtain ⟨n1, g1, h1⟩ := i1; obtain ⟨n2, g2, h2⟩ := i2; exact ⟨_, .args g1 g2, .cons h1 h2⟩
  | moreEnd => exact ⟨_, .moreEnd, .refl _⟩
  | more _ _ i1 i2 => obtain ⟨n1, g1, h1⟩ := i1; obtain ⟨n2, g2, h2⟩ := i2; exact ⟨_, .more g1 g2, .cons h1 h2⟩
  | pairsEnd => exact ⟨_, .pairsEnd, .refl _⟩
  | pairs _ _ _ i1 i2 i3 =>
    obtain ⟨n1, g1, h1⟩ := i1; obtain ⟨n2, g2, h2⟩ := i2; obtain ⟨n3, g3, h3⟩ := i3
    exact ⟨_, .pairs g1 g2 g3, .cons h1 (.cons h2 h3)⟩
  | iter _ ih => obtain ⟨n, g, h⟩ := ih; exact ⟨_, .iter g, .letIter h⟩
  | condNone => exact ⟨_, .condNone, .refl _⟩
  | cond _ ih => obtain ⟨n, g, h⟩ := ih; exact ⟨_, .cond g, .some h⟩
  | echo _ ih => obtain ⟨n, g, h⟩ := ih; exact ⟨_, .echo g, .echo h⟩
  | export_ _ ih => obtain ⟨n, g, h⟩ := ih; exact ⟨_, .export_ g, .export_ h⟩
  | assert _ ih => obtain ⟨n, g, h⟩ := ih; exact ⟨_, .assert g, .assert h⟩
  | brk => exact ⟨_, .brk, .refl _⟩
  | cont => exact ⟨_, .cont, .refl _⟩
  | ret _ ih => obtain ⟨n, g, h⟩ := ih; exact ⟨_, .ret g, .ret (.variadic h)⟩
  | multiRet _ _ i1 i2 =>
    obtain ⟨n1, g1, h1⟩ := i1; obtain ⟨n2, g2, h2⟩ := i2
    obtain ⟨e, es, rfl, h3, h4⟩ := Red.cons_inv h2
    exact ⟨_, .multiRet g1 g2, .multiRet (Red.lastSpread (.cons h1 h2))⟩
  | fnDecl hp _ ih => obtain ⟨n, g, h⟩ := ih; exact ⟨_, .fnDecl hp g, .let_ (.some (.fn h))⟩
  | fnMember hp _ ih => obtain ⟨n, g, h⟩ := ih; exact ⟨_, .fnMember hp g, .set (.refl _) (.refl _) (.some (.fn h))⟩
  | fnConst hp _ ih => obtain ⟨n, g, h⟩ := ih; exact ⟨_, .fnConst hp g, .const_ (.some (.fn h))⟩
  | fnExpr _ ih => obtain ⟨n, g, h⟩ := ih; exact ⟨_, .fnExpr g, h⟩
  | declLet _ _ _ hl i1 i2 i3 =>
    obtain ⟨n1, g1, h1⟩ := i1; obtain ⟨n2, g2, h2⟩ := i2; obtain ⟨n3, g3, h3⟩ := i3
    have e1 := Red.length h1
    have e2 := Red.length h3
    refine ⟨_, .declLet g1 g2 g3 (by change List.length (α := Node) n3 + 1 ≤ _; simp only [List.length_cons] at hl; omega), .decl (.cons (.refl _) h1) ?_⟩
    rw [e1]; exact Red.padTo (.cons h2 h3)
  | declConst _ _ _ hl i1 i2 i3 =>
    obtain ⟨n1, g1, h1⟩ := i1; obtain ⟨n2, g2, h2⟩ := i2; obtain ⟨n3, g3, h3⟩ := i3
    have e1 := Red.length h1
    have e2 := Red.length h3
    refine ⟨_, .declConst g1 g2 g3 (by change List.length (α := Node) n3 + 1 ≤ _; simp only [List.length_cons] at hl; omega), .decl (.cons (.refl _) h1) ?_⟩
    rw [e1]; exact Red.padTo (.cons h2 h3)
  | declVar _ _ _ hl i1 i2 i3 =>
    obtain ⟨n1, g1, h1⟩ := i1; obtain ⟨n2, g2, h2⟩ := i2; obtain ⟨n3, g3, h3⟩ := i3
    obtain ⟨l, ls, rfl, h4, h5⟩ := Red.cons_inv h1
    have e1 := Red.length h5
    have e2 := Red.length h3
    refine ⟨_, .declVar g1 g2 g3 (by change List.length (α := Node) n3 + 1 ≤ _; simp only [List.length_cons] at hl; omega), .decl (.cons (.refl _) h1) ?_⟩
    rw [e1]; exact Red.padTo (.cons h2 h3)
  | simple ha hb _ ih => obtain ⟨n, g, h⟩ := ih; exact ⟨_, .simple ha hb g, h⟩
  | forLet _ _ _ _ i1 i2 i3 i4 =>
    obtain ⟨n1, g1, h1⟩ := i1; obtain ⟨n2, g2, h2⟩ := i2; obtain ⟨n3, g3, h3⟩ := i3; obtain ⟨n4, g4, h4⟩ := i4
    exact ⟨_, .forLet g1 g2 g3 g4, .block (.cons (.let_ (.some h1)) (.cons (.while_ h2 (.block h4) (.some (.exprStmt h3))) (.refl _)))⟩
  | forIter _ _ i1 i2 => obtain ⟨n1, g1, h1⟩ := i1; obtain ⟨n2, g2, h2⟩ := i2; exact ⟨_, .forIter g1 g2, .forIter h1 (.block h2)⟩
  | while_ _ _ i1 i2 => obtain ⟨n1, g1, h1⟩ := i1; obtain ⟨n2, g2, h2⟩ := i2; exact ⟨_, .while_ g1 g2, .while_ h1 (.block h2) (.refl _)⟩
  | if_ _ ih => obtain ⟨n, g, h⟩ := ih; exact ⟨_, .if_ g, h⟩
  | match_ _ _ i1 i2 =>
    obtain ⟨n1, g1, h1⟩ := i1; obtain ⟨n2, g2, h2⟩ := i2
    obtain ⟨e1, h3, h4⟩ := red_clauses h2
    refine ⟨_, .match_ g1 g2, ?_⟩
    show Red F .node _ _
    rw [e1]
    exact .match_ h1 h3 h4
  | exprStmt _ ih => obtain ⟨n, g, h⟩ := ih; exact ⟨_, .exprStmt g, .exprStmt h⟩
  | assign _ _ i1 i2 =>
    obtain ⟨n1, g1, h1⟩ := i1; obtain ⟨n2, g2, h2⟩ := i2
    have := Red.var_inv h1; subst this
    exact ⟨_, .assign g1 g2, .assign (.some h2)⟩
  | set _ _ i1 i2 =>
    obtain ⟨n1, g1, h1⟩ := i1; obtain ⟨n2, g2, h2⟩ := i2
    obtain ⟨c, k, rfl, h3, h4⟩ := Red.get_inv h1
    exact ⟨_, .set g1 g2, .set h3 h4 (.some h2)⟩
  | augAssign ht _ _ i1 i2 =>
    obtain ⟨n1, g1, h1⟩ := i1; obtain ⟨n2, g2, h2⟩ := i2
    have := Red.var_inv h1; subst this
    exact ⟨_, .augAssign ht g1 g2, .assign (.some (.bin (.refl _) h2))⟩
  | augSet ht _ _ i1 i2 =>
    obtain ⟨n1, g1, h1⟩ := i1; obtain ⟨n2, g2, h2⟩ := i2
    obtain ⟨c, k, rfl, h3, h4⟩ := Red.get_inv h1
    exact ⟨_, .augSet ht g1 g2, .set h3 h4 (.some (.bin (.get h3 h4) h2))⟩
  | declSet _ _ _ _ hl i1 i2 i3 i4 =>
    obtain ⟨n1, g1, h1⟩ := i1; obtain ⟨n2, g2, h2⟩ := i2; obtain ⟨n3, g3, h3⟩ := i3; obtain ⟨n4, g4, h4⟩ := i4
    obtain ⟨c, k, rfl, h5, h6⟩ := Red.get_inv h1
    obtain ⟨l, ls, rfl, h7, h8⟩ := Red.cons_inv h2
    have e1 := Red.length h8
    have e2 := Red.length h4
    refine ⟨_, .declSet g1 g2 g3 g4 (by change List.length (α := Node) n4 + 1 ≤ _; simp only [List.length_cons] at hl; omega), .decl (.cons (.set h5 h6 (.refl _)) h2) ?_⟩
    rw [e1]; exact Red.padTo (.cons h3 h4)
  | lvalLet => exact ⟨_, .lvalLet, .refl _⟩
  | lvalConst => exact ⟨_, .lvalConst, .refl _⟩
  | lvalVar _ ih =>
    obtain ⟨n, g, h⟩ := ih
    have := Red.var_inv h; subst this
    exact ⟨_, .lvalVar g, .refl _⟩
  | lvalGet _ ih =>
    obtain ⟨n, g, h⟩ := ih
    obtain ⟨c, k, rfl, h3, h4⟩ := Red.get_inv h
    exact ⟨_, .lvalGet g, .set h3 h4 (.refl _)⟩
  | lvalsEnd => exact ⟨_, .lvalsEnd, .refl _⟩
  | lvals _ _ i1 i2 => obtain ⟨n1, g1, h1⟩ := i1; obtain ⟨n2, g2, h2⟩ := i2; exact ⟨_, .lvals g1 g2, .cons h1 h2⟩
  | ifEnd _ _ i1 i2 => obtain ⟨n1, g1, h1⟩ := i1; obtain ⟨n2, g2, h2⟩ := i2; exact ⟨_, .ifEnd g1 g2, .if_ h1 (.block h2) (.refl _)⟩
  | ifElse _ _ _ i1 i2 i3 =>
    obtain ⟨n1, g1, h1⟩ := i1; obtain ⟨n2, g2, h2⟩ := i2; obtain ⟨n3, g3, h3⟩ := i3
    exact ⟨_, .ifElse g1 g2 g3, .if_ h1 (.block h2) (.some (.block h3))⟩
  | ifElseif _ _ _ i1 i2 i3 =>
    obtain ⟨n1, g1, h1⟩ := i1; obtain ⟨n2, g2, h2⟩ := i2; obtain ⟨n3, g3, h3⟩ := i3
    exact ⟨_, .ifElseif g1 g2 g3, .if_ h1 (.block h2) (.some h3)⟩
  | clausesEnd => exact ⟨_, .clausesEnd, .nil⟩
  | clauses hp _ _ _ i1 i2 i3 =>
    obtain ⟨n1, g1, h1⟩ := i1; obtain ⟨n2, g2, h2⟩ := i2; obtain ⟨n3, g3, h3⟩ := i3
    exact ⟨_, .clauses hp g1 g2 g3, .cons ⟨rfl, h1, h2⟩ h3⟩
  | body _ ih => obtain ⟨n, g, h⟩ := ih; exact ⟨_, .body g, h⟩
  | stmtsEnd => exact ⟨_, .stmtsEnd, .refl _⟩
  | stmts _ _ i1 i2 => obtain ⟨n1, g1, h1⟩ := i1; obtain ⟨n2, g2, h2⟩ := i2; exact ⟨_, .stmts g1 g2, .cons h1 h2⟩

end
end Yasl
