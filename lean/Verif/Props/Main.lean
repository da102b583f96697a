import Verif.Model.Main
import Verif.Spec.Main
import Verif.Props.StaticText
set_option autoImplicit false
/-!
# C113: the command `yasl`
-/
namespace Yasl

/-- More variables of the host, other things equal. -/
def Seen.more (v : Seen) (extra : List Name) : Seen := { v with globals := v.globals ++ extra }

theorem Seen.find_more {v : Seen} {extra : List Name} {x : Name} (h : x ∉ extra) : (v.more extra).find x = v.find x := by
  simp [Seen.find, Seen.more, h]

theorem Seen.find_more_some {v : Seen} {extra : List Name} {x : Name} {c : Bool} (h : v.find x = some c) : (v.more extra).find x = some c := by
  simp only [Seen.find, Seen.more] at h ⊢
  rcases hl : List.lookup x (v.here.flatten ++ v.around.flatten.flatten) with _ | d
  · rw [hl] at h
    simp only [Option.none_or, Option.ite_none_right_eq_some] at h ⊢
    simp [h.1, h.2]
  · rw [hl] at h; simpa using h

theorem whileBody_more (v : Seen) (r : Rule) (c : FExpr) (extra : List Name) : (v.more extra).whileBody r c = (v.whileBody r c).more extra := by
  unfold Seen.whileBody; split <;> rfl

theorem afterL_more : ∀ (ls : List FTarget) (v : Seen) (extra : List Name), afterL ls (v.more extra) = (afterL ls v).more extra
  | [], _, _ => rfl
  | .let_ x :: ls, v, extra => afterL_more ls (v.add x false) extra
  | .const_ x :: ls, v, extra => afterL_more ls (v.add x true) extra
  | .assign _ :: ls, v, extra => afterL_more ls v extra

theorem goodL_more : ∀ (ls : List FTarget) (v : Seen) (extra : List Name), goodL ls v = true → goodL ls (v.more extra) = true
  | [], _, _, _ => rfl
  | .let_ x :: ls, v, extra, h => by simp only [goodL, Bool.and_eq_true] at h ⊢; exact ⟨h.1, goodL_more ls (v.add x false) extra h.2⟩
  | .const_ x :: ls, v, extra, h => by simp only [goodL, Bool.and_eq_true] at h ⊢; exact ⟨h.1, goodL_more ls (v.add x true) extra h.2⟩
  | .assign x :: ls, v, extra, h => by
    simp only [goodL, Bool.and_eq_true, beq_iff_eq] at h ⊢; exact ⟨Seen.find_more_some h.1, goodL_more ls v extra h.2⟩

theorem goodL_unused (x : Name) : ∀ (ls : List FTarget) (v : Seen), usesL x ls = false → goodL ls (v.more [x]) = true → goodL ls v = true
  | [], _, _, _ => rfl
  | .let_ y :: ls, v, u, h => by simp only [goodL, Bool.and_eq_true] at h ⊢; exact ⟨h.1, goodL_unused x ls (v.add y false) u h.2⟩
  | .const_ y :: ls, v, u, h => by simp only [goodL, Bool.and_eq_true] at h ⊢; exact ⟨h.1, goodL_unused x ls (v.add y true) u h.2⟩
  | .assign y :: ls, v, u, h => by
    simp only [goodL, usesL, Bool.and_eq_true, beq_iff_eq, Bool.or_eq_false_iff] at h u ⊢
    rw [Seen.find_more (by simpa using u.1)] at h
    exact ⟨h.1, goodL_unused x ls v u.2 h.2⟩

theorem after_more (v : Seen) (s : FStmt) (extra : List Name) : s.after (v.more extra) = (s.after v).more extra := by
  cases s with
  | multi ls es => exact afterL_more ls v extra
  | _ => rfl

mutual
theorem good_more (r : Rule) (extra : List Name) : ∀ (e : FExpr) (v : Seen), e.good r v = true → e.good r (v.more extra) = true
  | .lit _, _, _ => rfl
  | .var x, v, h => by
    simp only [FExpr.good] at h ⊢
    obtain ⟨c, hc⟩ := Option.isSome_iff_exists.1 h
    rw [Seen.find_more_some hc]; rfl
  | .un _ e, v, h => by simp only [FExpr.good] at h ⊢; exact good_more r extra e v h
  | .ctx _ e, v, h => by simp only [FExpr.good] at h ⊢; exact good_more r extra e v h
  | .bin _ a b, v, h => by simp only [FExpr.good, Bool.and_eq_true] at h ⊢; exact ⟨good_more r extra a v h.1, good_more r extra b v h.2⟩
  | .get a b, v, h => by simp only [FExpr.good, Bool.and_eq_true] at h ⊢; exact ⟨good_more r extra a v h.1, good_more r extra b v h.2⟩
  | .tri a b c, v, h => by
    simp only [FExpr.good, Bool.and_eq_true] at h ⊢; exact ⟨⟨good_more r extra a v h.1.1, good_more r extra b v h.1.2⟩, good_more r extra c v h.2⟩
  | .slice a b c, v, h => by
    simp only [FExpr.good, Bool.and_eq_true] at h ⊢; exact ⟨⟨good_more r extra a v h.1.1, good_more r extra b v h.1.2⟩, good_more r extra c v h.2⟩
  | .list es, v, h => by simp only [FExpr.good] at h ⊢; exact goods_more r extra es v h
  | .table es, v, h => by simp only [FExpr.good] at h ⊢; exact goods_more r extra es v h
  | .fn _ ps body, v, h => by
    simp only [FExpr.good, Bool.and_eq_true] at h ⊢; exact ⟨⟨h.1.1, h.1.2⟩, sgoods_more r extra body _ h.2⟩
  | .call f as, v, h => by simp only [FExpr.good, Bool.and_eq_true] at h ⊢; exact ⟨good_more r extra f v h.1, goods_more r extra as v h.2⟩
  | .mcall f _ as, v, h => by simp only [FExpr.good, Bool.and_eq_true] at h ⊢; exact ⟨good_more r extra f v h.1, goods_more r extra as v h.2⟩
theorem goods_more (r : Rule) (extra : List Name) : ∀ (e : FExprs) (v : Seen), e.good r v = true → e.good r (v.more extra) = true
  | .nil, _, _ => rfl
  | .cons e es, v, h => by simp only [FExprs.good, Bool.and_eq_true] at h ⊢; exact ⟨good_more r extra e v h.1, goods_more r extra es v h.2⟩
theorem sgood_more (r : Rule) (extra : List Name) : ∀ (s : FStmt) (v : Seen), s.good r v = true → s.good r (v.more extra) = true
  | .expr e, v, h => by simp only [FStmt.good] at h ⊢; exact good_more r extra e v h
  | .echo e, v, h => by simp only [FStmt.good] at h ⊢; exact good_more r extra e v h
  | .assert e, v, h => by simp only [FStmt.good] at h ⊢; exact good_more r extra e v h
  | .let_ x e, v, h => by simp only [FStmt.good, Bool.and_eq_true] at h ⊢; exact ⟨⟨good_more r extra e v h.1.1, h.1.2⟩, h.2⟩
  | .const_ x e, v, h => by simp only [FStmt.good, Bool.and_eq_true] at h ⊢; exact ⟨⟨good_more r extra e v h.1.1, h.1.2⟩, h.2⟩
  | .multi ls es, v, h => by simp only [FStmt.good, Bool.and_eq_true] at h ⊢; exact ⟨goods_more r extra es v h.1, goodL_more ls v extra h.2⟩
  | .assign x e, v, h => by
    simp only [FStmt.good, Bool.and_eq_true, beq_iff_eq] at h ⊢; exact ⟨good_more r extra e v h.1, Seen.find_more_some h.2⟩
  | .set a b c, v, h => by
    simp only [FStmt.good, Bool.and_eq_true] at h ⊢; exact ⟨⟨good_more r extra a v h.1.1, good_more r extra b v h.1.2⟩, good_more r extra c v h.2⟩
  | .block ss, v, h => by simp only [FStmt.good] at h ⊢; exact sgoods_more r extra ss _ h
  | .ifThen c t, v, h => by simp only [FStmt.good, Bool.and_eq_true] at h ⊢; exact ⟨good_more r extra c v h.1, sgood_more r extra t v h.2⟩
  | .ifElse c t e, v, h => by
    simp only [FStmt.good, Bool.and_eq_true] at h ⊢; exact ⟨⟨good_more r extra c v h.1.1, sgood_more r extra t v h.1.2⟩, sgood_more r extra e v h.2⟩
  | .while_ c b, v, h => by
    simp only [FStmt.good, Bool.and_eq_true] at h ⊢; rw [whileBody_more]; exact ⟨good_more r extra c _ h.1, sgood_more r extra b _ h.2⟩
  | .loop c b p, v, h => by
    simp only [FStmt.good, Bool.and_eq_true] at h ⊢; rw [whileBody_more]
    exact ⟨⟨good_more r extra c _ h.1.1, sgood_more r extra b _ h.1.2⟩, sgood_more r extra p v h.2⟩
  | .forIter x c b, v, h => by
    simp only [FStmt.good, Bool.and_eq_true] at h ⊢; exact ⟨⟨good_more r extra c _ h.1.1, h.1.2⟩, sgood_more r extra b _ h.2⟩
  | .brk, _, h | .cont, _, h => by simp only [FStmt.good] at h ⊢; exact h
  | .ret e, v, h => by simp only [FStmt.good, Bool.and_eq_true] at h ⊢; exact ⟨h.1, good_more r extra e v h.2⟩
  | .fnDecl x _ ps body, v, h => by
    simp only [FStmt.good, Bool.and_eq_true] at h ⊢; exact ⟨⟨⟨⟨h.1.1.1.1, h.1.1.1.2⟩, h.1.1.2⟩, h.1.2⟩, sgoods_more r extra body _ h.2⟩
theorem sgoods_more (r : Rule) (extra : List Name) : ∀ (s : FStmts) (v : Seen), s.good r v = true → s.good r (v.more extra) = true
  | .nil, _, _ => rfl
  | .cons s ss, v, h => by
    simp only [FStmts.good, Bool.and_eq_true] at h ⊢
    rw [after_more]; exact ⟨sgood_more r extra s v h.1, sgoods_more r extra ss _ h.2⟩
end

mutual
theorem good_unused (r : Rule) (x : Name) : ∀ (e : FExpr) (v : Seen), e.uses x = false → e.good r (v.more [x]) = true → e.good r v = true
  | .lit _, _, _, _ => rfl
  | .var y, v, u, h => by
    simp only [FExpr.good, FExpr.uses] at h u ⊢
    rw [Seen.find_more (by simpa using u)] at h; exact h
  | .un _ e, v, u, h => by simp only [FExpr.good, FExpr.uses] at h u ⊢; exact good_unused r x e v u h
  | .ctx _ e, v, u, h => by simp only [FExpr.good, FExpr.uses] at h u ⊢; exact good_unused r x e v u h
  | .bin _ a b, v, u, h => by
    simp only [FExpr.good, FExpr.uses, Bool.and_eq_true, Bool.or_eq_false_iff] at h u ⊢; exact ⟨good_unused r x a v u.1 h.1, good_unused r x b v u.2 h.2⟩
  | .get a b, v, u, h => by
    simp only [FExpr.good, FExpr.uses, Bool.and_eq_true, Bool.or_eq_false_iff] at h u ⊢; exact ⟨good_unused r x a v u.1 h.1, good_unused r x b v u.2 h.2⟩
  | .tri a b c, v, u, h => by
    simp only [FExpr.good, FExpr.uses, Bool.and_eq_true, Bool.or_eq_false_iff] at h u ⊢
    exact ⟨⟨good_unused r x a v u.1.1 h.1.1, good_unused r x b v u.1.2 h.1.2⟩, good_unused r x c v u.2 h.2⟩
  | .slice a b c, v, u, h => by
    simp only [FExpr.good, FExpr.uses, Bool.and_eq_true, Bool.or_eq_false_iff] at h u ⊢
    exact ⟨⟨good_unused r x a v u.1.1 h.1.1, good_unused r x b v u.1.2 h.1.2⟩, good_unused r x c v u.2 h.2⟩
  | .list es, v, u, h => by simp only [FExpr.good, FExpr.uses] at h u ⊢; exact goods_unused r x es v u h
  | .table es, v, u, h => by simp only [FExpr.good, FExpr.uses] at h u ⊢; exact goods_unused r x es v u h
  | .fn _ ps body, v, u, h => by
    simp only [FExpr.good, FExpr.uses, Bool.and_eq_true] at h u ⊢; exact ⟨⟨h.1.1, h.1.2⟩, sgoods_unused r x body _ u h.2⟩
  | .call f as, v, u, h => by
    simp only [FExpr.good, FExpr.uses, Bool.and_eq_true, Bool.or_eq_false_iff] at h u ⊢; exact ⟨good_unused r x f v u.1 h.1, goods_unused r x as v u.2 h.2⟩
  | .mcall f _ as, v, u, h => by
    simp only [FExpr.good, FExpr.uses, Bool.and_eq_true, Bool.or_eq_false_iff] at h u ⊢; exact ⟨good_unused r x f v u.1 h.1, goods_unused r x as v u.2 h.2⟩
theorem goods_unused (r : Rule) (x : Name) : ∀ (e : FExprs) (v : Seen), e.uses x = false → e.good r (v.more [x]) = true → e.good r v = true
  | .nil, _, _, _ => rfl
  | .cons e es, v, u, h => by
    simp only [FExprs.good, FExprs.uses, Bool.and_eq_true, Bool.or_eq_false_iff] at h u ⊢; exact ⟨good_unused r x e v u.1 h.1, goods_unused r x es v u.2 h.2⟩
theorem sgood_unused (r : Rule) (x : Name) : ∀ (s : FStmt) (v : Seen), s.uses x = false → s.good r (v.more [x]) = true → s.good r v = true
  | .expr e, v, u, h => by simp only [FStmt.good, FStmt.uses] at h u ⊢; exact good_unused r x e v u h
  | .echo e, v, u, h => by simp only [FStmt.good, FStmt.uses] at h u ⊢; exact good_unused r x e v u h
  | .assert e, v, u, h => by simp only [FStmt.good, FStmt.uses] at h u ⊢; exact good_unused r x e v u h
  | .let_ y e, v, u, h => by simp only [FStmt.good, FStmt.uses, Bool.and_eq_true] at h u ⊢; exact ⟨⟨good_unused r x e v u h.1.1, h.1.2⟩, h.2⟩
  | .const_ y e, v, u, h => by simp only [FStmt.good, FStmt.uses, Bool.and_eq_true] at h u ⊢; exact ⟨⟨good_unused r x e v u h.1.1, h.1.2⟩, h.2⟩
  | .multi ls es, v, u, h => by
    simp only [FStmt.good, FStmt.uses, Bool.and_eq_true, Bool.or_eq_false_iff] at h u ⊢
    exact ⟨goods_unused r x es v u.2 h.1, goodL_unused x ls v u.1 h.2⟩
  | .assign y e, v, u, h => by
    simp only [FStmt.good, FStmt.uses, Bool.and_eq_true, beq_iff_eq, Bool.or_eq_false_iff] at h u ⊢
    rw [Seen.find_more (by simpa using u.1)] at h
    exact ⟨good_unused r x e v u.2 h.1, h.2⟩
  | .set a b c, v, u, h => by
    simp only [FStmt.good, FStmt.uses, Bool.and_eq_true, Bool.or_eq_false_iff] at h u ⊢
    exact ⟨⟨good_unused r x a v u.1.1 h.1.1, good_unused r x b v u.1.2 h.1.2⟩, good_unused r x c v u.2 h.2⟩
  | .block ss, v, u, h => by simp only [FStmt.good, FStmt.uses] at h u ⊢; exact sgoods_unused r x ss _ u h
  | .ifThen c t, v, u, h => by
    simp only [FStmt.good, FStmt.uses, Bool.and_eq_true, Bool.or_eq_false_iff] at h u ⊢; exact ⟨good_unused r x c v u.1 h.1, sgood_unused r x t v u.2 h.2⟩
  | .ifElse c t e, v, u, h => by
    simp only [FStmt.good, FStmt.uses, Bool.and_eq_true, Bool.or_eq_false_iff] at h u ⊢
    exact ⟨⟨good_unused r x c v u.1.1 h.1.1, sgood_unused r x t v u.1.2 h.1.2⟩, sgood_unused r x e v u.2 h.2⟩
  | .while_ c b, v, u, h => by
    simp only [FStmt.good, FStmt.uses, Bool.and_eq_true, Bool.or_eq_false_iff] at h u ⊢; rw [whileBody_more] at h
    exact ⟨good_unused r x c _ u.1 h.1, sgood_unused r x b _ u.2 h.2⟩
  | .loop c b p, v, u, h => by
    simp only [FStmt.good, FStmt.uses, Bool.and_eq_true, Bool.or_eq_false_iff] at h u ⊢; rw [whileBody_more] at h
    exact ⟨⟨good_unused r x c _ u.1.1 h.1.1, sgood_unused r x b _ u.1.2 h.1.2⟩, sgood_unused r x p v u.2 h.2⟩
  | .forIter y c b, v, u, h => by
    simp only [FStmt.good, FStmt.uses, Bool.and_eq_true, Bool.or_eq_false_iff] at h u ⊢
    exact ⟨⟨good_unused r x c _ u.1 h.1.1, h.1.2⟩, sgood_unused r x b _ u.2 h.2⟩
  | .brk, _, _, h | .cont, _, _, h => by simp only [FStmt.good] at h ⊢; exact h
  | .ret e, v, u, h => by simp only [FStmt.good, FStmt.uses, Bool.and_eq_true] at h u ⊢; exact ⟨h.1, good_unused r x e v u h.2⟩
  | .fnDecl y _ ps body, v, u, h => by
    simp only [FStmt.good, FStmt.uses, Bool.and_eq_true] at h u ⊢; exact ⟨⟨⟨⟨h.1.1.1.1, h.1.1.1.2⟩, h.1.1.2⟩, h.1.2⟩, sgoods_unused r x body _ u h.2⟩
theorem sgoods_unused (r : Rule) (x : Name) : ∀ (s : FStmts) (v : Seen), s.uses x = false → s.good r (v.more [x]) = true → s.good r v = true
  | .nil, _, _, _ => rfl
  | .cons s ss, v, u, h => by
    simp only [FStmts.good, FStmts.uses, Bool.and_eq_true, Bool.or_eq_false_iff] at h u ⊢
    rw [after_more] at h; exact ⟨sgood_unused r x s v u.1 h.1, sgoods_unused r x ss _ u.2 h.2⟩
end

/-- Folding does not change which variables are used. -/
def FRedUses (x : Name) : (c : FCat) → c.T → c.T → Prop
  | .expr, e, e' => FExpr.uses x e = FExpr.uses x e'
  | .exprs, e, e' => FExprs.uses x e = FExprs.uses x e'
  | .stmt, e, e' => FStmt.uses x e = FStmt.uses x e'
  | .stmts, e, e' => FStmts.uses x e = FStmts.uses x e'

theorem fred_uses {F : FloatOps} (x : Name) {c : FCat} {a b : c.T} (h : FRed F c a b) : FRedUses x c a b := by
  induction h with
  | @trans c x y z _ _ i1 i2 => cases c <;> simp_all [FRedUses]
  | lit | var | nil | snil | brk | cont => rfl
  | _ => simp_all [FRedUses, FExpr.uses, FExprs.uses, FStmt.uses, FStmts.uses]

/-- What is compiled is the program of the text, up to folding, and has the shape of a program. -/
theorem parsed_folds {flt : List Byte → BitVec 64} {F : FloatOps} {src : List Byte} {ss' : List Node} {prog' : FStmts}
    (h1 : parseSource ⟨flt, foldNode F⟩ src = some (.accepted ss')) (h2 : fprogOf ss' = some prog') :
    prog'.shaped = true ∧ ∀ (ts : List TextItem) (ss : List Node) (prog : FStmts), TextItems src ts → Gram flt some .stmts ts ss → fprogOf ss = some prog →
      FRed F .stmts prog prog' := by
  obtain ⟨ts', h4, h5⟩ := (C86_grammar ⟨flt, foldNode F⟩ src ss').1 h1
  obtain ⟨ss2, g1, g2⟩ := gram_red h5
  obtain ⟨⟨q, k⟩, h2', rfl⟩ := Option.map_eq_some_iff.1 (show (fstmtsOf ss' 0).map Prod.fst = some prog' from h2)
  obtain ⟨s, h6, h7⟩ := (red_conv g2).2.1 0 q k h2'
  have hp : fprogOf ss2 = some s := by unfold fprogOf; rw [h6]; rfl
  refine ⟨by rw [← (fred_static h7).2.1]; exact gram_shaped g1 hp, fun ts ss prog ht hg hp' => ?_⟩
  have hss : ss2 = ss := C87_unambiguous flt some src ts' ts ss2 ss h4 ht g1 hg
  subst hss
  rw [hp] at hp'; cases hp'
  exact h7

/-- **C113.**  A file that `yasl -C` finds nothing wrong with is compiled when it is run, with any arguments. -/
theorem C113_check_sound (flt : List Byte → BitVec 64) (F : FloatOps) (libs : List Name) (lines src image : List Byte) (hl : libs.length < 2 ^ 63)
    (h : mainCheck ⟨flt, foldNode F⟩ libs lines src = some (.image image)) :
    ∃ image', mainFile ⟨flt, foldNode F⟩ libs lines src = some (.image image') := by
  obtain ⟨ss', prog', h1, h2, h3⟩ := buildF_image h
  have hs := (parsed_folds h1 h2).1
  have e1 := C112_exact libs prog' lines (by omega) hs
  have e2 := C112_exact (libs ++ [argsName]) prog' lines (by simp; omega) hs
  rw [h3] at e1
  have e3 : goodFile .code (libs ++ [argsName]) prog' = true := sgoods_more .code [argsName] prog' _ e1.symm
  rw [e3] at e2
  obtain ⟨image', h4⟩ := Option.isSome_iff_exists.1 e2
  exact ⟨image', by rw [mainFile, buildF, h1]; dsimp only; rw [h2]; dsimp only; rw [h4]⟩

/-- **C113.**  A file that `yasl -C` finds something wrong with is refused when it is run, if it does not use the variable `args`. -/
theorem C113_check_complete_partial (flt : List Byte → BitVec 64) (F : FloatOps) (libs : List Name) (lines src : List Byte) (hl : libs.length < 2 ^ 63)
    (ts : List TextItem) (ss : List Node) (prog : FStmts) (ht : TextItems src ts) (hg : Gram flt some .stmts ts ss) (hp : fprogOf ss = some prog)
    (hu : prog.uses argsName = false) (h : mainCheck ⟨flt, foldNode F⟩ libs lines src = some .refused) :
    mainFile ⟨flt, foldNode F⟩ libs lines src = some .refused := by
  rw [mainCheck, buildF] at h
  rw [mainFile, buildF]
  rcases h1 : parseSource ⟨flt, foldNode F⟩ src with _ | (ss' | _ | _ | _)
  · rw [h1] at h; cases h
  · rw [h1] at h; dsimp only at h ⊢
    rcases h2 : fprogOf ss' with _ | prog'
    · rw [h2] at h; cases h
    · rw [h2] at h; dsimp only at h ⊢
      obtain ⟨hs, hr⟩ := parsed_folds h1 h2
      have hu' : prog'.uses argsName = false := by rw [← fred_uses argsName (hr ts ss prog ht hg hp)]; exact hu
      have e1 := C112_exact libs prog' lines (by omega) hs
      have e2 := C112_exact (libs ++ [argsName]) prog' lines (by simp; omega) hs
      rcases h3 : compileF libs prog' lines with _ | image
      · rw [h3] at e1
        rcases h4 : compileF (libs ++ [argsName]) prog' lines with _ | image'
        · rfl
        · rw [h4] at e2
          have := sgoods_unused .code argsName prog' { here := [[]], around := [], globals := libs, inLoop := false } hu' e2.symm
          have e1 : false = goodFile .code libs prog' := e1
          rw [goodFile, this] at e1; cases e1
      · rw [h3] at h; cases h
  · rfl
  · rw [h1] at h; cases h
  · rw [h1] at h; cases h

/-- `echo args` -/
def argsText : List Byte := word "echo args\n"

theorem argsText_tokens : (tokensOf argsText).1 = [.op .echo, .word .id argsName, .sep .semi true] ∧ (tokensOf argsText).2.type = .eof := by decide +kernel

theorem argsText_gram (flt : List Byte → BitVec 64) (fold : Node → Option Node) (h : fold (.var argsName) = some (.var argsName)) :
    ∃ ts, TextItems argsText ts ∧ Gram flt fold .stmts ts [.echo (.var argsName)] := by
  suffices h : Gram flt fold .stmts (tokensOf argsText).1 [.echo (.var argsName)] from
    ⟨_, (textItems_plain (by decide +kernel) (FirstPlain.gram h)).2 ⟨rfl, argsText_tokens.2⟩, h⟩
  rw [argsText_tokens.1]
  exact .stmts (nl := true) (.echo (.expr (.ternOne (Gram.var.atomTo.unaryTo 0 (by omega))) h)) .stmtsEnd

/-- **C113, where it fails.**  `yasl -C` finds `echo args` wrong, which is compiled and run by `yasl`. -/
theorem C113_check_counterexample (flt : List Byte → BitVec 64) (F : FloatOps) (libs lines : List _) (hl : libs.length < 2 ^ 63) (hn : argsName ∉ libs) :
    mainCheck ⟨flt, foldNode F⟩ libs lines argsText = some .refused ∧ ∃ image, mainFile ⟨flt, foldNode F⟩ libs lines argsText = some (.image image) := by
  obtain ⟨ts, h1, h2⟩ := argsText_gram flt (foldNode F) rfl
  have h3 := (C86_grammar ⟨flt, foldNode F⟩ argsText _).2 ⟨ts, h1, h2⟩
  have h4 : fprogOf [.echo (.var argsName)] = some (.cons (.echo (.var argsName)) .nil) := rfl
  have e1 := C112_exact libs (.cons (.echo (.var argsName)) .nil) lines (by omega) rfl
  have e2 := C112_exact (libs ++ [argsName]) (.cons (.echo (.var argsName)) .nil) lines (by simp; omega) rfl
  have g1 : goodFile .code libs (.cons (.echo (.var argsName)) .nil) = false := by simp [goodFile, FStmts.good, FStmt.good, FExpr.good, Seen.find, hn]
  have g2 : goodFile .code (libs ++ [argsName]) (.cons (.echo (.var argsName)) .nil) = true := by
    simp [goodFile, FStmts.good, FStmt.good, FExpr.good, Seen.find]
  rw [g1] at e1; rw [g2] at e2
  obtain ⟨image, h5⟩ := Option.isSome_iff_exists.1 e2
  refine ⟨?_, image, ?_⟩
  · rw [mainCheck, buildF, h3]; dsimp only; rw [h4]; dsimp only
    rw [show compileF libs (.cons (.echo (.var argsName)) .nil) lines = none from Option.not_isSome_iff_eq_none.mp (by simp [e1])]
  · rw [mainFile, buildF, h3]; dsimp only; rw [h4]; dsimp only; rw [h5]

/-- The hypotheses of `C113_check_complete_partial` are met by the text of `C112_text_partial`'s example. -/
example (libs lines : List _) (hl : libs.length < 2 ^ 63) (h : mainCheck ⟨fun _ => 0, foldNode demoFloat⟩ libs lines deadText = some .refused) :
    mainFile ⟨fun _ => 0, foldNode demoFloat⟩ libs lines deadText = some .refused := by
  obtain ⟨ts, h1, h2⟩ := deadText_gram (fun _ => 0)
  exact C113_check_complete_partial _ _ _ _ _ hl ts _ (.cons (.echo (.lit (.int 1))) (.cons (.ifThen (.lit (.bool false))
    (.block (.cons (.echo (.var (word "x"))) .nil))) .nil)) h1 h2 rfl (by decide +kernel) h

/-- **C113.**  What the words of the command line ask for: an option stands alone, or with one input; everything else is a file to run, and its name and the words after it are
the elements of `args`. -/
theorem C113_modes (prog a : List Byte) (rest : List (List Byte)) :
    mainMode [prog] = .repl ∧ mainMode [prog, word "-h"] = .help ∧ mainMode [prog, word "-V"] = .version ∧ mainMode [prog, word "-C", a] = .check a ∧
    mainMode [prog, word "-E", a] = .command a ∧ mainMode [prog, word "-e", a] = .command_repl a ∧
    ((a, rest.length) ∉ [(word "-h", 0), (word "-V", 0), (word "-C", 1), (word "-E", 1), (word "-e", 1)] → mainMode (prog :: a :: rest) = .file a (a :: rest)) := by
  have h1 : word "-h" = dash 104 := by decide +kernel
  have h2 : word "-V" = dash 86 := by decide +kernel
  have h3 : word "-C" = dash 67 := by decide +kernel
  have h4 : word "-E" = dash 69 := by decide +kernel
  have h5 : word "-e" = dash 101 := by decide +kernel
  rw [h1, h2, h3, h4, h5]
  refine ⟨rfl, rfl, by simp [mainMode, dash], by simp [mainMode, dash], by simp [mainMode, dash], by simp [mainMode, dash], ?_⟩
  intro h
  match rest with
  | [] => simp at h; simp [mainMode, h]
  | [b] => simp at h; simp [mainMode, h]
  | b :: c :: r => rfl

/-! The prompt. -/

theorem textLines_append_nl (l bs : List Byte) (h : (10 : Byte) ∉ l) : textLines (l ++ 10 :: bs) = ((l ++ [10]) :: (textLines bs).1, (textLines bs).2) := by
  induction l with
  | nil => simp [textLines]
  | cons b l ih =>
    simp only [List.mem_cons, not_or] at h
    rw [List.cons_append, textLines, ih h.2]
    rw [if_neg (Ne.symm h.1)]; rfl

theorem textLines_no_nl (l : List Byte) (h : (10 : Byte) ∉ l) : textLines l = ([], l) := by
  induction l with
  | nil => rfl
  | cons b l ih =>
    simp only [List.mem_cons, not_or] at h
    rw [textLines, ih h.2]
    rw [if_neg (Ne.symm h.1)]

/-- The texts that are executed, when the program is left after the first one that calls `quit`. -/
def untilQuit (quits : List (List Byte) → Bool) : List (List Byte) → List (List Byte) → List (List Byte)
  | done, [] => done
  | done, l :: ls => if quits (done ++ [l]) then done ++ [l] else untilQuit quits (done ++ [l]) ls

theorem repl_over (quits : List (List Byte) → Bool) (n : Nat) (s : Repl) (h : s.over = true) : Repl.run quits n s = s := by
  induction n with
  | zero => rfl
  | succ n ih => rw [Repl.run, show s.step quits = s by simp [Repl.step, h], ih]

theorem repl_given (quits : List (List Byte) → Bool) (input : List Byte) : ∀ (buffer : List Byte) (given : List (List Byte)), (10 : Byte) ∉ buffer →
    (Repl.run quits input.length ⟨input, buffer, given, false⟩).given = untilQuit quits given (textLines (buffer ++ input)).1 ∧
    ((Repl.run quits input.length ⟨input, buffer, given, false⟩).over = false →
      Repl.run quits input.length ⟨input, buffer, given, false⟩ = ⟨[], (textLines (buffer ++ input)).2, given ++ (textLines (buffer ++ input)).1, false⟩) := by
  induction input with
  | nil =>
    intro buffer given h
    rw [List.append_nil, textLines_no_nl _ h]
    simp [Repl.run, untilQuit]
  | cons b input ih =>
    intro buffer given h
    simp only [List.length_cons, Repl.run]
    by_cases hb : b = 10
    · subst hb
      rw [textLines_append_nl _ _ h]
      simp only [Repl.step, Bool.false_eq_true, if_false, if_true, untilQuit]
      by_cases hq : quits (given ++ [buffer ++ [10]]) = true
      · rw [hq, repl_over _ _ _ rfl]
        simp
      · rw [Bool.not_eq_true] at hq
        rw [hq]
        have := ih [] (given ++ [buffer ++ [10]]) (by simp)
        simpa using this
    · have := ih (buffer ++ [b]) given (by rw [List.mem_append, not_or]; exact ⟨h, fun hh => hb (List.mem_singleton.1 hh).symm⟩)
      simp only [Repl.step, Bool.false_eq_true, if_false, hb]
      simpa using this

/-- **C113.**  The prompt executes the lines of the input one after the other, until one of them calls `quit`. -/
theorem C113_prompt_lines (quits : List (List Byte) → Bool) (input : List Byte) :
    (Repl.run quits input.length (Repl.start input)).given = untilQuit quits [] (textLines input).1 :=
  (repl_given quits input [] [] (by simp)).1

/-- **C113, where it fails.**  At the end of the input the prompt does not end: it has executed the lines, and from then on it adds the byte 255 to its buffer, for ever. -/
theorem C113_prompt_never_ends (quits : List (List Byte) → Bool) (input : List Byte)
    (h : (Repl.run quits input.length (Repl.start input)).over = false) (n : Nat) :
    Repl.run quits (input.length + n) (Repl.start input) = ⟨[], (textLines input).2 ++ List.replicate n 255, (textLines input).1, false⟩ := by
  have h1 := (repl_given quits input [] [] (by simp)).2 h
  have hadd : ∀ (a b : Nat) (s : Repl), Repl.run quits (a + b) s = Repl.run quits b (Repl.run quits a s) := by
    intro a
    induction a with
    | zero => intro b s; rw [Nat.zero_add]; rfl
    | succ a ih => intro b s; rw [Nat.succ_add]; exact ih b _
  rw [hadd]
  unfold Repl.start
  rw [h1]
  simp only [List.nil_append]
  have hrep : ∀ (n : Nat) (l : List Byte), Repl.run quits n ⟨[], l, (textLines input).1, false⟩ = ⟨[], l ++ List.replicate n 255, (textLines input).1, false⟩ := by
    intro n
    induction n with
    | zero => intro l; simp [Repl.run]
    | succ n ih =>
      intro l
      rw [Repl.run]
      simp only [Repl.step, Bool.false_eq_true, if_false]
      rw [ih, List.append_assoc, List.replicate_succ]; rfl
  exact hrep n _

example : textLines (word "let x = 1\nx\nq") = ([word "let x = 1\n", word "x\n"], word "q") ∧
    (Repl.run (fun _ => false) 13 (Repl.start (word "let x = 1\nx\nq"))).over = false ∧
    (Repl.run (fun ts => ts.getLast? == some (word "x\n")) 13 (Repl.start (word "x\nlet x = 1\nq"))).given = [word "x\n"] := by decide +kernel

end Yasl
