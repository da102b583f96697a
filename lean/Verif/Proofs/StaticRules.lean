import Verif.Spec.Static
set_option autoImplicit false
/-! # The rules of the language and those of the code -/
namespace Yasl

/-- The same place, in a loop or not. -/
def Seen.looping (v : Seen) (l : Bool) : Seen := { v with inLoop := l }

theorem looping_self (v : Seen) : v.looping v.inLoop = v := rfl
theorem looping_find (v : Seen) (l : Bool) (x : Name) : (v.looping l).find x = v.find x := rfl
theorem looping_afterL : ∀ (ls : List FTarget) (v : Seen) (l : Bool), afterL ls (v.looping l) = (afterL ls v).looping l
  | [], _, _ => rfl
  | .let_ x :: ls, v, l => looping_afterL ls (v.add x false) l
  | .const_ x :: ls, v, l => looping_afterL ls (v.add x true) l
  | .assign _ :: ls, v, l => looping_afterL ls v l
theorem afterL_inLoop : ∀ (ls : List FTarget) (v : Seen), (afterL ls v).inLoop = v.inLoop
  | [], _ => rfl
  | .let_ x :: ls, v => afterL_inLoop ls (v.add x false)
  | .const_ x :: ls, v => afterL_inLoop ls (v.add x true)
  | .assign _ :: ls, v => afterL_inLoop ls v
theorem looping_goodL : ∀ (ls : List FTarget) (v : Seen) (l : Bool), goodL ls (v.looping l) = goodL ls v
  | [], _, _ => rfl
  | .let_ x :: ls, v, l => congrArg (fun b => v.free x && (v.add x false).fits && b) (looping_goodL ls (v.add x false) l)
  | .const_ x :: ls, v, l => congrArg (fun b => v.free x && (v.add x true).fits && b) (looping_goodL ls (v.add x true) l)
  | .assign x :: ls, v, l => congrArg (fun b => v.find x == some false && b) (looping_goodL ls v l)
theorem looping_after (st : FStmt) (v : Seen) (l : Bool) : st.after (v.looping l) = (st.after v).looping l := by
  cases st with
  | multi ls es => exact looping_afterL ls v l
  | _ => rfl
theorem after_inLoop (st : FStmt) (v : Seen) : (st.after v).inLoop = v.inLoop := by
  cases st with
  | multi ls es => exact afterL_inLoop ls v
  | _ => rfl

theorem function_le (v : Seen) (l : Bool) (ps : List Name) :
    (v.looping l).inFunction .code ps = (v.inFunction .meant ps).looping (l && true) := rfl

mutual
theorem good_code : ∀ (e : FExpr) (v : Seen) (l : Bool), (v.inLoop = true → l = true) → e.noNever = true →
    e.good .meant v = true → e.good .code (v.looping l) = true
  | .lit _, _, _, _, _, _ => rfl
  | .var x, v, l, _, _, h => h
  | .un _ e, v, l, hl, hn, h => by
    rw [FExpr.noNever] at hn; rw [FExpr.good] at h ⊢; exact good_code e v l hl hn h
  | .ctx _ e, v, l, hl, hn, h => by
    rw [FExpr.noNever] at hn; rw [FExpr.good] at h ⊢; exact good_code e v l hl hn h
  | .bin _ a b, v, l, hl, hn, h => by
    simp only [FExpr.noNever, Bool.and_eq_true] at hn; simp only [FExpr.good, Bool.and_eq_true] at h ⊢
    exact ⟨good_code a v l hl hn.1 h.1, good_code b v l hl hn.2 h.2⟩
  | .get a b, v, l, hl, hn, h => by
    simp only [FExpr.noNever, Bool.and_eq_true] at hn; simp only [FExpr.good, Bool.and_eq_true] at h ⊢
    exact ⟨good_code a v l hl hn.1 h.1, good_code b v l hl hn.2 h.2⟩
  | .tri a b c, v, l, hl, hn, h => by
    simp only [FExpr.noNever, Bool.and_eq_true] at hn; simp only [FExpr.good, Bool.and_eq_true] at h ⊢
    exact ⟨⟨good_code a v l hl hn.1.1 h.1.1, good_code b v l hl hn.1.2 h.1.2⟩, good_code c v l hl hn.2 h.2⟩
  | .slice a b c, v, l, hl, hn, h => by
    simp only [FExpr.noNever, Bool.and_eq_true] at hn; simp only [FExpr.good, Bool.and_eq_true] at h ⊢
    exact ⟨⟨good_code a v l hl hn.1.1 h.1.1, good_code b v l hl hn.1.2 h.1.2⟩, good_code c v l hl hn.2 h.2⟩
  | .list es, v, l, hl, hn, h => by
    rw [FExpr.noNever] at hn; rw [FExpr.good] at h ⊢; exact goods_code es v l hl hn h
  | .table es, v, l, hl, hn, h => by
    rw [FExpr.noNever] at hn; rw [FExpr.good] at h ⊢; exact goods_code es v l hl hn h
  | .fn id ps body, v, l, hl, hn, h => by
    rw [FExpr.noNever] at hn; simp only [FExpr.good, Bool.and_eq_true] at h ⊢
    rw [function_le]
    refine ⟨⟨rfl, h.1.2⟩, ssGood_code body _ _ (fun hh => ?_) hn h.2⟩
    simp [Seen.inFunction] at hh
  | .call f args, v, l, hl, hn, h => by
    simp only [FExpr.noNever, Bool.and_eq_true] at hn; simp only [FExpr.good, Bool.and_eq_true] at h ⊢
    exact ⟨good_code f v l hl hn.1 h.1, goods_code args v l hl hn.2 h.2⟩
  | .mcall f _ args, v, l, hl, hn, h => by
    simp only [FExpr.noNever, Bool.and_eq_true] at hn; simp only [FExpr.good, Bool.and_eq_true] at h ⊢
    exact ⟨good_code f v l hl hn.1 h.1, goods_code args v l hl hn.2 h.2⟩
theorem goods_code : ∀ (es : FExprs) (v : Seen) (l : Bool), (v.inLoop = true → l = true) → es.noNever = true →
    es.good .meant v = true → es.good .code (v.looping l) = true
  | .nil, _, _, _, _, _ => rfl
  | .cons e es, v, l, hl, hn, h => by
    simp only [FExprs.noNever, Bool.and_eq_true] at hn; simp only [FExprs.good, Bool.and_eq_true] at h ⊢
    exact ⟨good_code e v l hl hn.1 h.1, goods_code es v l hl hn.2 h.2⟩
theorem sGood_code : ∀ (st : FStmt) (v : Seen) (l : Bool), (v.inLoop = true → l = true) → st.noNever = true →
    st.good .meant v = true → st.good .code (v.looping l) = true
  | .expr e, v, l, hl, hn, h => by
    rw [FStmt.noNever] at hn; rw [FStmt.good] at h ⊢; exact good_code e v l hl hn h
  | .echo e, v, l, hl, hn, h => by
    rw [FStmt.noNever] at hn; rw [FStmt.good] at h ⊢; exact good_code e v l hl hn h
  | .assert e, v, l, hl, hn, h => by
    rw [FStmt.noNever] at hn; rw [FStmt.good] at h ⊢; exact good_code e v l hl hn h
  | .let_ x e, v, l, hl, hn, h => by
    rw [FStmt.noNever] at hn; simp only [FStmt.good, Bool.and_eq_true] at h ⊢
    exact ⟨⟨good_code e v l hl hn h.1.1, h.1.2⟩, h.2⟩
  | .const_ x e, v, l, hl, hn, h => by
    rw [FStmt.noNever] at hn; simp only [FStmt.good, Bool.and_eq_true] at h ⊢
    exact ⟨⟨good_code e v l hl hn h.1.1, h.1.2⟩, h.2⟩
  | .multi ls es, v, l, hl, hn, h => by
    rw [FStmt.noNever] at hn; simp only [FStmt.good, Bool.and_eq_true] at h ⊢
    exact ⟨goods_code es v l hl hn h.1, (looping_goodL ls v l).trans h.2⟩
  | .assign x e, v, l, hl, hn, h => by
    rw [FStmt.noNever] at hn; simp only [FStmt.good, Bool.and_eq_true] at h ⊢
    exact ⟨good_code e v l hl hn h.1, h.2⟩
  | .set a b c, v, l, hl, hn, h => by
    simp only [FStmt.noNever, Bool.and_eq_true] at hn; simp only [FStmt.good, Bool.and_eq_true] at h ⊢
    exact ⟨⟨good_code a v l hl hn.1.1 h.1.1, good_code b v l hl hn.1.2 h.1.2⟩, good_code c v l hl hn.2 h.2⟩
  | .block ss, v, l, hl, hn, h => by
    rw [FStmt.noNever] at hn; rw [FStmt.good] at h ⊢; exact ssGood_code ss v.inBlock l hl hn h
  | .ifThen c t, v, l, hl, hn, h => by
    simp only [FStmt.noNever, Bool.and_eq_true] at hn; simp only [FStmt.good, Bool.and_eq_true] at h ⊢
    exact ⟨good_code c v l hl hn.1 h.1, sGood_code t v l hl hn.2 h.2⟩
  | .ifElse c t e, v, l, hl, hn, h => by
    simp only [FStmt.noNever, Bool.and_eq_true] at hn; simp only [FStmt.good, Bool.and_eq_true] at h ⊢
    exact ⟨⟨good_code c v l hl hn.1.1 h.1.1, sGood_code t v l hl hn.1.2 h.1.2⟩, sGood_code e v l hl hn.2 h.2⟩
  | .while_ c body, v, l, hl, hn, h => by
    simp only [FStmt.noNever, Bool.and_eq_true, Bool.not_eq_true'] at hn; simp only [FStmt.good, Bool.and_eq_true, Seen.whileBody, hn.1.1] at h ⊢
    exact ⟨good_code c v.loop true (fun _ => rfl) hn.1.2 h.1, sGood_code body v.loop true (fun _ => rfl) hn.2 h.2⟩
  | .loop c body post, v, l, hl, hn, h => by
    simp only [FStmt.noNever, Bool.and_eq_true, Bool.not_eq_true'] at hn
    simp only [FStmt.good, Bool.and_eq_true, Seen.whileBody, hn.1.1.1] at h ⊢
    exact ⟨⟨good_code c v.loop true (fun _ => rfl) hn.1.1.2 h.1.1, sGood_code body v.loop true (fun _ => rfl) hn.1.2 h.1.2⟩, sGood_code post v l hl hn.2 h.2⟩
  | .forIter x coll body, v, l, hl, hn, h => by
    simp only [FStmt.noNever, Bool.and_eq_true] at hn; simp only [FStmt.good, Bool.and_eq_true] at h ⊢
    exact ⟨⟨good_code coll v.inBlock l hl hn.1 h.1.1, h.1.2⟩, sGood_code body (v.inBlock.add x false).loop true (fun _ => rfl) hn.2 h.2⟩
  | .brk, v, l, hl, hn, h => hl h
  | .cont, v, l, hl, hn, h => hl h
  | .ret e, v, l, hl, hn, h => by
    rw [FStmt.noNever] at hn; simp only [FStmt.good, Bool.and_eq_true] at h ⊢
    exact ⟨h.1, good_code e v l hl hn h.2⟩
  | .fnDecl x id ps body, v, l, hl, hn, h => by
    rw [FStmt.noNever] at hn; simp only [FStmt.good, Bool.and_eq_true] at h ⊢
    refine ⟨⟨⟨h.1.1.1, rfl⟩, h.1.2⟩, ?_⟩
    have := ssGood_code body _ (l && true) (fun hh => by simp [Seen.inFunction] at hh) hn h.2
    exact this
theorem ssGood_code : ∀ (ss : FStmts) (v : Seen) (l : Bool), (v.inLoop = true → l = true) → ss.noNever = true →
    ss.good .meant v = true → ss.good .code (v.looping l) = true
  | .nil, _, _, _, _, _ => rfl
  | .cons st ss, v, l, hl, hn, h => by
    simp only [FStmts.noNever, Bool.and_eq_true] at hn; simp only [FStmts.good, Bool.and_eq_true] at h ⊢
    refine ⟨sGood_code st v l hl hn.1 h.1, ?_⟩
    rw [looping_after]
    exact ssGood_code ss _ l (by rw [after_inLoop]; exact hl) hn.2 h.2
end

mutual
theorem good_meant : ∀ (e : FExpr) (v : Seen) (l : Bool), (v.inLoop = true → l = true) → e.calm l = true →
    e.good .code v = true → e.good .meant (v.looping l) = true
  | .lit _, _, _, _, _, _ => rfl
  | .var x, v, l, _, _, h => h
  | .un _ e, v, l, hl, hn, h => by
    rw [FExpr.calm] at hn; rw [FExpr.good] at h ⊢; exact good_meant e v l hl hn h
  | .ctx _ e, v, l, hl, hn, h => by
    rw [FExpr.calm] at hn; rw [FExpr.good] at h ⊢; exact good_meant e v l hl hn h
  | .bin _ a b, v, l, hl, hn, h => by
    simp only [FExpr.calm, Bool.and_eq_true] at hn; simp only [FExpr.good, Bool.and_eq_true] at h ⊢
    exact ⟨good_meant a v l hl hn.1 h.1, good_meant b v l hl hn.2 h.2⟩
  | .get a b, v, l, hl, hn, h => by
    simp only [FExpr.calm, Bool.and_eq_true] at hn; simp only [FExpr.good, Bool.and_eq_true] at h ⊢
    exact ⟨good_meant a v l hl hn.1 h.1, good_meant b v l hl hn.2 h.2⟩
  | .tri a b c, v, l, hl, hn, h => by
    simp only [FExpr.calm, Bool.and_eq_true] at hn; simp only [FExpr.good, Bool.and_eq_true] at h ⊢
    exact ⟨⟨good_meant a v l hl hn.1.1 h.1.1, good_meant b v l hl hn.1.2 h.1.2⟩, good_meant c v l hl hn.2 h.2⟩
  | .slice a b c, v, l, hl, hn, h => by
    simp only [FExpr.calm, Bool.and_eq_true] at hn; simp only [FExpr.good, Bool.and_eq_true] at h ⊢
    exact ⟨⟨good_meant a v l hl hn.1.1 h.1.1, good_meant b v l hl hn.1.2 h.1.2⟩, good_meant c v l hl hn.2 h.2⟩
  | .list es, v, l, hl, hn, h => by
    rw [FExpr.calm] at hn; rw [FExpr.good] at h ⊢; exact goods_meant es v l hl hn h
  | .table es, v, l, hl, hn, h => by
    rw [FExpr.calm] at hn; rw [FExpr.good] at h ⊢; exact goods_meant es v l hl hn h
  | .fn id ps body, v, l, hl, hn, h => by
    simp only [FExpr.calm, Bool.and_eq_true, Bool.not_eq_true', decide_eq_true_eq] at hn; simp only [FExpr.good, Bool.and_eq_true] at h ⊢
    have hv : v.inLoop = false := by
      rcases hv : v.inLoop with _ | _
      · rfl
      · rw [hl hv] at hn; cases hn.1.1
    refine ⟨⟨by simp [okParams, hn.1.2], h.1.2⟩, ?_⟩
    have := ssGood_meant body (v.inFunction .code ps) false (by simp [Seen.inFunction, hv]) hn.2 h.2
    have e : (v.inFunction .code ps).looping false = (v.looping l).inFunction .meant ps := by
      simp [Seen.inFunction, Seen.looping]
    rw [← e]; exact this
  | .call f args, v, l, hl, hn, h => by
    simp only [FExpr.calm, Bool.and_eq_true] at hn; simp only [FExpr.good, Bool.and_eq_true] at h ⊢
    exact ⟨good_meant f v l hl hn.1 h.1, goods_meant args v l hl hn.2 h.2⟩
  | .mcall f _ args, v, l, hl, hn, h => by
    simp only [FExpr.calm, Bool.and_eq_true] at hn; simp only [FExpr.good, Bool.and_eq_true] at h ⊢
    exact ⟨good_meant f v l hl hn.1 h.1, goods_meant args v l hl hn.2 h.2⟩
theorem goods_meant : ∀ (es : FExprs) (v : Seen) (l : Bool), (v.inLoop = true → l = true) → es.calm l = true →
    es.good .code v = true → es.good .meant (v.looping l) = true
  | .nil, _, _, _, _, _ => rfl
  | .cons e es, v, l, hl, hn, h => by
    simp only [FExprs.calm, Bool.and_eq_true] at hn; simp only [FExprs.good, Bool.and_eq_true] at h ⊢
    exact ⟨good_meant e v l hl hn.1 h.1, goods_meant es v l hl hn.2 h.2⟩
theorem sGood_meant : ∀ (st : FStmt) (v : Seen) (l : Bool), (v.inLoop = true → l = true) → st.calm l = true →
    st.good .code v = true → st.good .meant (v.looping l) = true
  | .expr e, v, l, hl, hn, h => by
    rw [FStmt.calm] at hn; rw [FStmt.good] at h ⊢; exact good_meant e v l hl hn h
  | .echo e, v, l, hl, hn, h => by
    rw [FStmt.calm] at hn; rw [FStmt.good] at h ⊢; exact good_meant e v l hl hn h
  | .assert e, v, l, hl, hn, h => by
    rw [FStmt.calm] at hn; rw [FStmt.good] at h ⊢; exact good_meant e v l hl hn h
  | .let_ x e, v, l, hl, hn, h => by
    rw [FStmt.calm] at hn; simp only [FStmt.good, Bool.and_eq_true] at h ⊢
    exact ⟨⟨good_meant e v l hl hn h.1.1, h.1.2⟩, h.2⟩
  | .const_ x e, v, l, hl, hn, h => by
    rw [FStmt.calm] at hn; simp only [FStmt.good, Bool.and_eq_true] at h ⊢
    exact ⟨⟨good_meant e v l hl hn h.1.1, h.1.2⟩, h.2⟩
  | .multi ls es, v, l, hl, hn, h => by
    rw [FStmt.calm] at hn; simp only [FStmt.good, Bool.and_eq_true] at h ⊢
    exact ⟨goods_meant es v l hl hn h.1, (looping_goodL ls v l).trans h.2⟩
  | .assign x e, v, l, hl, hn, h => by
    rw [FStmt.calm] at hn; simp only [FStmt.good, Bool.and_eq_true] at h ⊢
    exact ⟨good_meant e v l hl hn h.1, h.2⟩
  | .set a b c, v, l, hl, hn, h => by
    simp only [FStmt.calm, Bool.and_eq_true] at hn; simp only [FStmt.good, Bool.and_eq_true] at h ⊢
    exact ⟨⟨good_meant a v l hl hn.1.1 h.1.1, good_meant b v l hl hn.1.2 h.1.2⟩, good_meant c v l hl hn.2 h.2⟩
  | .block ss, v, l, hl, hn, h => by
    rw [FStmt.calm] at hn; rw [FStmt.good] at h ⊢; exact ssGood_meant ss v.inBlock l hl hn h
  | .ifThen c t, v, l, hl, hn, h => by
    simp only [FStmt.calm, Bool.and_eq_true] at hn; simp only [FStmt.good, Bool.and_eq_true] at h ⊢
    exact ⟨good_meant c v l hl hn.1 h.1, sGood_meant t v l hl hn.2 h.2⟩
  | .ifElse c t e, v, l, hl, hn, h => by
    simp only [FStmt.calm, Bool.and_eq_true] at hn; simp only [FStmt.good, Bool.and_eq_true] at h ⊢
    exact ⟨⟨good_meant c v l hl hn.1.1 h.1.1, sGood_meant t v l hl hn.1.2 h.1.2⟩, sGood_meant e v l hl hn.2 h.2⟩
  | .while_ c body, v, l, hl, hn, h => by
    simp only [FStmt.calm, Bool.and_eq_true] at hn; simp only [FStmt.good, Bool.and_eq_true] at h ⊢
    have e1 : (v.looping l).whileBody .meant c = (v.whileBody .code c).looping true := by
      unfold Seen.whileBody; cases c.neverNode <;> rfl
    rw [e1]
    exact ⟨good_meant c _ true (fun _ => rfl) hn.1 h.1, sGood_meant body _ true (fun _ => rfl) hn.2 h.2⟩
  | .loop c body post, v, l, hl, hn, h => by
    simp only [FStmt.calm, Bool.and_eq_true] at hn; simp only [FStmt.good, Bool.and_eq_true] at h ⊢
    have e1 : (v.looping l).whileBody .meant c = (v.whileBody .code c).looping true := by
      unfold Seen.whileBody; cases c.neverNode <;> rfl
    rw [e1]
    exact ⟨⟨good_meant c _ true (fun _ => rfl) hn.1.1 h.1.1, sGood_meant body _ true (fun _ => rfl) hn.1.2 h.1.2⟩, sGood_meant post v l hl hn.2 h.2⟩
  | .forIter x coll body, v, l, hl, hn, h => by
    simp only [FStmt.calm, Bool.and_eq_true] at hn; simp only [FStmt.good, Bool.and_eq_true] at h ⊢
    exact ⟨⟨good_meant coll v.inBlock l hl hn.1 h.1.1, h.1.2⟩, sGood_meant body (v.inBlock.add x false).loop true (fun _ => rfl) hn.2 h.2⟩
  | .brk, v, l, hl, hn, h => hl h
  | .cont, v, l, hl, hn, h => hl h
  | .ret e, v, l, hl, hn, h => by
    rw [FStmt.calm] at hn; simp only [FStmt.good, Bool.and_eq_true] at h ⊢
    exact ⟨h.1, good_meant e v l hl hn h.2⟩
  | .fnDecl x id ps body, v, l, hl, hn, h => by
    simp only [FStmt.calm, Bool.and_eq_true, Bool.not_eq_true', decide_eq_true_eq] at hn; simp only [FStmt.good, Bool.and_eq_true] at h ⊢
    have hv : v.inLoop = false := by
      rcases hv : v.inLoop with _ | _
      · rfl
      · rw [hl hv] at hn; cases hn.1.1
    refine ⟨⟨⟨h.1.1.1, by simp [okParams, hn.1.2]⟩, h.1.2⟩, ?_⟩
    have := ssGood_meant body ((v.add x false).inFunction .code ps) false (by simp [Seen.inFunction, Seen.add, hv]) hn.2 h.2
    have e : ((v.add x false).inFunction .code ps).looping false = ((v.looping l).add x false).inFunction .meant ps := by
      simp [Seen.inFunction, Seen.looping, Seen.add]
    rw [← e]; exact this
theorem ssGood_meant : ∀ (ss : FStmts) (v : Seen) (l : Bool), (v.inLoop = true → l = true) → ss.calm l = true →
    ss.good .code v = true → ss.good .meant (v.looping l) = true
  | .nil, _, _, _, _, _ => rfl
  | .cons st ss, v, l, hl, hn, h => by
    simp only [FStmts.calm, Bool.and_eq_true] at hn; simp only [FStmts.good, Bool.and_eq_true] at h ⊢
    refine ⟨sGood_meant st v l hl hn.1 h.1, ?_⟩
    rw [looping_after]
    exact ssGood_meant ss _ l (by rw [after_inLoop]; exact hl) hn.2 h.2
end

end Yasl
