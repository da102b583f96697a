import Verif.Model.Fold
import Verif.Spec.Lang
import Verif.Props.Value
set_option autoImplicit false
/-!
# C27: constant folding preserves meaning

False in general: `===`, `!==` and `!` on float constants are folded with other rules than the interpreter's, and folding can be
undefined behaviour in code that is never executed.  True for all other expressions.
-/
namespace Yasl

/-- On these (folded) operands the folded `===` and the executed one agree: on two floats `==` is equality of bits; a float and an
int are not `==`. -/
def IdAgrees : Expr → Expr → Prop
  | .float a, .float b => feq a b = (a == b)
  | .float a, .int y => feq a (intToFloat y) = false
  | .int x, .float b => feq (intToFloat x) b = false
  | _, _ => True

mutual
/-- Every `===` and `!==` in the expression is applied to operands on which folding agrees, and no `!` is applied to a constant NaN. -/
def FoldSafe (F : FloatOps) : Expr → Prop
  | .un .not e => FoldSafe F e ∧ ∀ b, fold F e = some (.float b) → fnan b = false
  | .un _ e => FoldSafe F e
  | .bin t l r => FoldSafe F l ∧ FoldSafe F r ∧
    ((t = .op .id ∨ t = .nid) → ∀ l' r', fold F l = some l' → fold F r = some r' → IdAgrees l' r')
  | .tri c a b => FoldSafe F c ∧ FoldSafe F a ∧ FoldSafe F b
  | .list es => FoldSafes F es
  | .table es => FoldSafes F es
  | .get c k => FoldSafe F c ∧ FoldSafe F k
  | .slice c a b => FoldSafe F c ∧ FoldSafe F a ∧ FoldSafe F b
  | _ => True
def FoldSafes (F : FloatOps) : Exprs → Prop
  | .nil => True
  | .cons e es => FoldSafe F e ∧ FoldSafes F es
end

variable {W : Type}

theorem PRes.bind_ok {α β : Type} (w : W) (a : α) (k : W → α → PRes W β) : PRes.bind (w, Except.ok a) k = k w a := rfl

theorem foldInt_some {r : OpRes} {e : Expr} (h : foldInt r = some e) : ∃ i, r = .val (.int i) ∧ e = .int i := by
  unfold foldInt at h
  split at h
  · simp only [Option.some.injEq] at h; exact ⟨_, rfl, h.symm⟩
  · simp at h

theorem Val.int_beq (x y : BitVec 64) : (Val.int x == Val.int y) = (x == y) := by
  rw [Bool.eq_iff_iff]; simp

theorem Val.float_beq (x y : BitVec 64) : (Val.float x == Val.float y) = (x == y) := by
  rw [Bool.eq_iff_iff]; simp

theorem foldBin_eval (F : FloatOps) (P : Prims W) (ρ : Name → Option Val) {t : BinTok} {l r e : Expr}
    (hid : t = .op .id ∨ t = .nid → IdAgrees l r) (h : foldBin F t l r = some e) (w : W) :
    eval F P ρ e w = eval F P ρ (.bin t l r) w := by
  have hint : ∀ x y : BitVec 64, foldBin F t (.int x) (.int y) = some e →
      eval F P ρ e w = eval F P ρ (.bin t (.int x) (.int y)) w := by
    intro x y h
    simp only [foldBin] at h
    rcases t with o | _ | _ | _ | _ | _
    · cases o <;> simp only [foldIntInt] at h <;>
        first
        | (obtain ⟨i, hi, rfl⟩ := foldInt_some h
           simp only [eval, PRes.bind_ok, applyBin, binOp, intBinop, numBinop, hi])
        | (simp only [Option.some.injEq] at h; subst h
           simp [eval, PRes.bind_ok, applyBin, binOp, intBinop, compOp, isEqual, Val.isNum, Val.getNum, Val.int_beq])
        | skip
      · -- idiv
        split at h
        · rename_i hy
          obtain ⟨i, hi, rfl⟩ := foldInt_some h
          have : ¬ (Val.int y = Val.int 0) := by simpa using hy
          simp only [eval, PRes.bind_ok, applyBin, binOp, intBinop, if_neg this, hi]
        · simp only [Option.some.injEq] at h; subst h; rfl
      · -- mod
        split at h
        · split at h
          · simp at h
          · rename_i hy hm
            obtain ⟨i, hi, rfl⟩ := foldInt_some h
            have : ¬ (Val.int y = Val.int 0) := by simpa using hy
            simp only [eval, PRes.bind_ok, applyBin, binOp, intBinop, if_neg this, if_neg hm, hi]
        · simp only [Option.some.injEq] at h; subst h; rfl
    · simp only [foldIntInt, Option.some.injEq] at h; subst h
      simp [eval, PRes.bind_ok, applyBin, binOp, isEqual, Val.falsey, bne]
    · simp only [foldIntInt, Option.some.injEq] at h; subst h
      simp [eval, PRes.bind_ok, applyBin, binOp, Val.falsey, bne, Val.int_beq]
    all_goals (simp only [foldIntInt, Option.some.injEq] at h; subst h; rfl)
  have hflt : ∀ (l r : Expr) (vl vr : Val) (node : Expr), (∀ w, eval F P ρ l w = (w, .ok vl)) → (∀ w, eval F P ρ r w = (w, .ok vr)) →
      node = .bin t l r → vl.isNum = true → vr.isNum = true → (∃ b, vl = .float b) ∨ (∃ b, vr = .float b) →
      (t = .op .id ∨ t = .nid → feq vl.getNum vr.getNum = (vl == vr)) →
      eval F P ρ (foldFloat F node t vl.getNum vr.getNum) w = eval F P ρ (.bin t l r) w := by
    intro l r vl vr node hl hr hnode hnl hnr hf hid
    have hnum : ∀ (f : BitVec 64 → BitVec 64 → OpRes) (g : BitVec 64 → BitVec 64 → BitVec 64),
        numBinop f g vl vr = .val (.float (g vl.getNum vr.getNum)) := by
      intro f g
      rcases hf with ⟨b, rfl⟩ | ⟨b, rfl⟩
      · cases vr <;> simp_all [numBinop, Val.isNum]
      · cases vl <;> simp_all [numBinop, Val.isNum]
    have hcmp : ∀ (cmp : List Byte → List Byte → Int) (ci : Int → Int → Bool) (cf : BitVec 64 → BitVec 64 → Bool),
        compOp cmp ci cf vl vr = .val (.bool (cf vl.getNum vr.getNum)) := by
      intro cmp ci cf
      rcases hf with ⟨b, rfl⟩ | ⟨b, rfl⟩
      · cases vr <;> simp_all [compOp, Val.isNum]
      · cases vl <;> simp_all [compOp, Val.isNum]
    have heq : binOp F .eq vl vr = .val (.bool (feq vl.getNum vr.getNum)) := by
      rcases hf with ⟨b, rfl⟩ | ⟨b, rfl⟩
      · cases vr <;> simp_all [binOp, isEqual, Val.isNum]
      · cases vl <;> simp_all [binOp, isEqual, Val.isNum]
    have hidv : binOp F .id vl vr = .val (.bool (vl == vr)) := by
      rcases hf with ⟨b, rfl⟩ | ⟨b, rfl⟩
      · cases vr <;> simp_all [binOp, Val.isNum]
      · cases vl <;> simp_all [binOp, Val.isNum]
    rcases t with o | _ | _ | _ | _ | _
    · cases o <;> simp only [foldFloat, hnode] <;>
        simp [eval, hl, hr, PRes.bind_ok, applyBin, binOp, hnum, hcmp, hnl, hnr]
      · simp only [binOp] at heq; rw [heq]
      · simp only [binOp] at hidv; rw [hidv, hid (.inl rfl)]
    · simp [foldFloat, eval, hl, hr, PRes.bind_ok, applyBin, heq, Val.falsey]
    · simp [foldFloat, eval, hl, hr, PRes.bind_ok, applyBin, hidv, Val.falsey, hid (.inr rfl)]
    all_goals (simp only [foldFloat, hnode])
  unfold foldBin at h
  split at h
  · exact hint _ _ (by simpa only [foldBin] using h)
  · simp only [Option.some.injEq] at h; subst h
    refine hflt _ _ (.float _) (.float _) _ (fun _ => by simp [eval]) (fun _ => by simp [eval]) rfl rfl rfl (.inl ⟨_, rfl⟩) ?_
    intro ht; simpa [IdAgrees, Val.getNum, Val.float_beq] using hid ht
  · simp only [Option.some.injEq] at h; subst h
    refine hflt _ _ (.float _) (.int _) _ (fun _ => by simp [eval]) (fun _ => by simp [eval]) rfl rfl rfl (.inl ⟨_, rfl⟩) ?_
    intro ht; exact (hid ht).trans (by simp)
  · simp only [Option.some.injEq] at h; subst h
    refine hflt _ _ (.int _) (.float _) _ (fun _ => by simp [eval]) (fun _ => by simp [eval]) rfl rfl rfl (.inr ⟨_, rfl⟩) ?_
    intro ht; exact (hid ht).trans (by simp)
  · simp only [Option.some.injEq] at h; subst h; rfl

theorem foldUn_eval (F : FloatOps) (P : Prims W) (ρ : Name → Option Val) {op : UnOp} {e e' : Expr}
    (hnan : op = .not → ∀ b, e = .float b → fnan b = false) (h : foldUn op e = some e') (w : W) :
    eval F P ρ e' w = eval F P ρ (.un op e) w := by
  unfold foldUn at h
  split at h
  case h_2 => 
    obtain ⟨i, hi, rfl⟩ := foldInt_some h
    simp [eval, PRes.bind_ok, applyUn, unOp, hi]
  case h_8 =>
    simp only [Option.some.injEq] at h; subst h
    have := hnan rfl _ rfl
    simp [eval, PRes.bind_ok, applyUn, unOp, Val.falsey, feq, this]
  all_goals (simp only [Option.some.injEq] at h; subst h; try rfl)
  all_goals (rename_i b; cases b <;> rfl)

/-- Same meaning, in every environment and world. -/
def SameEval (F : FloatOps) (P : Prims W) (a b : Expr) : Prop := ∀ ρ w, eval F P ρ a w = eval F P ρ b w

theorem eval_bin_congr {F : FloatOps} {P : Prims W} {t : BinTok} {l l' r r' : Expr} (hl : SameEval F P l' l) (hr : SameEval F P r' r) :
    SameEval F P (.bin t l' r') (.bin t l r) := by
  intro ρ w
  rcases t with o | _ | _ | _ | _ | _ <;> simp only [eval, hl ρ, hr ρ]

mutual
theorem fold_same (F : FloatOps) (P : Prims W) : ∀ (e e' : Expr), FoldSafe F e → fold F e = some e' → SameEval F P e' e
  | .un op e, e', hs, h => by
    simp only [fold, Option.bind_eq_some_iff] at h
    obtain ⟨e1, h1, h2⟩ := h
    have hse : FoldSafe F e := by cases op <;> simp only [FoldSafe] at hs <;> first | exact hs | exact hs.1
    have ih := fold_same F P e e1 hse h1
    intro ρ w
    rw [foldUn_eval F P ρ ?_ h2 w]
    · simp only [eval, ih ρ]
    · rintro rfl b rfl
      simp only [FoldSafe] at hs
      exact hs.2 b h1
  | .bin t l r, e', hs, h => by
    simp only [fold, Option.bind_eq_some_iff] at h
    obtain ⟨l1, h1, r1, h2, h3⟩ := h
    simp only [FoldSafe] at hs
    intro ρ w
    rw [foldBin_eval F P ρ (fun ht => hs.2.2 ht _ _ h1 h2) h3 w]
    exact eval_bin_congr (fold_same F P l l1 hs.1 h1) (fold_same F P r r1 hs.2.1 h2) ρ w
  | .tri c a b, e', hs, h => by
    simp only [fold, Option.bind_eq_some_iff, Option.some.injEq] at h
    obtain ⟨c1, h1, a1, h2, b1, h3, rfl⟩ := h
    simp only [FoldSafe] at hs
    intro ρ w
    simp only [eval, fold_same F P c c1 hs.1 h1 ρ, fold_same F P a a1 hs.2.1 h2 ρ, fold_same F P b b1 hs.2.2 h3 ρ]
  | .list es, e', hs, h => by
    simp only [fold, Option.bind_eq_some_iff, Option.some.injEq] at h
    obtain ⟨es1, h1, rfl⟩ := h
    simp only [FoldSafe] at hs
    intro ρ w
    simp only [eval, folds_same F P es es1 hs h1 ρ]
  | .table es, e', hs, h => by
    simp only [fold, Option.bind_eq_some_iff, Option.some.injEq] at h
    obtain ⟨es1, h1, rfl⟩ := h
    simp only [FoldSafe] at hs
    intro ρ w
    simp only [eval, folds_same F P es es1 hs h1 ρ]
  | .get c k, e', hs, h => by
    simp only [fold, Option.bind_eq_some_iff, Option.some.injEq] at h
    obtain ⟨c1, h1, k1, h2, rfl⟩ := h
    simp only [FoldSafe] at hs
    intro ρ w
    simp only [eval, fold_same F P c c1 hs.1 h1 ρ, fold_same F P k k1 hs.2 h2 ρ]
  | .slice c a b, e', hs, h => by
    simp only [fold, Option.bind_eq_some_iff, Option.some.injEq] at h
    obtain ⟨c1, h1, a1, h2, b1, h3, rfl⟩ := h
    simp only [FoldSafe] at hs
    intro ρ w
    simp only [eval, fold_same F P c c1 hs.1 h1 ρ, fold_same F P a a1 hs.2.1 h2 ρ, fold_same F P b b1 hs.2.2 h3 ρ]
  | .undef, e', _, h => by simp only [fold, Option.some.injEq] at h; subst h; intro ρ w; rfl
  | .bool _, e', _, h => by simp only [fold, Option.some.injEq] at h; subst h; intro ρ w; rfl
  | .int _, e', _, h => by simp only [fold, Option.some.injEq] at h; subst h; intro ρ w; rfl
  | .float _, e', _, h => by simp only [fold, Option.some.injEq] at h; subst h; intro ρ w; rfl
  | .str _, e', _, h => by simp only [fold, Option.some.injEq] at h; subst h; intro ρ w; rfl
  | .var _, e', _, h => by simp only [fold, Option.some.injEq] at h; subst h; intro ρ w; rfl
theorem folds_same (F : FloatOps) (P : Prims W) : ∀ (es es' : Exprs), FoldSafes F es → foldBody F es = some es' →
    ∀ ρ w, evalAll F P ρ es' w = evalAll F P ρ es w
  | .nil, es', _, h => by simp only [foldBody, Option.some.injEq] at h; subst h; intro ρ w; rfl
  | .cons e es, es', hs, h => by
    simp only [foldBody, Option.bind_eq_some_iff, Option.some.injEq] at h
    obtain ⟨e1, h1, es1, h2, rfl⟩ := h
    simp only [FoldSafes] at hs
    intro ρ w
    simp only [evalAll, fold_same F P e e1 hs.1 h1 ρ, folds_same F P es es1 hs.2 h2 ρ]
end

/-- **C27** (partial).  The folded expression evaluates as the original one: same value or error, same effect on the world, in every
environment.  Missing: expressions with `===`/`!==` on float constants where `==` and identity differ, or `!` on a constant NaN (false:
`C27_identity_folded_wrong`, `C27_not_nan_folded_wrong`). -/
theorem C27_fold_partial (F : FloatOps) (P : Prims W) (e e' : Expr) (hs : FoldSafe F e) (h : fold F e = some e')
    (ρ : Name → Option Val) (w : W) : eval F P ρ e' w = eval F P ρ e w := fold_same F P e e' hs h ρ w

mutual
/-- `s` is `e` or a part of it. -/
inductive SubExpr : Expr → Expr → Prop where
  | refl (e : Expr) : SubExpr e e
  | un {s e : Expr} (op : UnOp) (h : SubExpr s e) : SubExpr s (.un op e)
  | binL {s l : Expr} (t : BinTok) (r : Expr) (h : SubExpr s l) : SubExpr s (.bin t l r)
  | binR {s r : Expr} (t : BinTok) (l : Expr) (h : SubExpr s r) : SubExpr s (.bin t l r)
  | tri1 {s c : Expr} (a b : Expr) (h : SubExpr s c) : SubExpr s (.tri c a b)
  | tri2 {s a : Expr} (c b : Expr) (h : SubExpr s a) : SubExpr s (.tri c a b)
  | tri3 {s b : Expr} (c a : Expr) (h : SubExpr s b) : SubExpr s (.tri c a b)
  | list {s : Expr} {es : Exprs} (h : SubExprs s es) : SubExpr s (.list es)
  | table {s : Expr} {es : Exprs} (h : SubExprs s es) : SubExpr s (.table es)
  | get1 {s c : Expr} (k : Expr) (h : SubExpr s c) : SubExpr s (.get c k)
  | get2 {s k : Expr} (c : Expr) (h : SubExpr s k) : SubExpr s (.get c k)
  | slice1 {s c : Expr} (a b : Expr) (h : SubExpr s c) : SubExpr s (.slice c a b)
  | slice2 {s a : Expr} (c b : Expr) (h : SubExpr s a) : SubExpr s (.slice c a b)
  | slice3 {s b : Expr} (c a : Expr) (h : SubExpr s b) : SubExpr s (.slice c a b)
/-- `s` is a part of one of the expressions. -/
inductive SubExprs : Expr → Exprs → Prop where
  | head {s e : Expr} (es : Exprs) (h : SubExpr s e) : SubExprs s (.cons e es)
  | tail {s : Expr} {es : Exprs} (e : Expr) (h : SubExprs s es) : SubExprs s (.cons e es)
end

/-- Evaluating the expression is undefined behaviour, in every environment. -/
def AlwaysUb (F : FloatOps) (P : Prims W) (e : Expr) : Prop := ∀ ρ w, eval F P ρ e w = (w, .error .ub)

theorem ofIntChecked_not_val {x : Int} (h : foldInt (ofIntChecked x) = none) : ofIntChecked x = .ub := by
  unfold ofIntChecked at *
  split at h
  · simp [foldInt] at h
  · rename_i hc; rw [if_neg hc]

theorem intShl_not_val {x y : BitVec 64} (h : foldInt (intShl x y) = none) : intShl x y = .ub := by
  unfold intShl at *
  split at h
  · rename_i hc; rw [if_pos hc]; exact ofIntChecked_not_val h
  · rename_i hc; rw [if_neg hc]

theorem intShr_not_val {x y : BitVec 64} (h : foldInt (intShr x y) = none) : intShr x y = .ub := by
  unfold intShr at *
  split at h
  · simp [foldInt] at h
  · rename_i hc; rw [if_neg hc]

theorem foldBin_none {F : FloatOps} {P : Prims W} {t : BinTok} {l r : Expr} (h : foldBin F t l r = none) :
    AlwaysUb F P (.bin t l r) := by
  unfold foldBin at h
  split at h <;> try simp at h
  rename_i x y
  intro ρ w
  rcases t with o | _ | _ | _ | _ | _
  · cases o <;> simp only [foldIntInt] at h <;> try (simp at h; done)
    case shl => simp [eval, PRes.bind_ok, applyBin, binOp, intBinop, intShl_not_val h]
    case shr => simp [eval, PRes.bind_ok, applyBin, binOp, intBinop, intShr_not_val h]
    case add => simp [eval, PRes.bind_ok, applyBin, binOp, numBinop, ofIntChecked_not_val h]
    case sub => simp [eval, PRes.bind_ok, applyBin, binOp, numBinop, ofIntChecked_not_val h]
    case mul => simp [eval, PRes.bind_ok, applyBin, binOp, numBinop, ofIntChecked_not_val h]
    case idiv =>
      split at h
      · rename_i hy
        have hy' : ¬ (Val.int y = Val.int 0) := by simpa using hy
        simp only [eval, PRes.bind_ok, applyBin, binOp, intBinop, if_neg hy', ofIntChecked_not_val h]
      · simp at h
    case mod =>
      split at h
      · rename_i hy
        have hy' : ¬ (Val.int y = Val.int 0) := by simpa using hy
        split at h
        · rename_i hm
          simp only [eval, PRes.bind_ok, applyBin, binOp, intBinop, if_neg hy', if_pos hm]
        · rename_i hm
          simp only [eval, PRes.bind_ok, applyBin, binOp, intBinop, if_neg hy', if_neg hm, ofIntChecked_not_val h]
      · simp at h
  all_goals simp [foldIntInt] at h

theorem foldUn_none {F : FloatOps} {P : Prims W} {op : UnOp} {e : Expr} (h : foldUn op e = none) : AlwaysUb F P (.un op e) := by
  unfold foldUn at h
  split at h <;> try simp at h
  intro ρ w
  simp [eval, PRes.bind_ok, applyUn, unOp, ofIntChecked_not_val h]

mutual
theorem fold_none (F : FloatOps) (P : Prims W) : ∀ (e : Expr), FoldSafe F e → fold F e = none →
    ∃ s, SubExpr s e ∧ AlwaysUb F P s
  | .un op e, hs, h => by
    have hse : FoldSafe F e := by cases op <;> simp only [FoldSafe] at hs <;> first | exact hs | exact hs.1
    simp only [fold] at h
    cases h1 : fold F e with
    | none => obtain ⟨s, a, b⟩ := fold_none F P e hse h1; exact ⟨s, .un op a, b⟩
    | some e1 =>
      rw [h1] at h
      refine ⟨_, .refl _, fun ρ w => ?_⟩
      have := foldUn_none (F := F) (P := P) (show foldUn op e1 = none from h) ρ w
      simpa only [eval, fold_same F P e e1 hse h1 ρ] using this
  | .bin t l r, hs, h => by
    simp only [FoldSafe] at hs
    simp only [fold] at h
    cases h1 : fold F l with
    | none => obtain ⟨s, a, b⟩ := fold_none F P l hs.1 h1; exact ⟨s, .binL t r a, b⟩
    | some l1 =>
      rw [h1] at h
      cases h2 : fold F r with
      | none => obtain ⟨s, a, b⟩ := fold_none F P r hs.2.1 h2; exact ⟨s, .binR t l a, b⟩
      | some r1 =>
        rw [h2] at h
        refine ⟨_, .refl _, fun ρ w => ?_⟩
        have := foldBin_none (F := F) (P := P) (show foldBin F t l1 r1 = none from h) ρ w
        rw [← this]
        exact (eval_bin_congr (fold_same F P l l1 hs.1 h1) (fold_same F P r r1 hs.2.1 h2) ρ w).symm
  | .tri c a b, hs, h => by
    simp only [FoldSafe] at hs
    simp only [fold] at h
    cases h1 : fold F c with
    | none => obtain ⟨s, x, y⟩ := fold_none F P c hs.1 h1; exact ⟨s, .tri1 _ _ x, y⟩
    | some c1 =>
      cases h2 : fold F a with
      | none => obtain ⟨s, x, y⟩ := fold_none F P a hs.2.1 h2; exact ⟨s, .tri2 _ _ x, y⟩
      | some a1 =>
        cases h3 : fold F b with
        | none => obtain ⟨s, x, y⟩ := fold_none F P b hs.2.2 h3; exact ⟨s, .tri3 _ _ x, y⟩
        | some b1 => simp [h1, h2, h3] at h
  | .list es, hs, h => by
    simp only [FoldSafe] at hs
    simp only [fold] at h
    cases h1 : foldBody F es with
    | none => obtain ⟨s, x, y⟩ := folds_none F P es hs h1; exact ⟨s, .list x, y⟩
    | some c1 => simp [h1] at h
  | .table es, hs, h => by
    simp only [FoldSafe] at hs
    simp only [fold] at h
    cases h1 : foldBody F es with
    | none => obtain ⟨s, x, y⟩ := folds_none F P es hs h1; exact ⟨s, .table x, y⟩
    | some c1 => simp [h1] at h
  | .get c k, hs, h => by
    simp only [FoldSafe] at hs
    simp only [fold] at h
    cases h1 : fold F c with
    | none => obtain ⟨s, x, y⟩ := fold_none F P c hs.1 h1; exact ⟨s, .get1 _ x, y⟩
    | some c1 =>
      cases h2 : fold F k with
      | none => obtain ⟨s, x, y⟩ := fold_none F P k hs.2 h2; exact ⟨s, .get2 _ x, y⟩
      | some a1 => simp [h1, h2] at h
  | .slice c a b, hs, h => by
    simp only [FoldSafe] at hs
    simp only [fold] at h
    cases h1 : fold F c with
    | none => obtain ⟨s, x, y⟩ := fold_none F P c hs.1 h1; exact ⟨s, .slice1 _ _ x, y⟩
    | some c1 =>
      cases h2 : fold F a with
      | none => obtain ⟨s, x, y⟩ := fold_none F P a hs.2.1 h2; exact ⟨s, .slice2 _ _ x, y⟩
      | some a1 =>
        cases h3 : fold F b with
        | none => obtain ⟨s, x, y⟩ := fold_none F P b hs.2.2 h3; exact ⟨s, .slice3 _ _ x, y⟩
        | some b1 => simp [h1, h2, h3] at h
  | .undef, _, h => by simp [fold] at h
  | .bool _, _, h => by simp [fold] at h
  | .int _, _, h => by simp [fold] at h
  | .float _, _, h => by simp [fold] at h
  | .str _, _, h => by simp [fold] at h
  | .var _, _, h => by simp [fold] at h
theorem folds_none (F : FloatOps) (P : Prims W) : ∀ (es : Exprs), FoldSafes F es → foldBody F es = none →
    ∃ s, SubExprs s es ∧ AlwaysUb F P s
  | .nil, _, h => by simp [foldBody] at h
  | .cons e es, hs, h => by
    simp only [FoldSafes] at hs
    simp only [foldBody] at h
    cases h1 : fold F e with
    | none => obtain ⟨s, x, y⟩ := fold_none F P e hs.1 h1; exact ⟨s, .head _ x, y⟩
    | some c1 =>
      cases h2 : foldBody F es with
      | none => obtain ⟨s, x, y⟩ := folds_none F P es hs.2 h2; exact ⟨s, .tail _ x, y⟩
      | some a1 => simp [h1, h2] at h
end

/-- **C27** (partial): folding is itself undefined behaviour only if some part of the expression would always be, when evaluated. -/
theorem C27_fold_defined_partial (F : FloatOps) (P : Prims W) (e : Expr) (hs : FoldSafe F e) (h : fold F e = none) :
    ∃ s, SubExpr s e ∧ AlwaysUb F P s := fold_none F P e hs h

/-- `(2 + 3) * x < 7 ? [1 // 0, 4 === 4] : !1.5`. -/
def foldExample : Expr :=
  .tri (.bin (.op .lt) (.bin (.op .mul) (.bin (.op .add) (.int 2) (.int 3)) (.var [120])) (.int 7))
    (.list (.cons (.bin (.op .idiv) (.int 1) (.int 0)) (.cons (.bin (.op .id) (.int 4) (.int 4)) .nil)))
    (.un .not (.float 0x3FF8000000000000#64))

/-- Non-vacuity: `foldExample` is in the class, and folds to `5 * x < 7 ? [1 // 0, true] : false`. -/
example (F : FloatOps) : FoldSafe F foldExample ∧
    fold F foldExample = some (.tri (.bin (.op .lt) (.bin (.op .mul) (.int 5) (.var [120])) (.int 7))
      (.list (.cons (.bin (.op .idiv) (.int 1) (.int 0)) (.cons (.bool true) .nil))) (.bool false)) := by
  refine ⟨?_, ?_⟩
  · simp [foldExample, FoldSafe, FoldSafes, fold, IdAgrees]
    decide +kernel
  · simp [foldExample, fold, foldBody, foldBin, foldIntInt, foldInt, foldUn, ofIntChecked]

/-- **C27** fails: `1.0 === 1` is `false` when executed but is folded to `true`. -/
theorem C27_identity_folded_wrong (F : FloatOps) (P : Prims W) (ρ : Name → Option Val) (w : W) :
    let e := Expr.bin (.op .id) (.float 0x3FF0000000000000#64) (.int 1)
    fold F e = some (.bool true) ∧ eval F P ρ e w = (w, .ok (.bool false)) := by
  refine ⟨?_, ?_⟩
  · have : feq 0x3FF0000000000000#64 (intToFloat 1#64) = true := by decide +kernel
    simp [fold, foldBin, foldFloat, this]
  · simp [eval, PRes.bind_ok, applyBin, binOp]

/-- **C27** fails: if `0.0 / 0.0` is a NaN, `!(0.0 / 0.0)` is `true` when executed but is folded to `false`. -/
theorem C27_not_nan_folded_wrong (F : FloatOps) (hF : fnan (F.div 0 0) = true) (P : Prims W) (ρ : Name → Option Val) (w : W) :
    let e := Expr.un .not (.bin (.op .fdiv) (.float 0) (.float 0))
    fold F e = some (.bool false) ∧ eval F P ρ e w = (w, .ok (.bool true)) := by
  refine ⟨by simp [fold, foldBin, foldFloat, foldUn], ?_⟩
  replace hF : fnan (F.div 0#64 0#64) = true := hF
  simp [eval, PRes.bind_ok, applyBin, applyUn, unOp, binOp, Val.isNum, Val.getNum, Val.falsey, feq, hF]

/-- **C27** fails: `true ? 1 : 9223372036854775807 + 1` evaluates to 1, but folding it is undefined behaviour in the compiler. -/
theorem C27_dead_overflow (F : FloatOps) (P : Prims W) (ρ : Name → Option Val) (w : W) :
    let e := Expr.tri (.bool true) (.int 1) (.bin (.op .add) (.int 9223372036854775807#64) (.int 1))
    fold F e = none ∧ eval F P ρ e w = (w, .ok (.int 1)) := by
  refine ⟨by simp [fold, foldBin, foldIntInt, ofIntChecked, foldInt], ?_⟩
  simp [eval, PRes.bind_ok, Val.falsey]

end Yasl
