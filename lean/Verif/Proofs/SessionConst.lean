import Verif.Proofs.SessionKept
set_option autoImplicit false
/-! # A constant of the prompt stays one -/
namespace Yasl

theorem Scope.get_put_self (sc : Scope) (x : Name) (v : BitVec 64) : (sc.put x v).get x = some v := by
  by_cases h : sc.get x = none
  · rw [Scope.put, if_pos h]; simp [Scope.get]
  · rw [Scope.put, if_neg h]
    induction sc with
    | nil => exact absurd rfl h
    | cons p sc ih =>
      rw [List.map_cons, Scope.get]
      by_cases hp : (p.1 == x) = true
      · rw [if_pos hp]; simp
      · rw [if_neg hp, List.find?_cons_of_neg (by simpa using hp)]
        exact ih (by rw [Scope.get, List.find?_cons_of_neg (by simpa using hp)] at h; exact h)

theorem Scope.get_put_other (sc : Scope) {x y : Name} (h : x ≠ y) (v : BitVec 64) : (sc.put x v).get y = sc.get y := by
  by_cases hx : sc.get x = none
  · rw [Scope.put, if_pos hx, Scope.get, List.find?_cons_of_neg (by simpa using h)]; rfl
  · rw [Scope.put, if_neg hx]
    clear hx
    induction sc with
    | nil => rfl
    | cons p sc ih =>
      rw [List.map_cons]
      by_cases hp : p.1 = x
      · rw [if_pos (by simpa using hp), Scope.get, List.find?_cons_of_neg (by simpa using h)]
        rw [Scope.get, List.find?_cons_of_neg (by simpa [hp] using h)]
        exact ih
      · rw [if_neg (by simpa using hp)]
        by_cases hy : p.1 = y
        · simp [Scope.get, hy]
        · rw [Scope.get, List.find?_cons_of_neg (by simpa using hy), Scope.get, List.find?_cons_of_neg (by simpa using hy)]
          exact ih

/-- What does not change: the depth of the scopes and the fact that `x` is a constant. -/
structure CKept (x : Name) (s s' : CState) : Prop where
  depth : s'.scopes.length = s.scopes.length
  const : ∀ v, s.globals.get x = some v → isConst v = true → s'.globals.get x = some v

variable {x : Name}

theorem CKept.refl (s : CState) : CKept x s s := ⟨rfl, fun _ h _ => h⟩
theorem CKept.trans {a b c : CState} (h1 : CKept x a b) (h2 : CKept x b c) : CKept x a c :=
  ⟨h2.depth.trans h1.depth, fun v h hv => h2.const v (h1.const v h hv) hv⟩
theorem CKept.same {a b : CState} (h1 : b.scopes = a.scopes) (h2 : b.globals = a.globals) : CKept x a b := ⟨by rw [h1], fun v h _ => by rw [h2]; exact h⟩
theorem CKept.of {s a b : CState} (h : CKept x s a) (h1 : b.scopes = a.scopes) (h2 : b.globals = a.globals) : CKept x s b := h.trans (.same h1 h2)

theorem intern_same (s : CState) (v : Val) : (s.intern v).2.scopes = s.scopes ∧ (s.intern v).2.globals = s.globals := by
  unfold CState.intern; split <;> exact ⟨rfl, rfl⟩
theorem literal_same (s : CState) (i : Nat) : (s.literal i).scopes = s.scopes ∧ (s.literal i).globals = s.globals := by
  unfold CState.literal; split <;> exact ⟨rfl, rfl⟩
theorem pushLiteral_same (s : CState) (v : Val) : (s.pushLiteral v).scopes = s.scopes ∧ (s.pushLiteral v).globals = s.globals := by
  have h1 := intern_same s v
  have h2 := literal_same (s.intern v).2 (s.intern v).1
  exact ⟨h2.1.trans h1.1, h2.2.trans h1.2⟩
theorem loadVar_same (s : CState) (y : Name) : (s.loadVar y).scopes = s.scopes ∧ (s.loadVar y).globals = s.globals := by
  unfold CState.loadVar; repeat' split
  all_goals exact ⟨rfl, rfl⟩
theorem storeVar_same (s : CState) (y : Name) : (s.storeVar y).scopes = s.scopes ∧ (s.storeVar y).globals = s.globals := by
  unfold CState.storeVar; repeat' split
  all_goals exact ⟨rfl, rfl⟩

theorem CKept.storeVar (s : CState) (y : Name) : CKept x s (s.storeVar y) := .same (storeVar_same s y).1 (storeVar_same s y).2

mutual
theorem visitExpr_same : ∀ (e : Expr) (s : CState), (visitExpr e s).scopes = s.scopes ∧ (visitExpr e s).globals = s.globals
  | .undef, s | .bool _, s => ⟨rfl, rfl⟩
  | .int i, s => pushLiteral_same s _
  | .float i, s => pushLiteral_same s _
  | .str i, s => pushLiteral_same s _
  | .var y, s => loadVar_same s y
  | .un o e, s => visitExpr_same e s
  | .bin (.op o) l r, s => by
    have h1 := visitExpr_same l s; have h2 := visitExpr_same r (visitExpr l s)
    exact ⟨h2.1.trans h1.1, h2.2.trans h1.2⟩
  | .bin .ne l r, s => by
    have h1 := visitExpr_same l s; have h2 := visitExpr_same r (visitExpr l s)
    exact ⟨h2.1.trans h1.1, h2.2.trans h1.2⟩
  | .bin .nid l r, s => by
    have h1 := visitExpr_same l s; have h2 := visitExpr_same r (visitExpr l s)
    exact ⟨h2.1.trans h1.1, h2.2.trans h1.2⟩
  | .bin .and l r, s => by
    have h1 := visitExpr_same l s; have h2 := visitExpr_same r ((visitExpr l s).shortcircuit .BRF_8)
    exact ⟨h2.1.trans h1.1, h2.2.trans h1.2⟩
  | .bin .or l r, s => by
    have h1 := visitExpr_same l s; have h2 := visitExpr_same r ((visitExpr l s).shortcircuit .BRT_8)
    exact ⟨h2.1.trans h1.1, h2.2.trans h1.2⟩
  | .bin .coalesce l r, s => by
    have h1 := visitExpr_same l s; have h2 := visitExpr_same r ((visitExpr l s).shortcircuit .BRN_8)
    exact ⟨h2.1.trans h1.1, h2.2.trans h1.2⟩
  | .tri c a b, s => by
    have h1 := visitExpr_same c s
    have h2 := visitExpr_same a ((visitExpr c s).jump .BRF_8)
    have h3 := visitExpr_same b (((visitExpr a ((visitExpr c s).jump .BRF_8)).jump .BR_8).patch ((visitExpr c s).buffer.length + 1))
    exact ⟨h3.1.trans (h2.1.trans h1.1), h3.2.trans (h2.2.trans h1.2)⟩
  | .list es, s => visitExprs_same es (s.op .END)
  | .table es, s => visitExprs_same es (s.op .END)
  | .get c k, s => by
    have h1 := visitExpr_same c s; have h2 := visitExpr_same k (visitExpr c s)
    exact ⟨h2.1.trans h1.1, h2.2.trans h1.2⟩
  | .slice c a b, s => by
    have h1 := visitExpr_same c s; have h2 := visitExpr_same a (visitExpr c s); have h3 := visitExpr_same b (visitExpr a (visitExpr c s))
    exact ⟨h3.1.trans (h2.1.trans h1.1), h3.2.trans (h2.2.trans h1.2)⟩
theorem visitExprs_same : ∀ (es : Exprs) (s : CState), (visitExprs es s).scopes = s.scopes ∧ (visitExprs es s).globals = s.globals
  | .nil, s => ⟨rfl, rfl⟩
  | .cons e es, s => by
    have h1 := visitExpr_same e s; have h2 := visitExprs_same es (visitExpr e s)
    exact ⟨h2.1.trans h1.1, h2.2.trans h1.2⟩
end

theorem CKept.expr (e : Expr) (s : CState) : CKept x s (visitExpr e s) := .same (visitExpr_same e s).1 (visitExpr_same e s).2
theorem CKept.exprs (e : Exprs) (s : CState) : CKept x s (visitExprs e s) := .same (visitExprs_same e s).1 (visitExprs_same e s).2

/-- A declaration of a name that is not in the scope yet. -/
theorem CKept.declVar (s : CState) (y : Name) (h : s.containsCur y = false) : CKept x s (s.declVar y) := by
  unfold CState.declVar
  split
  · rename_i sc scs hs
    dsimp only
    split <;> exact ⟨by simp [CState.error, hs], fun v h _ => h⟩
  · rename_i hs
    have hi := intern_same s (.str y)
    refine ⟨by dsimp only; rw [hi.1], fun v hv _ => ?_⟩
    have hne : y ≠ x := by
      rintro rfl
      rw [CState.containsCur, hs] at h
      dsimp only at h
      rw [hv] at h; cases h
    dsimp only
    rw [Scope.get_put_other _ hne, hi.2]; exact hv

theorem CKept.makeConst (s : CState) (y : Name) (h : s.scopes = [] → y ≠ x) : CKept x s (s.makeConst y) := by
  unfold CState.makeConst
  split
  · rename_i hs
    split
    · refine ⟨rfl, fun v hv _ => ?_⟩
      dsimp only
      rw [Scope.get_put_other _ (h hs)]; exact hv
    · exact .refl s
  · refine ⟨scopeMakeConst_length _ _, fun v hv _ => hv⟩

/-- Names of globals that are not declared are not constants. -/
theorem CKept.declConst (s : CState) (y : Name) (h : s.containsCur y = false) :
    CKept x s ((if (s.declVar y).scopes = [] then (((s.declVar y).op .MOVEUP_FP).emit 0).storeVar y else s.declVar y).makeConst y) := by
  have h1 := CKept.declVar (x := x) s y h
  have h2 : ∀ t : CState, t.scopes.length = s.scopes.length → t.scopes = [] → s.scopes = [] := fun t e h => List.length_eq_zero_iff.1 (by rw [← e, h]; rfl)
  by_cases hx : y = x
  · subst hx
    cases hs : s.scopes with
    | nil =>
      refine ⟨?_, fun v hv _ => ?_⟩
      · have h3 := (CKept.storeVar (x := y ++ [0]) (((s.declVar y).op .MOVEUP_FP).emit 0) y)
        have e0 : (s.declVar y).scopes = [] := List.length_eq_zero_iff.1 (by rw [h1.depth, hs]; rfl)
        rw [if_pos e0]
        have h4 := CKept.makeConst (x := y ++ [0]) ((((s.declVar y).op .MOVEUP_FP).emit 0).storeVar y) y (fun _ e => by simpa using congrArg List.length e)
        rw [h4.depth, h3.depth]; exact h1.depth
      · rw [CState.containsCur, hs] at h; dsimp only at h; rw [hv] at h; cases h
    | cons sc scs =>
      have e0 : (s.declVar y).scopes ≠ [] := fun e => by have := h2 _ h1.depth e; rw [hs] at this; cases this
      rw [if_neg e0]
      exact h1.trans (.makeConst _ _ fun e => absurd e e0)
  · split
    · exact (h1.of (b := ((s.declVar y).op .MOVEUP_FP).emit 0) rfl rfl).trans ((CKept.storeVar _ y).trans (.makeConst _ _ fun _ => hx))
    · exact h1.trans (.makeConst _ _ fun _ => hx)

theorem CKept.lvals : ∀ (ls : List LVal) (s : CState), CKept x s (visitLVals ls s)
  | [], s => .refl s
  | .assign y :: ls, s => by
    rw [visitLVals]
    split
    · exact .same rfl rfl
    · have h1 := CKept.storeVar (x := x) ((s.op .MOVEUP_FP).emit (BitVec.ofNat 8 (scopeLen s.scopes))) y
      exact ((CKept.same rfl rfl : CKept x s ((s.op .MOVEUP_FP).emit (BitVec.ofNat 8 (scopeLen s.scopes)))).trans h1).trans (CKept.lvals ls _)
  | .set c k :: ls, s => by
    rw [visitLVals]
    refine CKept.trans ?_ (CKept.lvals ls _)
    exact ((CKept.expr c s).trans (CKept.expr k _)).of rfl rfl
  | .let_ y :: ls, s => by
    rw [visitLVals]
    split
    · exact .same rfl rfl
    · rename_i h
      have h1 := CKept.declVar (x := x) s y (by simpa using h)
      refine CKept.trans ?_ (CKept.lvals ls _)
      split
      · exact (h1.of (b := ((s.declVar y).op .MOVEUP_FP).emit 0) rfl rfl).trans (CKept.storeVar _ y)
      · exact h1
  | .const_ y :: ls, s => by
    rw [visitLVals]
    split
    · exact .same rfl rfl
    · rename_i h
      exact (CKept.declConst s y (by simpa using h)).trans (CKept.lvals ls _)

theorem CKept.exitScope {s : CState} {f : CState → CState} (h : CKept x s.enterScope (f s.enterScope)) : CKept x s (f s.enterScope).exitScope := by
  have h1 : (f s.enterScope).scopes.length = s.scopes.length + 1 := h.depth
  have h2 : ∀ v, s.globals.get x = some v → isConst v = true → (f s.enterScope).globals.get x = some v := h.const
  generalize f s.enterScope = t at h1 h2
  unfold CState.exitScope
  split
  · rename_i sc scs hs; rw [hs] at h1; exact ⟨by simpa using h1, h2⟩
  · rename_i hs; rw [hs] at h1; simp at h1

theorem CKept.while {c : Expr} {body post : CState → CState} {b : Bool} (hb : ∀ s : CState, CKept x s (body s)) (hp : ∀ s : CState, CKept x s (post s)) (s : CState) :
    CKept x s (visitWhile c body post b s) := by
  unfold visitWhile
  split
  · have h1 : CKept x s (s.validated (body s)) := (hb s).of rfl rfl
    dsimp only
    split
    · exact h1.trans ((hp _).of rfl rfl)
    · exact h1
  · dsimp only
    have h1 : CKept x s (if b = true then (post (s.jump .BR_8)).patch (s.buffer.length + 1) else s) := by
      split
      · exact ((CKept.same (a := s) (b := s.jump .BR_8) rfl rfl).trans (hp _)).of rfl rfl
      · exact .refl s
    generalize (if b = true then (post (s.jump .BR_8)).patch (s.buffer.length + 1) else s) = s1 at h1
    generalize (if b = true then (s.jump .BR_8).buffer.length else s.buffer.length) = st
    have h2 := (h1.of (b := s1.addCheckpoint st) rfl rfl).trans (CKept.expr c _)
    generalize visitExpr c (s1.addCheckpoint st) = s2 at h2
    have h3 := (h2.of (b := (s2.addCheckpoint s2.buffer.length).jump .BRF_8) rfl rfl).trans (hb _)
    exact h3.of rfl rfl

mutual
theorem CKept.stmt : ∀ (st : Stmt) (s : CState), CKept x s (visitStmt st s)
  | .expr e, s => by
    simp only [visitStmt]
    split
    · exact .refl s
    · split <;> exact (CKept.expr e s).of rfl rfl
  | .post (.assign y e), s => by rw [visitStmt]; exact CKept.stmt (.assign y e) s
  | .post (.set c k v), s => by rw [visitStmt]; exact CKept.stmt (.set c k v) s
  | .post (.expr e), s => by simp only [visitStmt.eq_def (.post (.expr e))]; exact (CKept.stmt (.expr e) s).of rfl rfl
  | .post (.post st), s => by simp only [visitStmt.eq_def (.post (.post st))]; exact (CKept.stmt (.post st) s).of rfl rfl
  | .post (.decl ls rs), s => by simp only [visitStmt.eq_def (.post (.decl ls rs))]; exact (CKept.stmt (.decl ls rs) s).of rfl rfl
  | .post (.letOne y e), s => by simp only [visitStmt.eq_def (.post (.letOne y e))]; exact (CKept.stmt (.letOne y e) s).of rfl rfl
  | .post (.echo e), s => by simp only [visitStmt.eq_def (.post (.echo e))]; exact (CKept.stmt (.echo e) s).of rfl rfl
  | .post (.assert e), s => by simp only [visitStmt.eq_def (.post (.assert e))]; exact (CKept.stmt (.assert e) s).of rfl rfl
  | .post (.block ss), s => by simp only [visitStmt.eq_def (.post (.block ss))]; exact (CKept.stmt (.block ss) s).of rfl rfl
  | .post (.ifThen c t), s => by simp only [visitStmt.eq_def (.post (.ifThen c t))]; exact (CKept.stmt (.ifThen c t) s).of rfl rfl
  | .post (.ifElse c t e), s => by simp only [visitStmt.eq_def (.post (.ifElse c t e))]; exact (CKept.stmt (.ifElse c t e) s).of rfl rfl
  | .post (.while_ c b), s => by simp only [visitStmt.eq_def (.post (.while_ c b))]; exact (CKept.stmt (.while_ c b) s).of rfl rfl
  | .post (.forLoop c b p), s => by simp only [visitStmt.eq_def (.post (.forLoop c b p))]; exact (CKept.stmt (.forLoop c b p) s).of rfl rfl
  | .post (.forIter y c b), s => by simp only [visitStmt.eq_def (.post (.forIter y c b))]; exact (CKept.stmt (.forIter y c b) s).of rfl rfl
  | .post .brk, s => by simp only [visitStmt.eq_def (.post .brk)]; exact (CKept.stmt .brk s).of rfl rfl
  | .post .cont, s => by simp only [visitStmt.eq_def (.post .cont)]; exact (CKept.stmt .cont s).of rfl rfl
  | .decl ls rs, s => by rw [visitStmt]; exact (CKept.exprs rs s).trans (CKept.lvals ls _)
  | .letOne y e, s => by
    simp only [visitStmt]
    split
    · exact .same rfl rfl
    · rename_i h
      have hs := visitExpr_same e s
      have h1 := (CKept.expr (x := x) e s).trans (CKept.declVar (visitExpr e s) y (by
        rw [CState.containsCur, hs.1, hs.2]; simpa [CState.containsCur] using h))
      split
      · exact h1
      · exact h1.trans (.storeVar _ y)
  | .assign y e, s => by
    simp only [visitStmt]
    split
    · exact .same rfl rfl
    · exact (CKept.expr e s).trans (.storeVar _ y)
  | .set c k v, s => by
    rw [visitStmt]; exact (((CKept.expr c s).trans (CKept.expr k _)).trans (CKept.expr v _)).of rfl rfl
  | .echo e, s => by simp only [visitStmt]; exact (CKept.expr e s).of rfl rfl
  | .assert e, s => by simp only [visitStmt]; exact (CKept.expr e s).of rfl rfl
  | .block ss, s => by rw [visitStmt]; exact CKept.exitScope (f := visitStmts ss) (CKept.stmts ss s.enterScope)
  | .ifThen c t, s => by
    simp only [visitStmt]
    split
    · exact CKept.stmt t s
    · split
      · exact (CKept.stmt t s).of rfl rfl
      · exact (((CKept.expr c s).of (b := (visitExpr c s).jump .BRF_8) rfl rfl).trans (CKept.stmt t _)).of rfl rfl
  | .ifElse c t e, s => by
    simp only [visitStmt]
    split
    · exact ((CKept.stmt t s).trans (CKept.stmt e _)).of rfl rfl
    · split
      · exact ((CKept.stmt t s).of (b := s.validated (visitStmt t s)) rfl rfl).trans (CKept.stmt e _)
      · have h1 := ((CKept.expr (x := x) c s).of (b := (visitExpr c s).jump .BRF_8) rfl rfl).trans (CKept.stmt t _)
        exact ((h1.of (b := ((visitStmt t ((visitExpr c s).jump .BRF_8)).jump .BR_8).patch ((visitExpr c s).buffer.length + 1)) rfl rfl).trans (CKept.stmt e _)).of rfl rfl
  | .while_ c body, s => by rw [visitStmt]; exact CKept.while (fun s => CKept.stmt body s) (fun s => .refl s) s
  | .forLoop c body post, s => by rw [visitStmt]; exact CKept.while (fun s => CKept.stmt body s) (fun s => CKept.stmt post s) s
  | .forIter y coll body, s => by
    simp only [visitStmt]
    have hs := visitExpr_same coll s.enterScope
    have h0 : CKept x s.enterScope (((visitExpr coll s.enterScope).op .INITFOR).op .END) := (CKept.expr coll s.enterScope).of rfl rfl
    have h1 := h0.trans (CKept.declVar _ y (by
      rw [CState.containsCur, show (((visitExpr coll s.enterScope).op .INITFOR).op .END).scopes = [] :: s.scopes from hs.1]; rfl))
    generalize (((visitExpr coll s.enterScope).op .INITFOR).op .END).declVar y = s1 at h1
    have h2 : CKept x s.enterScope ((((s1.addCheckpoint s1.buffer.length).op .ITER_1).addCheckpoint ((s1.addCheckpoint s1.buffer.length).op .ITER_1).buffer.length).jump .BRF_8) :=
      h1.of rfl rfl
    have h3 := (h2.trans (CKept.storeVar _ y)).trans (CKept.stmt body _)
    have h4 := h3.of (b := (((visitStmt body _).branchBack s1.buffer.length).patch (((s1.addCheckpoint s1.buffer.length).op .ITER_1).buffer.length + 1)).op .ENDFOR) rfl rfl
    exact (CKept.exitScope (f := fun _ => _) h4).of rfl rfl
  | .brk, s => by simp only [visitStmt]; split <;> exact .same rfl rfl
  | .cont, s => by simp only [visitStmt]; split <;> exact .same rfl rfl
theorem CKept.stmts : ∀ (ss : Stmts) (s : CState), CKept x s (visitStmts ss s)
  | .nil, s => .refl s
  | .cons st ss, s => by rw [visitStmts]; exact (CKept.stmt st s).trans (CKept.stmts ss _)
end

theorem CKept.all : ∀ (ss : Stmts) (s : CState) (code : List Byte), CKept x s (compileAll ss s code).1
  | .nil, s, _ => .refl s
  | .cons st ss, s, code => by
    rw [compileAll]
    exact ((CKept.stmt st s).of (b := { visitStmt st s with buffer := [] }) rfl rfl).trans (CKept.all ss _ _)

/-- The declaration of a constant at the prompt. -/
theorem visit_const (x : Name) (rs : Exprs) (s : CState) (hs : s.scopes = []) (hl : s.globals.length < 2 ^ 63) (h : (visitStmt (.decl [.const_ x] rs) s).ok = true) :
    ∃ v, (visitStmt (.decl [.const_ x] rs) s).globals.get x = some v ∧ isConst v = true := by
  rw [visitStmt] at h ⊢
  have h1 := visitExprs_same rs s
  generalize visitExprs rs s = t at h h1 ⊢
  have h0 : t.scopes = [] := h1.1.trans hs
  rw [visitLVals] at h ⊢
  by_cases hc : t.containsCur x = true
  · rw [if_pos hc] at h; simp [CState.error] at h
  · rw [if_neg hc] at h ⊢
    dsimp only [visitLVals] at h ⊢
    have hi := intern_same t (.str x)
    have hd : (t.declVar x).scopes = [] ∧ (t.declVar x).globals = t.globals.put x (BitVec.ofNat 64 t.globals.length) := by
      rw [CState.declVar, h0]; dsimp only; exact ⟨by rw [hi.1, h0], by rw [hi.2]⟩
    rw [if_pos hd.1]
    have hst := storeVar_same (((t.declVar x).op .MOVEUP_FP).emit 0) x
    generalize (((t.declVar x).op .MOVEUP_FP).emit 0).storeVar x = u at hst
    have hg : u.globals = t.globals.put x (BitVec.ofNat 64 t.globals.length) := hst.2.trans hd.2
    have hsu : u.scopes = [] := hst.1.trans hd.1
    refine ⟨~~~ BitVec.ofNat 64 t.globals.length, ?_, ?_⟩
    · rw [CState.makeConst, hsu]; dsimp only
      rw [hg, Scope.get_put_self]; dsimp only
      exact Scope.get_put_self _ _ _
    · rw [isConst_iff, h1.2]
      have : (BitVec.ofNat 64 s.globals.length).msb = false := by
        rw [BitVec.msb_eq_false_iff_two_mul_lt]; simp; omega
      simp [this]

/-- To store to a constant is an error. -/
theorem storeVar_const (s : CState) (x : Name) (v : BitVec 64) (hs : s.scopes = []) (h : s.globals.get x = some v) (hv : isConst v = true) : (s.storeVar x).ok = false := by
  rw [CState.storeVar, hs]
  simp only [scopeGet, h, hv, if_true]
  rfl

theorem visitLVals_const (x : Name) : ∀ (ls : List LVal) (s : CState) (v : BitVec 64), s.scopes = [] → s.globals.get x = some v → isConst v = true → LVal.assign x ∈ ls →
    (visitLVals ls s).ok = false
  | [], s, v, _, _, _, h => nomatch h
  | l :: ls, s, v, hs, hg, hv, h => by
    rcases List.mem_cons.1 h with rfl | h
    · rw [visitLVals]
      split
      · rfl
      · rw [← Bool.not_eq_true]
        intro hok
        have := visitLVals_ok ls _ hok
        rw [storeVar_const (((s.op .MOVEUP_FP).emit (BitVec.ofNat 8 (scopeLen s.scopes)))) x v hs hg hv] at this
        cases this
    · have hk : ∀ t, CKept x s t → (visitLVals ls t).ok = false := fun t hk =>
        visitLVals_const x ls t v (List.length_eq_zero_iff.1 (by rw [hk.depth, hs]; rfl)) (hk.const v hg hv) hv h
      have h1 := CKept.lvals (x := x) [l] s
      cases l with
      | assign y =>
        rw [visitLVals] at h1 ⊢
        split at h1
        · rename_i hc; rw [if_pos hc]; rfl
        · rename_i hc; rw [if_neg hc]; exact hk _ h1
      | set c k => rw [visitLVals] at h1 ⊢; exact hk _ h1
      | let_ y =>
        rw [visitLVals] at h1 ⊢
        split at h1
        · rename_i hc; rw [if_pos hc]; rfl
        · rename_i hc; rw [if_neg hc]; exact hk _ h1
      | const_ y =>
        rw [visitLVals] at h1 ⊢
        split at h1
        · rename_i hc; rw [if_pos hc]; rfl
        · rename_i hc; rw [if_neg hc]; exact hk _ h1

theorem visitStmt_const {x : Name} {st : Stmt} (h : st.assigns x) (s : CState) (v : BitVec 64) (hs : s.scopes = []) (hg : s.globals.get x = some v) (hv : isConst v = true) :
    (visitStmt st s).ok = false := by
  cases st <;> try exact h.elim
  · rename_i ls rs
    rw [visitStmt]
    have h1 := visitExprs_same rs s
    exact visitLVals_const x ls _ v (h1.1.trans hs) (by rw [h1.2]; exact hg) hv h
  · rename_i y e
    obtain rfl : y = x := h
    simp only [visitStmt]
    split
    · rfl
    · have h1 := visitExpr_same e s
      exact storeVar_const _ y v (h1.1.trans hs) (by rw [h1.2]; exact hg) hv

theorem compileAll_const {x : Name} : ∀ (ss : Stmts) (s : CState) (code : List Byte) (v : BitVec 64), s.scopes = [] → s.globals.get x = some v → isConst v = true → ss.assign x →
    (compileAll ss s code).1.ok = false
  | .nil, _, _, _, _, _, _, h => h.elim
  | .cons st ss, s, code, v, hs, hg, hv, h => by
    rw [compileAll]
    rcases h with h | h
    · have h1 := visitStmt_const h s v hs hg hv
      rw [← Bool.not_eq_true]
      intro hok
      have := compileAll_ok ss _ _ hok
      rw [show _ = false from h1] at this; cases this
    · have hk := CKept.stmt (x := x) st s
      exact compileAll_const ss _ _ v (List.length_eq_zero_iff.1 (by show (visitStmt st s).scopes.length = 0; rw [hk.depth, hs]; rfl)) (hk.const v hg hv) hv h

theorem Stmts.assign_echoLast {x : Name} : ∀ (ss : Stmts), ss.assign x → ss.echoLast.assign x
  | .nil, h => h
  | .cons st .nil, h => by
    cases st <;> exact h
  | .cons st (.cons st2 ss), h => by
    have e : Stmts.echoLast (.cons st (.cons st2 ss)) = .cons st (Stmts.echoLast (.cons st2 ss)) := by cases st <;> rfl
    rw [e]
    exact h.imp_right (Stmts.assign_echoLast _)

/-- What a text does to a constant of the prompt: nothing. -/
theorem CKept.build {x : Name} (g : Given) (s : CState) (h : g.how = .prompt ∨ g.bad = false) : CKept x s (g.build s).1 := by
  unfold Given.build
  have h0 : CKept x s s.reset := .same rfl rfl
  split
  · rename_i hh
    have hb : g.bad = false := h.resolve_left (by rw [hh]; nofun)
    simp only [hb]
    exact h0.trans (CKept.exitScope (f := fun s => (compileAll g.stmts s []).1) (CKept.all g.stmts s.reset.enterScope []))
  · dsimp only
    split
    · exact (h0.trans (CKept.all _ _ _)).of rfl rfl
    · exact h0.trans (CKept.all _ _ _)

theorem give_comp {W : Type} (F : FloatOps) (P : Prims W) (g : Given) (k : Nat) (s : Session W) : (s.give F P g k).1.comp = (g.build s.comp).1 := by
  unfold Session.give
  rcases g.build s.comp with ⟨c, _ | image⟩
  · rfl
  · dsimp only
    rcases s.vm.reload image with _ | ⟨m, K⟩
    · rfl
    · dsimp only
      cases VM.run F P image K k m <;> rfl

theorem CKept.gives {W : Type} {x : Name} (F : FloatOps) (P : Prims W) : ∀ (gs : List (Given × Nat)) (s : Session W), (∀ g ∈ gs, g.1.how = .prompt ∨ g.1.bad = false) →
    CKept x s.comp (Session.gives F P gs s).1.comp
  | [], s, _ => .refl _
  | (g, k) :: gs, s, h => by
    rw [Session.gives]
    have h1 := CKept.build (x := x) g s.comp (h (g, k) (by simp))
    rw [← give_comp F P g k s] at h1
    exact h1.trans (CKept.gives F P gs _ fun g hg => h g (by simp [hg]))

end Yasl
