import Verif.Proofs.SessionRun
set_option autoImplicit false
/-! # A refused line leaves the compiler as it was, if it declares nothing outside of blocks -/
namespace Yasl

structure Kept (s s' : CState) : Prop where
  checkpoints : s'.checkpoints = s.checkpoints
  globals : s'.globals = s.globals
  pool : s.pool <+: s'.pool

theorem Kept.refl (s : CState) : Kept s s := ⟨rfl, rfl, List.prefix_rfl⟩

theorem Kept.trans {a b c : CState} (h1 : Kept a b) (h2 : Kept b c) : Kept a c :=
  ⟨h2.checkpoints.trans h1.checkpoints, h2.globals.trans h1.globals, h1.pool.trans h2.pool⟩

theorem Kept.of {s a b : CState} (h : Kept s a) (h1 : b.checkpoints = a.checkpoints) (h2 : b.globals = a.globals) (h3 : b.pool = a.pool) : Kept s b :=
  ⟨h1.trans h.checkpoints, h2.trans h.globals, h3 ▸ h.pool⟩

theorem Kept.start {s a b : CState} (h : Kept a b) (h1 : a.checkpoints = s.checkpoints) (h2 : a.globals = s.globals) (h3 : a.pool = s.pool) : Kept s b :=
  ⟨h.checkpoints.trans h1, h.globals.trans h2, h3 ▸ h.pool⟩

theorem Kept.intern (s : CState) (v : Val) : Kept s (s.intern v).2 :=
  have h := (intern_spec s v).1
  ⟨h.checkpoints, h.globals, h.pool⟩

theorem Kept.literal (s : CState) (i : Nat) : Kept s (s.literal i) := by
  unfold CState.literal; split <;> exact ⟨rfl, rfl, List.prefix_rfl⟩

theorem Kept.pushLiteral (s : CState) (v : Val) : Kept s (s.pushLiteral v) := (Kept.intern s v).trans (Kept.literal _ _)

theorem Kept.loadVar (s : CState) (x : Name) : Kept s (s.loadVar x) := by
  unfold CState.loadVar; split
  · exact ⟨rfl, rfl, List.prefix_rfl⟩
  · split <;> exact ⟨rfl, rfl, List.prefix_rfl⟩

theorem Kept.storeVar (s : CState) (x : Name) : Kept s (s.storeVar x) := by
  unfold CState.storeVar; split
  · split <;> exact ⟨rfl, rfl, List.prefix_rfl⟩
  · split
    · split <;> exact ⟨rfl, rfl, List.prefix_rfl⟩
    · exact ⟨rfl, rfl, List.prefix_rfl⟩

theorem Kept.declVar {s : CState} (x : Name) (h : s.scopes ≠ []) : Kept s (s.declVar x) := by
  unfold CState.declVar; split
  · dsimp only; split <;> exact ⟨rfl, rfl, List.prefix_rfl⟩
  · rename_i h'; exact absurd h' h

theorem Kept.makeConst {s : CState} (x : Name) (h : s.scopes ≠ []) : Kept s (s.makeConst x) := by
  unfold CState.makeConst; split
  · rename_i h'; exact absurd h' h
  · exact ⟨rfl, rfl, List.prefix_rfl⟩

theorem Kept.exitScope (s : CState) : Kept s s.exitScope :=
  have h := exitScope_ends s
  ⟨h.2.1, h.2.2.1, by rw [h.2.2.2]; exact List.prefix_rfl⟩

mutual
theorem visitExpr_kept : ∀ (e : Expr) (s : CState), Kept s (visitExpr e s)
  | .undef, s => ⟨rfl, rfl, List.prefix_rfl⟩
  | .bool b, s => by simp only [visitExpr]; exact ⟨rfl, rfl, List.prefix_rfl⟩
  | .int i, s => by simp only [visitExpr]; exact Kept.pushLiteral s _
  | .float f, s => by simp only [visitExpr]; exact Kept.pushLiteral s _
  | .str t, s => by simp only [visitExpr]; exact Kept.pushLiteral s _
  | .var x, s => by simp only [visitExpr]; exact Kept.loadVar s x
  | .un o e, s => by simp only [visitExpr]; exact (visitExpr_kept e s).of rfl rfl rfl
  | .bin (.op o) l r, s => by simp only [visitExpr]; exact ((visitExpr_kept l s).trans (visitExpr_kept r _)).of rfl rfl rfl
  | .bin .ne l r, s => by simp only [visitExpr]; exact ((visitExpr_kept l s).trans (visitExpr_kept r _)).of rfl rfl rfl
  | .bin .nid l r, s => by simp only [visitExpr]; exact ((visitExpr_kept l s).trans (visitExpr_kept r _)).of rfl rfl rfl
  | .bin .and l r, s => by
    simp only [visitExpr]
    exact (((visitExpr_kept l s).of (b := (visitExpr l s).shortcircuit .BRF_8) rfl rfl rfl).trans (visitExpr_kept r _)).of rfl rfl rfl
  | .bin .or l r, s => by
    simp only [visitExpr]
    exact (((visitExpr_kept l s).of (b := (visitExpr l s).shortcircuit .BRT_8) rfl rfl rfl).trans (visitExpr_kept r _)).of rfl rfl rfl
  | .bin .coalesce l r, s => by
    simp only [visitExpr]
    exact (((visitExpr_kept l s).of (b := (visitExpr l s).shortcircuit .BRN_8) rfl rfl rfl).trans (visitExpr_kept r _)).of rfl rfl rfl
  | .tri c a b, s => by
    simp only [visitExpr]
    have h1 := ((visitExpr_kept c s).of (b := (visitExpr c s).jump .BRF_8) rfl rfl rfl).trans (visitExpr_kept a _)
    have h2 := h1.of (b := ((visitExpr a ((visitExpr c s).jump .BRF_8)).jump .BR_8).patch ((visitExpr c s).buffer.length + 1)) rfl rfl rfl
    exact (h2.trans (visitExpr_kept b _)).of rfl rfl rfl
  | .list es, s => by simp only [visitExpr]; exact Kept.of (a := visitExprs es (s.op .END)) ((visitExprs_kept es (s.op .END)).start (s := s) rfl rfl rfl) rfl rfl rfl
  | .table es, s => by simp only [visitExpr]; exact Kept.of (a := visitExprs es (s.op .END)) ((visitExprs_kept es (s.op .END)).start (s := s) rfl rfl rfl) rfl rfl rfl
  | .get c k, s => by simp only [visitExpr]; exact ((visitExpr_kept c s).trans (visitExpr_kept k _)).of rfl rfl rfl
  | .slice c a b, s => by simp only [visitExpr]; exact (((visitExpr_kept c s).trans (visitExpr_kept a _)).trans (visitExpr_kept b _)).of rfl rfl rfl
theorem visitExprs_kept : ∀ (es : Exprs) (s : CState), Kept s (visitExprs es s)
  | .nil, s => by simp only [visitExprs]; exact Kept.refl s
  | .cons e es, s => by simp only [visitExprs]; exact (visitExpr_kept e s).trans (visitExprs_kept es _)
end

theorem visitLVals_kept : ∀ (ls : List LVal) (s : CState), (s.scopes ≠ [] ∨ (ls.map LVal.declares).sum = 0) → Kept s (visitLVals ls s)
  | [], s, _ => by simp only [visitLVals]; exact Kept.refl s
  | .assign x :: ls, s, h => by
    simp only [visitLVals]; split
    · exact ⟨rfl, rfl, List.prefix_rfl⟩
    · have h1 := Kept.storeVar ((s.op .MOVEUP_FP).emit (BitVec.ofNat 8 (scopeLen s.scopes))) x
      have h2 := Under.storeVar x ((s.op .MOVEUP_FP).emit (BitVec.ofNat 8 (scopeLen s.scopes)))
      refine (h1.start (s := s) rfl rfl rfl).trans (visitLVals_kept ls _ ?_)
      rcases h with h | h
      · exact .inl (ne_of_len h2.2 h)
      · exact .inr (by simpa [LVal.declares] using h)
  | .set c k :: ls, s, h => by
    simp only [visitLVals]
    have h1 := (visitExpr_kept c s).trans (visitExpr_kept k _)
    have h2 := (visitExpr_under c s).2
    have h3 := (visitExpr_under k (visitExpr c s)).2
    refine (h1.of (b := (((visitExpr k (visitExpr c s)).op .MOVEUP_FP).emit (BitVec.ofNat 8 (scopeLen (visitExpr k (visitExpr c s)).scopes))).op .SET) rfl rfl rfl).trans (visitLVals_kept ls _ ?_)
    rcases h with h | h
    · exact .inl (ne_of_len (h3.trans h2) h)
    · exact .inr (by simpa [LVal.declares] using h)
  | .let_ x :: ls, s, h => by
    have h : s.scopes ≠ [] := by
      rcases h with h | h
      · exact h
      · simp [LVal.declares] at h
    have hd := Kept.declVar x h
    have hl := (Under.declVar x s h).2
    have hne : (s.declVar x).scopes ≠ [] := ne_of_len hl h
    simp only [visitLVals]; split
    · exact ⟨rfl, rfl, List.prefix_rfl⟩
    · exact hd.trans (visitLVals_kept ls _ (.inl hne))
  | .const_ x :: ls, s, h => by
    have h : s.scopes ≠ [] := by
      rcases h with h | h
      · exact h
      · simp [LVal.declares] at h
    have hd := Kept.declVar x h
    have hl := (Under.declVar x s h).2
    have hne : (s.declVar x).scopes ≠ [] := ne_of_len hl h
    simp only [visitLVals]; split
    · exact ⟨rfl, rfl, List.prefix_rfl⟩
    · refine (hd.trans (Kept.makeConst x hne)).trans (visitLVals_kept ls _ (.inl ?_))
      exact ne_of_len (Under.makeConst x (s.declVar x) hne).2 hne

theorem visitWhile_kept {c : Expr} {body post : CState → CState} {b : Bool} (hb : ∀ s : CState, Kept s (body s)) (hp : ∀ s : CState, Kept s (post s)) (s : CState) :
    Kept s (visitWhile c body post b s) := by
  unfold visitWhile
  split
  · have h1 : Kept s (s.validated (body s)) := (hb s).of rfl rfl rfl
    dsimp only
    split
    · exact (h1.trans (hp _)).of rfl rfl rfl
    · exact h1
  · have h1 : Kept s (if b = true then (post (s.jump .BR_8)).patch (s.buffer.length + 1) else s) := by
      split
      · exact Kept.of (a := post (s.jump .BR_8)) ((hp (s.jump .BR_8)).start (s := s) rfl rfl rfl) rfl rfl rfl
      · exact Kept.refl s
    dsimp only
    generalize (if b = true then (post (s.jump .BR_8)).patch (s.buffer.length + 1) else s) = s1 at h1 ⊢
    generalize (if b = true then (s.jump .BR_8).buffer.length else s.buffer.length) = st
    have h2 := visitExpr_kept c (s1.addCheckpoint st)
    generalize visitExpr c (s1.addCheckpoint st) = s2 at h2 ⊢
    have h3 := hb ((s2.addCheckpoint s2.buffer.length).jump .BRF_8)
    generalize body ((s2.addCheckpoint s2.buffer.length).jump .BRF_8) = s3 at h3 ⊢
    refine ⟨?_, h3.globals.trans (h2.globals.trans h1.globals), h1.pool.trans (h2.pool.trans h3.pool)⟩
    show s3.checkpoints.drop 2 = _
    rw [h3.checkpoints]
    show s2.checkpoints.drop 1 = _
    rw [h2.checkpoints]
    exact h1.checkpoints

mutual
theorem visitStmt_kept : ∀ (st : Stmt) (s : CState) (n L d : Nat), Fits st n L d → (s.scopes ≠ [] ∨ st.declares = 0) → Kept s (visitStmt st s)
  | .expr e, s, n, L, d, hF, h => by
    simp only [visitStmt]
    split
    · exact Kept.refl s
    · split
      · exact (visitExpr_kept e s).of rfl rfl rfl
      · exact (visitExpr_kept e s).of rfl rfl rfl
  | .post (.assign x e), s, n, L, d, hF, h => by
    simp only [visitStmt]; split
    · exact ⟨rfl, rfl, List.prefix_rfl⟩
    · exact (visitExpr_kept e s).trans (Kept.storeVar _ x)
  | .post (.set c k v), s, n, L, d, hF, h => by
    simp only [visitStmt]
    exact (((visitExpr_kept c s).trans (visitExpr_kept k _)).trans (visitExpr_kept v _)).of rfl rfl rfl
  | .post (.expr e), s, n, L, d, hF, h => by simp only [Fits] at hF
  | .post (.post e), s, n, L, d, hF, h => by simp only [Fits] at hF
  | .post (.decl a b), s, n, L, d, hF, h => by simp only [Fits] at hF
  | .post (.letOne a b), s, n, L, d, hF, h => by simp only [Fits] at hF
  | .post (.echo e), s, n, L, d, hF, h => by simp only [Fits] at hF
  | .post (.assert e), s, n, L, d, hF, h => by simp only [Fits] at hF
  | .post (.block e), s, n, L, d, hF, h => by simp only [Fits] at hF
  | .post (.ifThen a b), s, n, L, d, hF, h => by simp only [Fits] at hF
  | .post (.ifElse a b c), s, n, L, d, hF, h => by simp only [Fits] at hF
  | .post (.while_ a b), s, n, L, d, hF, h => by simp only [Fits] at hF
  | .post (.forLoop a b c), s, n, L, d, hF, h => by simp only [Fits] at hF
  | .post (.forIter a b c), s, n, L, d, hF, h => by simp only [Fits] at hF
  | .post .brk, s, n, L, d, hF, h => by simp only [Fits] at hF
  | .post .cont, s, n, L, d, hF, h => by simp only [Fits] at hF
  | .decl ls rs, s, n, L, d, hF, h => by
    simp only [visitStmt]
    refine (visitExprs_kept rs s).trans (visitLVals_kept ls _ ?_)
    rcases h with h | h
    · exact .inl (ne_of_len (visitExprs_under rs s).2 h)
    · exact .inr (by simpa [Stmt.declares] using h)
  | .letOne x e, s, n, L, d, hF, h => by
    have h : s.scopes ≠ [] := by
      rcases h with h | h
      · exact h
      · simp [Stmt.declares] at h
    have hne : (visitExpr e s).scopes ≠ [] := ne_of_len (visitExpr_under e s).2 h
    have h1 := (visitExpr_kept e s).trans (Kept.declVar x hne)
    simp only [visitStmt]; split
    · exact ⟨rfl, rfl, List.prefix_rfl⟩
    · split
      · exact h1
      · exact h1.trans (Kept.storeVar _ x)
  | .assign x e, s, n, L, d, hF, h => by
    simp only [visitStmt]; split
    · exact ⟨rfl, rfl, List.prefix_rfl⟩
    · exact (visitExpr_kept e s).trans (Kept.storeVar _ x)
  | .set c k v, s, n, L, d, hF, h => by
    simp only [visitStmt]
    exact (((visitExpr_kept c s).trans (visitExpr_kept k _)).trans (visitExpr_kept v _)).of rfl rfl rfl
  | .echo e, s, n, L, d, hF, h => by simp only [visitStmt]; exact (visitExpr_kept e s).of rfl rfl rfl
  | .assert e, s, n, L, d, hF, h => by simp only [visitStmt]; exact (visitExpr_kept e s).of rfl rfl rfl
  | .block ss, s, n, L, d, hF, h => by
    simp only [Fits] at hF
    simp only [visitStmt]
    exact ((visitStmts_kept ss s.enterScope n L d hF (by simp [CState.enterScope])).start (s := s) rfl rfl rfl).trans (Kept.exitScope _)
  | .ifThen c t, s, n, L, d, hF, h => by
    simp only [Fits] at hF
    have ht : ∀ s', Kept s' (visitStmt t s') := fun s' => visitStmt_kept t s' n L d hF.2.2 (.inr hF.2.1)
    simp only [visitStmt]
    split
    · exact ht s
    · split
      · exact (ht s).of rfl rfl rfl
      · exact (((visitExpr_kept c s).of (b := (visitExpr c s).jump .BRF_8) rfl rfl rfl).trans (ht _)).of rfl rfl rfl
  | .ifElse c t e, s, n, L, d, hF, h => by
    simp only [Fits] at hF
    have ht : ∀ s', Kept s' (visitStmt t s') := fun s' => visitStmt_kept t s' n L d hF.2.1.2 (.inr hF.2.1.1)
    have he : ∀ s', Kept s' (visitStmt e s') := fun s' => visitStmt_kept e s' n L d hF.2.2.2 (.inr hF.2.2.1)
    simp only [visitStmt]
    split
    · exact ((ht s).trans (he _)).of rfl rfl rfl
    · split
      · exact ((ht s).of (b := s.validated (visitStmt t s)) rfl rfl rfl).trans (he _)
      · have h1 := ((visitExpr_kept c s).of (b := (visitExpr c s).jump .BRF_8) rfl rfl rfl).trans (ht _)
        have h2 := h1.of (b := ((visitStmt t ((visitExpr c s).jump .BRF_8)).jump .BR_8).patch ((visitExpr c s).buffer.length + 1)) rfl rfl rfl
        exact (h2.trans (he _)).of rfl rfl rfl
  | .while_ c body, s, n, L, d, hF, h => by
    simp only [Fits] at hF
    simp only [visitStmt]
    exact visitWhile_kept (fun s' => visitStmt_kept body s' n n d hF.2.2 (.inr hF.2.1)) (fun s' => Kept.refl s') s
  | .forLoop c body post, s, n, L, d, hF, h => by
    simp only [Fits] at hF
    simp only [visitStmt]
    exact visitWhile_kept (fun s' => visitStmt_kept body s' n n d hF.2.1.2 (.inr hF.2.1.1)) (fun s' => visitStmt_kept post s' n L d hF.2.2.2 (.inr (by
        obtain ⟨st, hst⟩ := hF.2.2.1
        rw [hst]; rfl))) s
  | .forIter x coll body, s, n, L, d, hF, h => by
    simp only [Fits] at hF
    have hbody : ∀ s', Kept s' (visitStmt body s') := fun s' => visitStmt_kept body s' (n + 1) (n + 1) (d + 1) hF.2.2.2.2.2 (.inr hF.2.2.2.2.1)
    simp only [visitStmt]
    have he := (visitExpr_kept coll s.enterScope).of (b := (((visitExpr coll s.enterScope).op .INITFOR).op .END)) rfl rfl rfl
    have hne : (((visitExpr coll s.enterScope).op .INITFOR).op .END).scopes ≠ [] :=
      ne_of_len (visitExpr_under coll s.enterScope).2 (by simp [CState.enterScope])
    have h1 := (he.trans (Kept.declVar x hne)).start (s := s) rfl rfl rfl
    generalize ((((visitExpr coll s.enterScope).op .INITFOR).op .END).declVar x) = s1 at h1 ⊢
    have h3 := Kept.storeVar (((((s1.addCheckpoint s1.buffer.length).op .ITER_1).addCheckpoint ((s1.addCheckpoint s1.buffer.length).op .ITER_1).buffer.length).jump .BRF_8)) x
    generalize ((((s1.addCheckpoint s1.buffer.length).op .ITER_1).addCheckpoint ((s1.addCheckpoint s1.buffer.length).op .ITER_1).buffer.length).jump .BRF_8).storeVar x = s3 at h3 ⊢
    have h4 := hbody s3
    generalize visitStmt body s3 = s4 at h4 ⊢
    have h5 := Kept.exitScope (((s4.branchBack s1.buffer.length).patch (((s1.addCheckpoint s1.buffer.length).op .ITER_1).buffer.length + 1)).op .ENDFOR)
    generalize (((s4.branchBack s1.buffer.length).patch (((s1.addCheckpoint s1.buffer.length).op .ITER_1).buffer.length + 1)).op .ENDFOR).exitScope = s5 at h5 ⊢
    refine ⟨?_, h5.globals.trans (h4.globals.trans (h3.globals.trans h1.globals)), h1.pool.trans (h3.pool.trans (h4.pool.trans h5.pool))⟩
    show s5.checkpoints.drop 2 = _
    rw [h5.checkpoints]
    show s4.checkpoints.drop 2 = _
    rw [h4.checkpoints, h3.checkpoints]
    exact h1.checkpoints
  | .brk, s, n, L, d, hF, h => by simp only [visitStmt]; split <;> exact ⟨rfl, rfl, List.prefix_rfl⟩
  | .cont, s, n, L, d, hF, h => by simp only [visitStmt]; split <;> exact ⟨rfl, rfl, List.prefix_rfl⟩
theorem visitStmts_kept : ∀ (ss : Stmts) (s : CState) (n L d : Nat), FitsAll ss n L d → s.scopes ≠ [] → Kept s (visitStmts ss s)
  | .nil, s, n, L, d, hF, h => by simp only [visitStmts]; exact Kept.refl s
  | .cons st ss, s, n, L, d, hF, h => by
    simp only [FitsAll] at hF
    simp only [visitStmts]
    exact (visitStmt_kept st s n L d hF.1 (.inl h)).trans (visitStmts_kept ss _ _ L d hF.2 (ne_of_len (visitStmt_under st s n L d hF.1 (.inl h)).2 h))
end

theorem quiet_echo : ∀ (ss : Stmts), Quiet ss → Quiet ss.echoLast
  | .nil, h => h
  | .cons st .nil, h => by
    cases st <;> (rw [Stmts.echoLast] <;> first | exact h | (intro _ h; cases h))
  | .cons st (.cons st2 ss), h => by
    have h2 : (Stmts.cons st (.cons st2 ss)).echoLast = .cons st (Stmts.cons st2 ss).echoLast := by
      rw [Stmts.echoLast]; intro _ _ h; cases h
    rw [h2]
    exact ⟨h.1, quiet_echo _ h.2⟩

theorem compileAll_quiet : ∀ (ss : Stmts) (s : CState) (code : List Byte), Quiet ss → s.scopes = [] → Kept s (compileAll ss s code).1 ∧ (compileAll ss s code).1.scopes = []
  | .nil, s, code, _, h => ⟨Kept.refl s, h⟩
  | .cons st ss, s, code, hq, h => by
    have h1 := visitStmt_kept st s 0 0 0 hq.1.1 (.inr hq.1.2)
    have h2 := (visitStmt_under st s 0 0 0 hq.1.1 (.inr hq.1.2)).2
    have h3 := compileAll_quiet ss { visitStmt st s with buffer := [] } (code ++ (visitStmt st s).buffer) hq.2 (by
      rw [h] at h2; exact List.length_eq_zero_iff.1 h2)
    simp only [compileAll]
    exact ⟨(h1.of (b := { visitStmt st s with buffer := [] }) rfl rfl rfl).trans h3.1, h3.2⟩

/-- A line that is refused. -/
theorem refused_spec {W : Type} (s : Session W) (hs : s.Clean) (g : Given) (hh : g.how = .prompt) (hq : Quiet g.stmts) (hb : (g.build s.comp).2 = none) (F : FloatOps) (P : Prims W) (k : Nat) :
    ∃ s', s.give F P g k = (s', .refused) ∧ s'.Clean ∧ s'.state = s.state := by
  rcases hbu : g.build s.comp with ⟨c, im⟩
  rw [hbu] at hb
  dsimp only at hb
  subst hb
  refine ⟨⟨c, s.vm⟩, by unfold Session.give; rw [hbu], ?_, rfl⟩
  obtain ⟨how, stmts, bad, lines⟩ := g
  dsimp only at hh hq
  subst hh
  have key : ∀ (ss : Stmts), Quiet ss → ∀ c' : CState, c'.checkpoints = (compileAll ss s.comp.reset []).1.checkpoints → c'.globals = (compileAll ss s.comp.reset []).1.globals →
      c'.pool = (compileAll ss s.comp.reset []).1.pool → c'.scopes = (compileAll ss s.comp.reset []).1.scopes → c'.header = (compileAll ss s.comp.reset []).1.header →
      (⟨c', s.vm⟩ : Session W).Clean := by
    intro ss hq c' e1 e2 e3 e4 e5
    obtain ⟨h1, h2⟩ := compileAll_quiet ss s.comp.reset [] hq hs.scopes
    have h3 := compileAll_hok ss s.comp.reset [] (hs.hok.of rfl rfl)
    refine ⟨e4.trans h2, e1.trans (h1.checkpoints.trans hs.checkpoints), ?_, h3.of e3 e5, hs.stack, hs.fp, hs.loops, ?_, hs.gEnd⟩
    · dsimp only; rw [e2, e3, h1.globals]; exact hs.poolOk.mono h1.pool
    · dsimp only; rw [e2, h1.globals]; exact hs.defined
  simp only [Given.build] at hbu
  cases bad with
  | true =>
    simp only [if_true, Prod.mk.injEq] at hbu
    obtain ⟨rfl, -⟩ := hbu
    exact key stmts hq _ rfl rfl rfl rfl rfl
  | false =>
    simp only [Bool.false_eq_true, if_false, Prod.mk.injEq] at hbu
    obtain ⟨rfl, -⟩ := hbu
    exact key stmts.echoLast (quiet_echo _ hq) _ rfl rfl rfl rfl rfl

end Yasl
