import Verif.Proofs.CompileMain
set_option autoImplicit false
/-! # Whole programs: the header, the constants, and statements in sequence -/
namespace Yasl

/-- Values which can be in the header. -/
def Val.Literal : Val → Prop
  | .str _ | .float _ | .int _ => True
  | _ => False

/-- The header is the encoding of the pool. -/
def CState.HOk (s : CState) : Prop := s.header = s.pool.flatMap headerEntry ∧ ∀ v ∈ s.pool, v.Literal

theorem CState.HOk.of {s s' : CState} (h : s.HOk) (hp : s'.pool = s.pool) (hh : s'.header = s.header) : s'.HOk := by
  unfold CState.HOk; rw [hp, hh]; exact h

theorem CState.HOk.patch {s : CState} (h : s.HOk) (i : Nat) : (s.patch i).HOk := h
theorem CState.HOk.op {s : CState} (h : s.HOk) (o : Opc) : (s.op o).HOk := h
theorem CState.HOk.jump {s : CState} (h : s.HOk) (o : Opc) : (s.jump o).HOk := h
theorem CState.HOk.branchBack {s : CState} (h : s.HOk) (i : Nat) : (s.branchBack i).HOk := h
theorem CState.HOk.rmCheckpoints {s : CState} (h : s.HOk) : s.rmCheckpoints.HOk := h

theorem CState.HOk.intern {s : CState} (h : s.HOk) {v : Val} (hv : v.Literal) : (s.intern v).2.HOk := by
  unfold CState.intern
  split
  · exact h
  · refine ⟨?_, ?_⟩
    · simp [h.1]
    · intro u hu
      simp only [List.mem_append, List.mem_singleton] at hu
      rcases hu with hu | rfl
      · exact h.2 _ hu
      · exact hv

theorem CState.HOk.literal {s : CState} (h : s.HOk) (i : Nat) : (s.literal i).HOk := by
  unfold CState.literal; split <;> exact h

theorem CState.HOk.pushLiteral {s : CState} (h : s.HOk) {v : Val} (hv : v.Literal) : (s.pushLiteral v).HOk :=
  (h.intern hv).literal _

theorem CState.HOk.loadVar {s : CState} (h : s.HOk) (x : Name) : (s.loadVar x).HOk := by
  unfold CState.loadVar; split
  · exact h
  · split <;> exact h

theorem CState.HOk.storeVar {s : CState} (h : s.HOk) (x : Name) : (s.storeVar x).HOk := by
  unfold CState.storeVar; split
  · split <;> exact h
  · split
    · split <;> exact h
    · exact h

theorem CState.HOk.declVar {s : CState} (h : s.HOk) (x : Name) : (s.declVar x).HOk := by
  unfold CState.declVar; split
  · dsimp only; split <;> exact h
  · exact (h.intern (v := .str x) trivial).of rfl rfl

theorem CState.HOk.makeConst {s : CState} (h : s.HOk) (x : Name) : (s.makeConst x).HOk := by
  unfold CState.makeConst; split
  · split <;> exact h
  · exact h

theorem CState.HOk.exitScope {s : CState} (h : s.HOk) : s.exitScope.HOk := by
  unfold CState.exitScope; split <;> exact h

mutual
theorem visitExpr_hok : ∀ (e : Expr) {s : CState}, s.HOk → (visitExpr e s).HOk
  | .undef, _, h => h
  | .bool b, _, h => h
  | .int i, _, h => by simp only [visitExpr]; exact h.pushLiteral trivial
  | .float f, _, h => by simp only [visitExpr]; exact h.pushLiteral trivial
  | .str t, _, h => by simp only [visitExpr]; exact h.pushLiteral trivial
  | .var x, _, h => by simp only [visitExpr]; exact h.loadVar x
  | .un o e, _, h => by simp only [visitExpr]; exact (visitExpr_hok e h).of rfl rfl
  | .bin (.op o) l r, _, h => by simp only [visitExpr]; exact (visitExpr_hok r (visitExpr_hok l h)).of rfl rfl
  | .bin .ne l r, _, h => by simp only [visitExpr]; exact (visitExpr_hok r (visitExpr_hok l h)).of rfl rfl
  | .bin .nid l r, _, h => by simp only [visitExpr]; exact (visitExpr_hok r (visitExpr_hok l h)).of rfl rfl
  | .bin .and l r, s, h => by
    simp only [visitExpr]
    exact (visitExpr_hok r (s := (visitExpr l s).shortcircuit .BRF_8) ((visitExpr_hok l h).of rfl rfl)).of rfl rfl
  | .bin .or l r, s, h => by
    simp only [visitExpr]
    exact (visitExpr_hok r (s := (visitExpr l s).shortcircuit .BRT_8) ((visitExpr_hok l h).of rfl rfl)).of rfl rfl
  | .bin .coalesce l r, s, h => by
    simp only [visitExpr]
    exact (visitExpr_hok r (s := (visitExpr l s).shortcircuit .BRN_8) ((visitExpr_hok l h).of rfl rfl)).of rfl rfl
  | .tri c a b, s, h => by
    simp only [visitExpr]
    have h1 := visitExpr_hok a (s := (visitExpr c s).jump .BRF_8) ((visitExpr_hok c h).of rfl rfl)
    exact (visitExpr_hok b ((h1.jump _).patch _)).patch _
  | .list es, s, h => by simp only [visitExpr]; exact (visitExprs_hok es (s := s.op .END) (h.of rfl rfl)).of rfl rfl
  | .table es, s, h => by simp only [visitExpr]; exact (visitExprs_hok es (s := s.op .END) (h.of rfl rfl)).of rfl rfl
  | .get c k, _, h => by simp only [visitExpr]; exact (visitExpr_hok k (visitExpr_hok c h)).of rfl rfl
  | .slice c a b, _, h => by simp only [visitExpr]; exact (visitExpr_hok b (visitExpr_hok a (visitExpr_hok c h))).of rfl rfl
theorem visitExprs_hok : ∀ (es : Exprs) {s : CState}, s.HOk → (visitExprs es s).HOk
  | .nil, _, h => h
  | .cons e es, _, h => by simp only [visitExprs]; exact visitExprs_hok es (visitExpr_hok e h)
end

theorem visitLVals_hok : ∀ (ls : List LVal) {s : CState}, s.HOk → (visitLVals ls s).HOk
  | [], _, h => h
  | .assign x :: ls, s, h => by
    simp only [visitLVals]; split
    · exact h
    · refine visitLVals_hok ls (CState.HOk.storeVar ?_ _); exact h
  | .set c k :: ls, s, h => by
    simp only [visitLVals]
    exact visitLVals_hok ls ((visitExpr_hok k (visitExpr_hok c h)).of rfl rfl)
  | .let_ x :: ls, s, h => by
    simp only [visitLVals]; split
    · exact h
    · refine visitLVals_hok ls ?_
      split
      · refine CState.HOk.storeVar ?_ _; exact (h.declVar x).of rfl rfl
      · exact h.declVar x
  | .const_ x :: ls, s, h => by
    simp only [visitLVals]; split
    · exact h
    · refine visitLVals_hok ls (CState.HOk.makeConst ?_ _)
      split
      · refine CState.HOk.storeVar ?_ _; exact (h.declVar x).of rfl rfl
      · exact h.declVar x

theorem visitWhile_hok {c : Expr} {body post : CState → CState} {b : Bool} {s : CState} (hb : ∀ {s : CState}, s.HOk → (body s).HOk)
    (hp : ∀ {s : CState}, s.HOk → (post s).HOk) (h : s.HOk) : (visitWhile c body post b s).HOk := by
  unfold visitWhile
  split
  · have h1 : (s.validated (body s)).HOk := (hb h).of rfl rfl
    dsimp only
    split
    · exact (hp h1).of rfl rfl
    · exact h1
  · have h1 : (if b = true then (post (s.jump .BR_8)).patch (s.buffer.length + 1) else s).HOk := by
      split
      · exact (hp (s := s.jump .BR_8) (h.of rfl rfl)).of rfl rfl
      · exact h
    dsimp only
    generalize (if b = true then (post (s.jump .BR_8)).patch (s.buffer.length + 1) else s) = s1 at h1 ⊢
    generalize (if b = true then (s.jump .BR_8).buffer.length else s.buffer.length) = st
    have h2 := visitExpr_hok c (s := s1.addCheckpoint st) (h1.of rfl rfl)
    generalize visitExpr c (s1.addCheckpoint st) = s2 at h2 ⊢
    exact (hb (s := (s2.addCheckpoint s2.buffer.length).jump .BRF_8) (h2.of rfl rfl)).of rfl rfl

mutual
theorem visitStmt_hok : ∀ (st : Stmt) {s : CState}, s.HOk → (visitStmt st s).HOk
  | .expr e, s, h => by
    simp only [visitStmt]
    split
    · exact h
    · split
      · exact (visitExpr_hok e h).of rfl rfl
      · exact (visitExpr_hok e h).of rfl rfl
  | .post (.assign x e), s, h => by simp only [visitStmt]; split <;> first | exact h | exact (visitExpr_hok e h).storeVar x
  | .post (.set c k v), s, h => by
    simp only [visitStmt]; exact (visitExpr_hok v (visitExpr_hok k (visitExpr_hok c h))).of rfl rfl
  | .post (.expr e), s, h => by simp only [visitStmt]; exact (visitStmt_hok (.expr e) h).of rfl rfl
  | .post (.post e), s, h => by simp only [visitStmt]; exact (visitStmt_hok (.post e) h).of rfl rfl
  | .post (.decl a b), s, h => by simp only [visitStmt]; exact (visitStmt_hok (.decl a b) h).of rfl rfl
  | .post (.letOne a b), s, h => by simp only [visitStmt]; exact (visitStmt_hok (.letOne a b) h).of rfl rfl
  | .post (.echo e), s, h => by simp only [visitStmt]; exact (visitStmt_hok (.echo e) h).of rfl rfl
  | .post (.assert e), s, h => by simp only [visitStmt]; exact (visitStmt_hok (.assert e) h).of rfl rfl
  | .post (.block e), s, h => by simp only [visitStmt]; exact (visitStmt_hok (.block e) h).of rfl rfl
  | .post (.ifThen a b), s, h => by simp only [visitStmt]; exact (visitStmt_hok (.ifThen a b) h).of rfl rfl
  | .post (.ifElse a b c), s, h => by simp only [visitStmt]; exact (visitStmt_hok (.ifElse a b c) h).of rfl rfl
  | .post (.while_ a b), s, h => by simp only [visitStmt]; exact (visitStmt_hok (.while_ a b) h).of rfl rfl
  | .post (.forLoop a b c), s, h => by simp only [visitStmt]; exact (visitStmt_hok (.forLoop a b c) h).of rfl rfl
  | .post (.forIter a b c), s, h => by simp only [visitStmt]; exact (visitStmt_hok (.forIter a b c) h).of rfl rfl
  | .post .brk, s, h => by simp only [visitStmt]; exact (visitStmt_hok .brk h).of rfl rfl
  | .post .cont, s, h => by simp only [visitStmt]; exact (visitStmt_hok .cont h).of rfl rfl
  | .decl ls rs, s, h => by simp only [visitStmt]; exact visitLVals_hok ls (visitExprs_hok rs h)
  | .letOne x e, s, h => by
    simp only [visitStmt]; split
    · exact h
    · split
      · exact (visitExpr_hok e h).declVar x
      · exact ((visitExpr_hok e h).declVar x).storeVar x
  | .assign x e, s, h => by
    simp only [visitStmt]; split
    · exact h
    · exact (visitExpr_hok e h).storeVar x
  | .set c k v, s, h => by simp only [visitStmt]; exact (visitExpr_hok v (visitExpr_hok k (visitExpr_hok c h))).of rfl rfl
  | .echo e, s, h => by simp only [visitStmt]; exact (visitExpr_hok e h).of rfl rfl
  | .assert e, s, h => by simp only [visitStmt]; exact (visitExpr_hok e h).of rfl rfl
  | .block ss, s, h => by simp only [visitStmt]; exact (visitStmts_hok ss (s := s.enterScope) h).exitScope
  | .ifThen c t, s, h => by
    simp only [visitStmt]; split
    · exact visitStmt_hok t h
    · split
      · exact (visitStmt_hok t h).of rfl rfl
      · exact (visitStmt_hok t (s := (visitExpr c s).jump .BRF_8) ((visitExpr_hok c h).of rfl rfl)).of rfl rfl
  | .ifElse c t e, s, h => by
    simp only [visitStmt]; split
    · exact (visitStmt_hok e (visitStmt_hok t h)).of rfl rfl
    · split
      · exact visitStmt_hok e ((visitStmt_hok t h).of rfl rfl)
      · have h1 := visitStmt_hok t (s := (visitExpr c s).jump .BRF_8) ((visitExpr_hok c h).of rfl rfl)
        exact (visitStmt_hok e ((h1.jump _).patch _)).patch _
  | .while_ c body, s, h => by
    simp only [visitStmt]
    exact visitWhile_hok (fun h => visitStmt_hok body h) (fun h => h) h
  | .forLoop c body post, s, h => by
    simp only [visitStmt]
    exact visitWhile_hok (fun h => visitStmt_hok body h) (fun h => visitStmt_hok post h) h
  | .forIter x coll body, s, h => by
    simp only [visitStmt]
    have h0 : ((((visitExpr coll s.enterScope).op .INITFOR).op .END)).HOk := (visitExpr_hok coll (s := s.enterScope) h).of rfl rfl
    have h1 := h0.declVar x
    generalize ((((visitExpr coll s.enterScope).op .INITFOR).op .END).declVar x) = s1 at h1 ⊢
    have h2 : ((s1.addCheckpoint s1.buffer.length).op .ITER_1).HOk := h1.of rfl rfl
    generalize ((s1.addCheckpoint s1.buffer.length).op .ITER_1) = s2 at h2 ⊢
    have h3 : ((s2.addCheckpoint s2.buffer.length).jump .BRF_8).HOk := h2.of rfl rfl
    have h4 := visitStmt_hok body (h3.storeVar x)
    exact (((h4.branchBack _).patch _).op _).exitScope.rmCheckpoints
  | .brk, s, h => by simp only [visitStmt]; split <;> exact h
  | .cont, s, h => by simp only [visitStmt]; split <;> exact h
theorem visitStmts_hok : ∀ (ss : Stmts) {s : CState}, s.HOk → (visitStmts ss s).HOk
  | .nil, _, h => h
  | .cons st ss, _, h => by simp only [visitStmts]; exact visitStmts_hok ss (visitStmt_hok st h)
end

/-! ## Constants -/

theorem readConstants_entry (v : Val) (hv : v.Literal) (n : Nat) (rest : List Byte) (hl : (headerEntry v).length < 2 ^ 63) :
    readConstants (n + 1) (headerEntry v ++ rest) = (readConstants n rest).map (v :: ·) := by
  cases v with
  | str s =>
    simp only [headerEntry, List.length_append, List.length_cons, bytes8_length] at hl
    simp only [headerEntry, readConstants, List.cons_append, List.append_assoc]
    rw [C19_int_roundtrip]
    have h1 : (bytes8 (BitVec.ofNat 64 s.length) ++ (s ++ rest)).drop 8 = s ++ rest := by rw [List.drop_left' (by simp)]
    have h2 : (BitVec.ofNat 64 s.length).toNat = s.length := by simp; omega
    simp [h1, h2, -BitVec.toNat_ofNat]
  | float f =>
    simp only [headerEntry, readConstants, List.cons_append]
    rw [C19_int_roundtrip]
    have h1 : (bytes8 f ++ rest).drop 8 = rest := by rw [List.drop_left' (by simp)]
    simp [h1]
  | int i =>
    simp only [headerEntry]
    split
    · rename_i h
      simp only [readConstants, List.cons_append, List.nil_append]
      have h1 : (BitVec.setWidth 8 i).signExtend 64 = i := by
        apply BitVec.eq_of_toInt_eq
        rw [BitVec.toInt_signExtend_of_le (by omega), BitVec.toInt_setWidth, BitVec.toInt_eq_toNat_bmod] at *
        simp only [Int.bmod_def] at h ⊢
        omega
      simp [h1]
    · simp only [readConstants, List.cons_append]
      rw [C19_int_roundtrip]
      have h1 : (bytes8 i ++ rest).drop 8 = rest := by rw [List.drop_left' (by simp)]
      simp [h1]
  | _ => exact hv.elim

theorem readConstants_pool (pool : List Val) (hp : ∀ v ∈ pool, v.Literal) (rest : List Byte) (hl : (pool.flatMap headerEntry).length < 2 ^ 63) :
    readConstants pool.length (pool.flatMap headerEntry ++ rest) = some pool := by
  induction pool with
  | nil => rfl
  | cons v pool ih =>
    simp only [List.flatMap_cons, List.length_append] at hl
    rw [List.flatMap_cons, List.append_assoc, List.length_cons, readConstants_entry v (hp v (by simp)) _ _ (by omega),
      ih (fun u hu => hp u (by simp [hu])) (by omega)]
    rfl

theorem headerEntry_pos {v : Val} (hv : v.Literal) : 1 ≤ (headerEntry v).length := by
  cases v with
  | int i => simp only [headerEntry]; split <;> simp
  | str s => simp [headerEntry]
  | float f => simp [headerEntry]
  | _ => exact hv.elim

theorem pool_le_header (pool : List Val) (hp : ∀ v ∈ pool, v.Literal) : pool.length ≤ (pool.flatMap headerEntry).length := by
  induction pool with
  | nil => simp
  | cons v pool ih =>
    have := headerEntry_pos (hp v (by simp))
    have := ih (fun u hu => hp u (by simp [hu]))
    simp only [List.flatMap_cons, List.length_append, List.length_cons]; omega

/-! ## Statements in sequence -/

section
variable {W : Type} {F : FloatOps} {P : Prims W}

theorem run_end {code : List Byte} {K : List Val} {m : VM W} (h : code.length ≤ m.pc) (k : Nat) : VM.run F P code K (k + 1) m = .stop m .ub := by
  simp [VM.run, VM.step, VM.readByte, List.getElem?_eq_none h]

/-- A statement that simulates a jump to anywhere does not jump. -/
theorem SSim.noJump {code : List Byte} {K : List Val} {fuel : Nat} {m : VM W} {r : SRes W} {f : Frame} {scs : List Scope} {gs : Scope} {p : Nat} {l : Scope}
    (h : ∀ pb pc, SSim F P code K fuel m r ((⟨scs, gs, p, pb, pc, l⟩ : Target).To f)) : r.2 ≠ .brk ∧ r.2 ≠ .cont := by
  obtain ⟨t, sig⟩ := r
  have key : ∀ (k1 k2 : Nat) (m1 m2 : VM W), VM.run F P code K k1 m = .next m1 → VM.run F P code K k2 m = .next m2 → m1.pc ≠ m2.pc →
      code.length ≤ m1.pc → code.length ≤ m2.pc → False := by
    intro k1 k2 m1 m2 h1 h2 hne hc1 hc2
    rcases Nat.lt_trichotomy k1 k2 with hlt | heq | hlt
    · obtain ⟨j, rfl⟩ : ∃ j, k2 = k1 + (j + 1) := ⟨k2 - k1 - 1, by omega⟩
      rw [VM.run_add, h1] at h2
      simp only [run_end hc1] at h2
      cases h2
    · subst heq; rw [h1] at h2; cases h2; exact hne rfl
    · obtain ⟨j, rfl⟩ : ∃ j, k1 = k2 + (j + 1) := ⟨k1 - k2 - 1, by omega⟩
      rw [VM.run_add, h2] at h1
      simp only [run_end hc2] at h1
      cases h1
  constructor
  · rintro rfl
    obtain ⟨k1, m1, h1, e1, _⟩ := h code.length 0
    obtain ⟨k2, m2, h2, e2, _⟩ := h (code.length + 1) 0
    subst e1 e2
    exact key _ _ _ _ h1 h2 (by simp [Frame.vmS, Frame.vm]) (by simp [Frame.vmS, Frame.vm]) (by simp [Frame.vmS, Frame.vm])
  · rintro rfl
    obtain ⟨k1, m1, h1, e1, _⟩ := h 0 code.length
    obtain ⟨k2, m2, h2, e2, _⟩ := h 0 (code.length + 1)
    subst e1 e2
    exact key _ _ _ _ h1 h2 (by simp [Frame.vmS, Frame.vm]) (by simp [Frame.vmS, Frame.vm]) (by simp [Frame.vmS, Frame.vm])

theorem visitStmt_clear_ok {st : Stmt} {s : CState} (h : (visitStmt st s).ok = true) : s.ok = true := visitStmt_ok _ _ h

theorem compileAll_ok : ∀ (ss : Stmts) (s : CState) (code : List Byte), (compileAll ss s code).1.ok = true → s.ok = true
  | .nil, _, _, h => h
  | .cons st ss, s, code, h => by
    simp only [compileAll] at h
    have h1 := compileAll_ok ss _ _ h
    exact visitStmt_ok st s h1

theorem compileAll_hok : ∀ (ss : Stmts) (s : CState) (code : List Byte), s.HOk → (compileAll ss s code).1.HOk
  | .nil, _, _, h => h
  | .cons st ss, s, code, h => by
    simp only [compileAll]
    exact compileAll_hok ss _ _ ((visitStmt_hok st h).of rfl rfl)

/-- The program as a whole. -/
theorem compileAll_spec (hP : P.NoEnd) : ∀ (ss : Stmts) (s : CState) (code : List Byte), (compileAll ss s code).1.ok = true → s.scopes ≠ [] →
    s.buffer = [] → s.checkpoints = [] → PoolOk s.globals s.pool → ∀ n, FitsAll ss n 0 0 →
    s.pool <+: (compileAll ss s code).1.pool ∧ ∃ c, (compileAll ss s code).2 = code ++ c ∧
      ∀ (f : Frame) (t : PState W) (base fuel : Nat), (f.on t).Ok s.scopes s.globals → t.env.length = n → f.loops = [] → f.below = [] →
        (compileAll ss s code).1.pool <+: f.K → At f.code base c →
        SSim F P f.code f.K fuel (f.vmS t base []) (execAll F P fuel ss t) (fun sig t' m => sig = .normal ∧ m = f.vmS t' (base + c.length) [])
  | .nil, s, code, hok, hne, hb, hc, hg, n, hF => by
    refine ⟨List.prefix_rfl, [], by simp [compileAll], ?_⟩
    intro f t base fuel hf hn hl hbe hK hA
    exact SSim.normal ⟨rfl, by simp⟩
  | .cons st ss, s, code, hok, hne, hb, hc, hg, n, hF => by
    simp only [compileAll] at hok ⊢
    simp only [FitsAll] at hF
    have hok1 := compileAll_ok ss _ _ hok
    obtain ⟨c1, d1, h1, h2, h3⟩ := visitStmt_spec (F := F) (P := P) hP st s hok1 hne hg n 0 0 hF.1
    have hbuf : (visitStmt st s).buffer = c1 := by rw [h1.grow.buffer, hb]; rfl
    obtain ⟨hpre, c2, h4, h5⟩ := compileAll_spec hP ss { visitStmt st s with buffer := [] } (code ++ (visitStmt st s).buffer) hok h1.ne rfl
      (h1.checkpoints.trans hc) (h1.grow.poolOk hg) (n + st.declares) hF.2
    refine ⟨h1.grow.prefix.trans hpre, c1 ++ c2, by rw [h4, hbuf, List.append_assoc], ?_⟩
    intro f t base fuel hf hn hl hbe hK hA
    simp only [execAll]
    have hs : ∀ pb pc, SSim F P f.code f.K fuel (f.vmS t base []) (exec F P fuel st t)
        ((⟨(visitStmt st s).scopes, s.globals, base + c1.length, pb, pc, []⟩ : Target).To f) := by
      intro pb pc
      have := h3 f t base fuel ⟨(visitStmt st s).scopes, s.globals, base + c1.length, pb, pc, []⟩ hf hn (by simp [hl]) hbe (hpre.trans hK)
        (by rw [hb]; exact hA.left) rfl rfl (by simp [hb]) (by intro h; exact absurd hc h)
      simpa [hb] using this
    have hnj := SSim.noJump hs
    have h6 := hs 0 0
    rcases hr : exec F P fuel st t with ⟨t', sig⟩
    rw [hr] at h6 hnj
    cases sig with
    | normal =>
      simp only [SRes.andThen]
      obtain ⟨k, m', hk, rfl, hf'⟩ := h6
      refine SSim.run hk ?_
      have hn' : t'.env.length = n + st.declares := by
        have := hf'.envLen
        simp only [Frame.on] at this
        rw [this, scopeLen_flatten, h1.flatten, List.length_append, ← scopeLen_flatten, ← hf.envLen, h2]; omega
      have := h5 f t' (base + c1.length) fuel (by simp only [h1.grow.globals]; exact hf') hn' hl hbe hK hA.right
      simpa [Nat.add_assoc] using this
    | brk => exact absurd rfl hnj.1
    | cont => exact absurd rfl hnj.2
    | err e => exact h6
    | timeout => exact h6
end
end Yasl
