import Verif.Proofs.FEmitTop
set_option autoImplicit false
/-! # Every function literal has its own place in the code -/
namespace Yasl

/-- What a visit adds to the log: entries for some of these numbers, in this order, with different positions in the code that was added. -/
def Logs (s s' : FState) (ids : List Nat) : Prop :=
  s'.origin = s.origin ∧ s.len ≤ s'.len ∧ ∃ l, s'.log = s.log ++ l ∧ (l.map Prod.fst).Sublist ids ∧ (l.filterMap Prod.snd).Nodup ∧
    ∀ p ∈ l.filterMap Prod.snd, s.origin + s.len ≤ p ∧ p < s.origin + s'.len

theorem Logs.same {s s' : FState} (h1 : s'.origin = s.origin) (h2 : s.len ≤ s'.len) (h3 : s'.log = s.log) : Logs s s' [] :=
  ⟨h1, h2, [], by simp [h3], by simp, by simp, by simp⟩

theorem Logs.refl (s : FState) : Logs s s [] := Logs.same rfl (Nat.le_refl _) rfl

theorem Logs.trans {s s1 s2 : FState} {i j : List Nat} (h1 : Logs s s1 i) (h2 : Logs s1 s2 j) : Logs s s2 (i ++ j) := by
  obtain ⟨a1, a2, l1, a3, a4, a5, a6⟩ := h1
  obtain ⟨b1, b2, l2, b3, b4, b5, b6⟩ := h2
  refine ⟨b1.trans a1, by omega, l1 ++ l2, by rw [b3, a3]; simp, by rw [List.map_append]; exact a4.append b4, ?_, ?_⟩
  · rw [List.filterMap_append, List.nodup_append]
    refine ⟨a5, b5, fun x hx y hy => ?_⟩
    have := a6 x hx; have := b6 y hy
    omega
  · intro p hp
    rw [List.filterMap_append, List.mem_append] at hp
    rcases hp with hp | hp
    · have := a6 p hp; omega
    · have := b6 p hp; omega

/-- More bytes at the end. -/
theorem Logs.more {s s1 s2 : FState} {i : List Nat} (h1 : Logs s s1 i) (h2 : Logs s1 s2 []) : Logs s s2 i := by
  have := h1.trans h2; rwa [List.append_nil] at this

theorem Logs.left {s s' : FState} {i : List Nat} (h : Logs s s' i) (j : List Nat) : Logs s s' (i ++ j) := by
  obtain ⟨a1, a2, l, a3, a4, a5⟩ := h
  exact ⟨a1, a2, l, a3, a4.trans (List.sublist_append_left _ _), a5⟩
theorem Logs.right {s s' : FState} {j : List Nat} (h : Logs s s' j) (i : List Nat) : Logs s s' (i ++ j) := by
  obtain ⟨a1, a2, l, a3, a4, a5⟩ := h
  exact ⟨a1, a2, l, a3, a4.trans (List.sublist_append_right _ _), a5⟩
theorem Logs.nil {s s' : FState} (h : Logs s s' []) (j : List Nat) : Logs s s' j := h.left j

theorem len_on (s : FState) (f : CState → CState) : (s.on f).len = (f s.c).buffer.length := rfl

theorem Logs.on {s s' : FState} {i : List Nat} (h : Logs s s' i) {f : CState → CState} (hf : s'.c.buffer.length ≤ (f s'.c).buffer.length) : Logs s (s'.on f) i :=
  h.more (Logs.same rfl hf rfl)
theorem Logs.op {s s' : FState} {i : List Nat} (h : Logs s s' i) (o : Opc) : Logs s (s'.op o) i := h.on (by simp [CState.op, CState.emit])
theorem Logs.emit {s s' : FState} {i : List Nat} (h : Logs s s' i) (o : Byte) : Logs s (s'.emit o) i := h.on (by simp [CState.emit])
theorem Logs.jump {s s' : FState} {i : List Nat} (h : Logs s s' i) (o : Opc) : Logs s (s'.jump o) i :=
  h.on (by simp [CState.jump, CState.op, CState.emit, CState.int])
theorem Logs.branchBack {s s' : FState} {i : List Nat} (h : Logs s s' i) (o : Nat) : Logs s (s'.branchBack o) i :=
  h.on (by simp [CState.branchBack, CState.op, CState.emit, CState.int])
theorem patch_len (c : CState) (i : Nat) : c.buffer.length ≤ (c.patch i).buffer.length := by
  simp [CState.patch]; omega
theorem Logs.patch {s s' : FState} {i : List Nat} (h : Logs s s' i) (o : Nat) : Logs s (s'.patch o) i := h.on (patch_len _ _)
theorem Logs.error {s s' : FState} {i : List Nat} (h : Logs s s' i) : Logs s s'.error i := h.on (Nat.le_refl _)
theorem exitScope_len (c : CState) : c.buffer.length ≤ c.exitScope.buffer.length := by
  unfold CState.exitScope; split <;> simp
theorem Logs.exitScope {s s' : FState} {i : List Nat} (h : Logs s s' i) : Logs s (s'.on fun c => c.exitScope) i := h.on (exitScope_len _)
theorem Logs.enterScope {s s' : FState} {i : List Nat} (h : Logs s s' i) : Logs s (s'.on fun c => c.enterScope) i := h.on (Nat.le_refl _)

theorem Logs.validated {s s1 : FState} {i : List Nat} (h : Logs s s1 i) : Logs s (s.validated s1) [] := by
  refine Logs.same h.1 ?_ rfl
  have := h.2.1
  unfold FState.len at this ⊢
  show _ ≤ (s1.c.buffer.take s.c.buffer.length).length
  rw [List.length_take]; omega

theorem intern_len (c : CState) (v : Val) : (c.intern v).2.buffer = c.buffer := by unfold CState.intern; split <;> rfl
theorem declVar_len (c : CState) (x : Name) : (c.declVar x).buffer = c.buffer := by
  unfold CState.declVar; split
  · dsimp only; split <;> rfl
  · exact intern_len c _
theorem makeConst_len (c : CState) (x : Name) : (c.makeConst x).buffer = c.buffer := by
  unfold CState.makeConst; split
  · split <;> rfl
  · rfl
theorem loadVar_len (c : CState) (x : Name) : c.buffer.length ≤ (c.loadVar x).buffer.length := by
  unfold CState.loadVar; split
  · simp [CState.op, CState.emit]
  · split <;> simp [CState.op, CState.emit, CState.int, CState.error]
theorem storeVar_len (c : CState) (x : Name) : c.buffer.length ≤ (c.storeVar x).buffer.length := by
  unfold CState.storeVar; split
  · split <;> simp [CState.op, CState.emit, CState.int, CState.error]
  · split
    · split <;> simp [CState.op, CState.emit, CState.int, CState.error]
    · simp [CState.error]
theorem lit_len (l : FLit) (c : CState) : c.buffer.length ≤ (visitExpr l.expr c).buffer.length := by
  have : ∀ v, c.buffer.length ≤ (c.pushLiteral v).buffer.length := by
    intro v; unfold CState.pushLiteral CState.literal; split <;> simp [CState.op, CState.emit, CState.int, intern_len]
  cases l with
  | undef => simp [FLit.expr, visitExpr, CState.op, CState.emit]
  | bool b => cases b <;> simp [FLit.expr, visitExpr, CState.op, CState.emit]
  | _ => exact this _

theorem upval_logs (s : FState) (o : Byte) (x : Name) : Logs s (s.upval o x) [] := by
  refine Logs.same rfl ?_ rfl
  show s.c.buffer.length ≤ (s.c.buffer ++ [_] ++ [_]).length
  simp

theorem loadVar_logs (s : FState) (x : Name) : Logs s (s.loadVar x) [] := by
  unfold FState.loadVar; split
  · exact upval_logs s _ x
  · exact (Logs.refl s).on (loadVar_len _ x)
theorem storeVar_logs (s : FState) (x : Name) : Logs s (s.storeVar x) [] := by
  unfold FState.storeVar; split
  · split
    · split
      · exact (Logs.refl s).error
      · exact upval_logs s _ x
    · exact (Logs.refl s).error
  · exact (Logs.refl s).on (storeVar_len _ x)
theorem declare_logs (s : FState) (x : Name) : Logs s (s.declare x) [] := by
  unfold FState.declare; split
  · exact (Logs.refl s).error
  · exact (Logs.refl s).on (by rw [declVar_len])

theorem declParams_len : ∀ (ps : List Name) (c : CState), (declParams ps c).buffer = c.buffer
  | [], _ => rfl
  | x :: ps, c => by rw [declParams, declParams_len ps, declVar_len]

theorem fnEnter_len (ps : List Name) (s : FState) : (s.fnEnter ps).len = s.len + 10 := by
  show ((declParams ps { s.c with scopes := [[]] }).buffer ++ [_] ++ bytes8 _ ++ [_]).length = _
  rw [declParams_len]; simp [FState.len]

theorem fnBody_len (s s3 : FState) : s3.len + 3 ≤ (s.fnBody s3).len := by
  have h1 := patch_len ((((s3.op .NCONST).emit (if s3.used.headD false then opCRET else opRET)).emit (BitVec.ofNat 8 (scopeLen s3.c.scopes))).c.exitScope) (s.len + 1)
  have h2 := exitScope_len (((s3.op .NCONST).emit (if s3.used.headD false then opCRET else opRET)).emit (BitVec.ofNat 8 (scopeLen s3.c.scopes))).c
  have h3 : (((s3.op .NCONST).emit (if s3.used.headD false then opCRET else opRET)).emit (BitVec.ofNat 8 (scopeLen s3.c.scopes))).c.buffer.length = s3.len + 3 := by
    show (s3.c.buffer ++ [_] ++ [_] ++ [_]).length = _
    simp [FState.len]
  rw [h3] at h2
  exact h2.trans h1

theorem Logs.fn {s s3 : FState} {ps : List Name} {id : Nat} {a : List Nat} (h : Logs (s.fnEnter ps) s3 a) : Logs s (s.fnLeave id s3) (a ++ [id]) := by
  obtain ⟨a1, a2, l, a3, a4, a5, a6⟩ := h
  have hb := fnBody_len s s3
  rw [fnEnter_len] at a2
  have a1' : s3.origin = s.origin := a1
  have a3' : s3.log = s.log ++ l := a3
  have a6' : ∀ p ∈ l.filterMap Prod.snd, s.origin + (s.len + 10) ≤ p ∧ p < s.origin + s3.len := by
    intro p hp
    have := a6 p hp
    rw [fnEnter_len] at this
    exact this
  by_cases hu : s3.ups.headD [] = []
  · rw [fnLeave_nil hu]
    have hb' : s3.len + 3 ≤ FState.len { s.fnBody s3 with c := { (s.fnBody s3).c with scopes := s.c.scopes }, outer := s.outer, ups := s3.ups.tail, used := s3.used.tail, log := s3.log ++ [(id, some (s.origin + (s.len + 9)))] } := hb
    refine ⟨a1', by omega, l ++ [(id, some (s.origin + (s.len + 9)))], by rw [a3']; simp, by rw [List.map_append]; exact a4.append (List.Sublist.refl _), ?_, ?_⟩
    · rw [List.filterMap_append, List.nodup_append]
      refine ⟨a5, by simp, fun x hx y hy => ?_⟩
      have := a6' x hx
      simp at hy
      omega
    · intro p hp
      rw [List.filterMap_append, List.mem_append] at hp
      rcases hp with hp | hp
      · have := a6' p hp; omega
      · simp at hp; omega
  · rw [fnLeave_cons hu]
    have hb' : s3.len + 3 ≤ FState.len { s.fnBody s3 with c := { (s.fnBody s3).c with scopes := s.c.scopes, buffer := (s.fnBody s3).c.buffer.set s.len opCCONST ++ BitVec.ofNat 8 (s3.ups.headD []).length :: (s3.ups.headD []).map Prod.snd }, outer := s.outer, ups := s3.ups.tail, used := s3.used.tail, log := s3.log ++ [(id, none)] } := by
      refine hb.trans ?_
      show _ ≤ List.length (_ ++ _ : List Byte)
      rw [List.length_append, List.length_set]; unfold FState.len; omega
    refine ⟨a1', by omega, l ++ [(id, none)], by rw [a3']; simp, by rw [List.map_append]; exact a4.append (List.Sublist.refl _), ?_, ?_⟩
    · simpa using a5
    · intro p hp
      have hp : p ∈ l.filterMap Prod.snd := by simpa using hp
      have := a6' p hp
      omega

theorem short_len (c : CState) (o : Opc) : c.buffer.length ≤ (c.shortcircuit o).buffer.length := by
  simp [CState.shortcircuit, CState.jump, CState.op, CState.emit, CState.int]

theorem visitTargets_logs : ∀ (ls : List FTarget) (s : FState), Logs s (visitTargets ls s) []
  | [], s => by rw [visitTargets]; exact Logs.refl s
  | .assign x :: ls, s => by
    rw [visitTargets]; split
    · exact (Logs.refl s).on (Nat.le_refl _)
    · exact ((((Logs.refl s).op _).emit _).more (storeVar_logs _ x)).more (visitTargets_logs ls _)
  | .let_ x :: ls, s => by
    rw [visitTargets]; split
    · exact (Logs.refl s).on (Nat.le_refl _)
    · exact (declare_logs s x).more (visitTargets_logs ls _)
  | .const_ x :: ls, s => by
    rw [visitTargets]; split
    · exact (Logs.refl s).on (Nat.le_refl _)
    · exact ((declare_logs s x).on (by rw [makeConst_len])).more (visitTargets_logs ls _)

mutual
theorem visitFE_logs : ∀ (e : FExpr) (s : FState), Logs s (visitFE e s) e.ids
  | .lit l, s => by rw [visitFE]; exact (Logs.refl s).on (lit_len l _)
  | .var x, s => by rw [visitFE]; exact loadVar_logs s x
  | .un o e, s => by rw [visitFE]; exact (visitFE_logs e s).op _
  | .bin (.op o) l r, s => by rw [visitFE]; exact ((visitFE_logs l s).trans (visitFE_logs r _)).op _
  | .bin .ne l r, s => by rw [visitFE]; exact (((visitFE_logs l s).trans (visitFE_logs r _)).op _).op _
  | .bin .nid l r, s => by rw [visitFE]; exact (((visitFE_logs l s).trans (visitFE_logs r _)).op _).op _
  | .bin .and l r, s => by
    rw [visitFE]
    exact (((visitFE_logs l s).on (f := fun c => c.shortcircuit .BRF_8) (short_len _ _)).trans (visitFE_logs r _)).patch _
  | .bin .or l r, s => by
    rw [visitFE]
    exact (((visitFE_logs l s).on (f := fun c => c.shortcircuit .BRT_8) (short_len _ _)).trans (visitFE_logs r _)).patch _
  | .bin .coalesce l r, s => by
    rw [visitFE]
    exact (((visitFE_logs l s).on (f := fun c => c.shortcircuit .BRN_8) (short_len _ _)).trans (visitFE_logs r _)).patch _
  | .tri c a b, s => by
    rw [visitFE, FExpr.ids, ← List.append_assoc]
    exact ((((((visitFE_logs c s).jump .BRF_8).trans (visitFE_logs a _)).jump .BR_8).patch _).trans (visitFE_logs b _)).patch _
  | .list es, s => by rw [visitFE]; exact (((Logs.refl s).op .END).trans (visitFEs_logs es _)).op _
  | .table es, s => by rw [visitFE]; exact (((Logs.refl s).op .END).trans (visitFEs_logs es _)).op _
  | .get c k, s => by rw [visitFE]; exact ((visitFE_logs c s).trans (visitFE_logs k _)).op _
  | .slice c a b, s => by
    rw [visitFE, FExpr.ids, ← List.append_assoc]
    exact (((visitFE_logs c s).trans (visitFE_logs a _)).trans (visitFE_logs b _)).op _
  | .fn id ps body, s => by
    rw [visitFE]
    have h := visitFSs_logs body (s.fnEnter ps)
    exact Logs.fn (s := s) h
  | .call f args, s => by
    rw [visitFE]
    have h : Logs s (visitFE f s).initCall f.ids := (((visitFE_logs f s).emit _).emit _)
    exact (h.trans (visitFEs_logs args _)).emit _
  | .mcall obj name args, s => by
    rw [visitFE]
    have h : Logs s ((visitFE obj s).initMc name) obj.ids := by
      refine (visitFE_logs obj s).more (Logs.same rfl ?_ rfl)
      show _ ≤ (((visitFE obj s).c.intern (.str name)).2.buffer ++ [_] ++ [_] ++ bytes8 _).length
      rw [intern_len]; simp [FState.len]
    exact (h.trans (visitFEs_logs args _)).emit _
  | .ctx all e, s => by
    rw [visitFE]
    have := visitFE_logs e { s with expected := if all then -1 else 1 }
    exact this
theorem visitFEs_logs : ∀ (es : FExprs) (s : FState), Logs s (visitFEs es s) es.ids
  | .nil, s => by rw [visitFEs]; exact Logs.refl s
  | .cons e es, s => by rw [visitFEs]; exact (visitFE_logs e s).trans (visitFEs_logs es _)
theorem visitFS_logs : ∀ (st : FStmt) (s : FState), Logs s (visitFS st s) st.ids
  | .expr (.lit _), s => by rw [visitFS]; exact Logs.refl s
  | .expr (.var x), s => by rw [visitFS]; exact (loadVar_logs s x).validated
  | .expr (.un o e), s => by rw [visitFS] <;> first | exact (visitFE_logs _ s).op _ | (intro _ h; cases h)
  | .expr (.bin o l r), s => by rw [visitFS] <;> first | exact (visitFE_logs _ s).op _ | (intro _ h; cases h)
  | .expr (.tri c a b), s => by rw [visitFS] <;> first | exact (visitFE_logs _ s).op _ | (intro _ h; cases h)
  | .expr (.list es), s => by rw [visitFS] <;> first | exact (visitFE_logs _ s).op _ | (intro _ h; cases h)
  | .expr (.table es), s => by rw [visitFS] <;> first | exact (visitFE_logs _ s).op _ | (intro _ h; cases h)
  | .expr (.get c k), s => by rw [visitFS] <;> first | exact (visitFE_logs _ s).op _ | (intro _ h; cases h)
  | .expr (.slice c a b), s => by rw [visitFS] <;> first | exact (visitFE_logs _ s).op _ | (intro _ h; cases h)
  | .expr (.fn i ps b), s => by rw [visitFS] <;> first | exact (visitFE_logs _ s).op _ | (intro _ h; cases h)
  | .expr (.call f a), s => by rw [visitFS] <;> first | exact (visitFE_logs _ s).op _ | (intro _ h; cases h)
  | .expr (.mcall o n a), s => by rw [visitFS] <;> first | exact (visitFE_logs _ s).op _ | (intro _ h; cases h)
  | .expr (.ctx a e), s => by rw [visitFS] <;> first | exact (visitFE_logs _ s).op _ | (intro _ h; cases h)
  | .let_ x e, s => by rw [visitFS]; exact (visitFE_logs e s).more (declare_logs _ x)
  | .multi ls es, s => by rw [visitFS]; exact (visitFEs_logs es s).more (visitTargets_logs ls _)
  | .const_ x e, s => by
    rw [visitFS]
    exact ((visitFE_logs e s).more (declare_logs _ x)).on (by rw [makeConst_len])
  | .assign x e, s => by
    rw [visitFS]; split
    · exact (Logs.refl s).error.nil _
    · exact (visitFE_logs e s).more (storeVar_logs _ x)
  | .set c a b, s => by
    rw [visitFS, FStmt.ids, ← List.append_assoc]
    exact (((visitFE_logs c s).trans (visitFE_logs a _)).trans (visitFE_logs b _)).op _
  | .echo e, s => by rw [visitFS]; exact ((visitFE_logs e s).op _).emit _
  | .assert e, s => by rw [visitFS]; exact (visitFE_logs e s).op _
  | .block ss, s => by rw [visitFS]; exact ((Logs.refl s).enterScope.trans (visitFSs_logs ss _)).exitScope
  | .ifThen c t, s => by
    rw [visitFS]; split
    · exact (visitFS_logs t s).right _
    · split
      · exact (visitFS_logs t s).validated.nil _
      · exact (((visitFE_logs c s).jump .BRF_8).trans (visitFS_logs t _)).patch _
  | .ifElse c t e, s => by
    rw [visitFS]; split
    · have h := (visitFS_logs t s).more (visitFS_logs e (visitFS t s)).validated
      exact (h.left e.ids).right c.ids
    · split
      · have h := (visitFS_logs t s).validated.trans (visitFS_logs e (s.validated (visitFS t s)))
        exact (Logs.right h t.ids).right c.ids
      · rw [FStmt.ids, ← List.append_assoc]
        exact ((((((visitFE_logs c s).jump .BRF_8).trans (visitFS_logs t _)).jump .BR_8).patch _).trans (visitFS_logs e _)).patch _
  | .while_ c body, s => by
    rw [visitFS]; split
    · exact (visitFS_logs body s).validated.nil _
    · have h1 := ((Logs.refl s).on (f := fun c => c.addCheckpoint s.len) (Nat.le_refl _)).trans (visitFE_logs c (s.on fun c => c.addCheckpoint s.len))
      dsimp only
      generalize visitFE c (s.on fun c => c.addCheckpoint s.len) = s2 at h1 ⊢
      have h2 := ((h1.on (f := fun c => c.addCheckpoint s2.len) (Nat.le_refl _)).jump .BRF_8).trans (visitFS_logs body ((s2.on fun c => c.addCheckpoint s2.len).jump .BRF_8))
      exact ((h2.branchBack _).patch _).on (Nat.le_refl _)
  | .loop c body post, s => by
    rw [visitFS]; split
    · exact ((visitFS_logs body s).validated.trans (visitFS_logs post (s.validated (visitFS body s))).validated).nil _
    · have h0 := (((Logs.refl s).jump .BR_8).trans (visitFS_logs post (s.jump .BR_8))).patch (s.len + 1)
      dsimp only
      generalize (visitFS post (s.jump .BR_8)).patch (s.len + 1) = s0 at h0 ⊢
      have h1 := (h0.on (f := fun c => c.addCheckpoint (s.jump .BR_8).len) (Nat.le_refl _)).trans (visitFE_logs c (s0.on fun c => c.addCheckpoint (s.jump .BR_8).len))
      generalize visitFE c (s0.on fun c => c.addCheckpoint (s.jump .BR_8).len) = s2 at h1 ⊢
      have h2 := ((h1.on (f := fun c => c.addCheckpoint s2.len) (Nat.le_refl _)).jump .BRF_8).trans (visitFS_logs body ((s2.on fun c => c.addCheckpoint s2.len).jump .BRF_8))
      have h3 := ((h2.branchBack (s.jump .BR_8).len).patch (s2.len + 1)).on (f := fun c => c.rmCheckpoints) (Nat.le_refl _)
      rw [List.append_assoc] at h3
      exact h3
  | .forIter x coll body, s => by
    rw [visitFS]
    have h1 : Logs s ((((visitFE coll (s.on fun c => c.enterScope)).op .INITFOR).op .END).on fun c => c.declVar x) coll.ids :=
      ((((Logs.refl s).enterScope.trans (visitFE_logs coll _)).op _).op _).on (by rw [declVar_len])
    generalize ((((visitFE coll (s.on fun c => c.enterScope)).op .INITFOR).op .END).on fun c => c.declVar x) = s1 at h1 ⊢
    have h2 : Logs s ((s1.on fun c => c.addCheckpoint s1.len).op .ITER_1) coll.ids := (h1.on (f := fun c => c.addCheckpoint s1.len) (Nat.le_refl _)).op _
    generalize hs2 : (s1.on fun c => c.addCheckpoint s1.len).op .ITER_1 = s2 at h2
    have h3 := (((h2.on (f := fun c => c.addCheckpoint s2.len) (Nat.le_refl _)).jump .BRF_8).more (storeVar_logs _ x)).trans
      (visitFS_logs body (((s2.on fun c => c.addCheckpoint s2.len).jump .BRF_8).storeVar x))
    refine Logs.on (f := fun c => c.exitScope.rmCheckpoints) (((h3.branchBack _).patch _).op .ENDFOR) ?_
    exact exitScope_len _
  | .brk, s => by
    rw [visitFS]; split
    · exact (Logs.refl s).error
    · exact ((Logs.refl s).op _).branchBack _
  | .cont, s => by
    rw [visitFS]; split
    · exact (Logs.refl s).error
    · exact (Logs.refl s).branchBack _
  | .ret e, s => by
    rw [visitFS]; split
    · exact (Logs.refl s).error.nil _
    · exact ((visitFE_logs e s).emit _).emit _
  | .fnDecl x id ps body, s => by
    rw [visitFS]; split
    · exact (Logs.refl s).error.nil _
    · have h := visitFSs_logs body ((s.on fun c => c.declVar x).fnEnter ps)
      exact ((Logs.refl s).on (f := fun c => c.declVar x) (by rw [declVar_len])).trans (Logs.fn (s := s.on fun c => c.declVar x) h)
theorem visitFSs_logs : ∀ (ss : FStmts) (s : FState), Logs s (visitFSs ss s) ss.ids
  | .nil, s => by rw [visitFSs]; exact Logs.refl s
  | .cons st ss, s => by rw [visitFSs]; exact (visitFS_logs st s).trans (visitFSs_logs ss _)
end

theorem compileFAll_logs : ∀ (ss : FStmts) (s : FState) (code : List Byte), s.c.buffer = [] →
    ∃ l, (compileFAll ss s code).1.log = s.log ++ l ∧ (l.map Prod.fst).Sublist ss.ids ∧ (l.filterMap Prod.snd).Nodup ∧ ∀ p ∈ l.filterMap Prod.snd, s.origin ≤ p
  | .nil, s, code, _ => by rw [compileFAll]; exact ⟨[], by simp, by simp, by simp, by simp⟩
  | .cons st ss, s, code, hb => by
    rw [compileFAll]
    obtain ⟨a1, a2, l1, a3, a4, a5, a6⟩ := visitFS_logs st s
    have hs : s.len = 0 := by unfold FState.len; rw [hb]; rfl
    dsimp only
    obtain ⟨l2, b3, b4, b5, b6⟩ := compileFAll_logs ss { (visitFS st s) with c := { (visitFS st s).c with buffer := [] }, origin := (visitFS st s).origin + (visitFS st s).len }
      (code ++ (visitFS st s).c.buffer) rfl
    refine ⟨l1 ++ l2, by rw [b3]; dsimp only; rw [a3]; simp, by rw [List.map_append]; exact a4.append b4, ?_, ?_⟩
    · rw [List.filterMap_append, List.nodup_append]
      refine ⟨a5, b5, fun x hx y hy => ?_⟩
      have h1 := a6 x hx; have h2 := b6 y hy
      dsimp only at h2
      omega
    · intro p hp
      rw [List.filterMap_append, List.mem_append] at hp
      rcases hp with hp | hp
      · have := a6 p hp; omega
      · have h2 := b6 p hp; dsimp only at h2; omega

end Yasl
