import Verif.Proofs.FEmitFn
set_option autoImplicit false
/-! # What the compiler with functions emits: errors stay; parts of statements -/
namespace Yasl

/-- What a visit never changes. -/
structure VKeep (s s' : FState) : Prop where
  ok : s'.c.ok = true → s.c.ok = true
  cps : s'.c.checkpoints = s.c.checkpoints

theorem VKeep.refl (s : FState) : VKeep s s := ⟨id, rfl⟩
theorem VKeep.trans {s s1 s2 : FState} (h1 : VKeep s s1) (h2 : VKeep s1 s2) : VKeep s s2 := ⟨fun h => h1.ok (h2.ok h), h2.cps.trans h1.cps⟩
theorem VKeep.op {s s' : FState} (h : VKeep s s') (o : Opc) : VKeep s (s'.op o) := ⟨h.ok, h.cps⟩
theorem VKeep.emit {s s' : FState} (h : VKeep s s') (o : Byte) : VKeep s (s'.emit o) := ⟨h.ok, h.cps⟩
theorem VKeep.jump {s s' : FState} (h : VKeep s s') (o : Opc) : VKeep s (s'.jump o) := ⟨h.ok, h.cps⟩
theorem VKeep.patch {s s' : FState} (h : VKeep s s') (i : Nat) : VKeep s (s'.patch i) := ⟨h.ok, h.cps⟩
theorem VKeep.branchBack {s s' : FState} (h : VKeep s s') (i : Nat) : VKeep s (s'.branchBack i) := ⟨h.ok, h.cps⟩
theorem VKeep.error {s s' : FState} (h : VKeep s s') : VKeep s s'.error := ⟨fun h => by simp [FState.error, FState.on] at h, h.cps⟩
theorem VKeep.on {s s' : FState} (h : VKeep s s') {f : CState → CState} (h1 : (f s'.c).ok = true → s'.c.ok = true) (h2 : (f s'.c).checkpoints = s'.c.checkpoints) :
    VKeep s (s'.on f) := ⟨fun x => h.ok (h1 x), h2.trans h.cps⟩
theorem VKeep.validated {s s1 s' : FState} (h : VKeep s s') : VKeep s (s1.validated s') := ⟨h.ok, h.cps⟩

theorem loadVar_cps (c : CState) (x : Name) : (c.loadVar x).checkpoints = c.checkpoints := by
  unfold CState.loadVar; split
  · rfl
  · split <;> rfl
theorem storeVar_cps (c : CState) (x : Name) : (c.storeVar x).checkpoints = c.checkpoints := by
  unfold CState.storeVar; split
  · split <;> rfl
  · split
    · split <;> rfl
    · rfl
theorem intern_cps (c : CState) (v : Val) : (c.intern v).2.checkpoints = c.checkpoints := by unfold CState.intern; split <;> rfl
theorem declVar_cps (c : CState) (x : Name) : (c.declVar x).checkpoints = c.checkpoints := by
  unfold CState.declVar; split
  · dsimp only; split <;> rfl
  · exact intern_cps c _
theorem makeConst_cps (c : CState) (x : Name) : (c.makeConst x).checkpoints = c.checkpoints := by
  unfold CState.makeConst; split
  · split <;> rfl
  · rfl
theorem makeConst_ok (c : CState) (x : Name) : (c.makeConst x).ok = c.ok := by
  unfold CState.makeConst; split
  · split <;> rfl
  · rfl
theorem lit_cps (l : FLit) (c : CState) : (visitExpr l.expr c).checkpoints = c.checkpoints := by
  have : ∀ v, (c.pushLiteral v).checkpoints = c.checkpoints := by
    intro v; unfold CState.pushLiteral CState.literal; split <;> exact intern_cps c v
  cases l <;> first | rfl | exact this _

theorem VKeep.upval {s s' : FState} (h : VKeep s s') (o : Byte) (x : Name) : VKeep s (s'.upval o x) := ⟨h.ok, h.cps⟩

theorem VKeep.loadVar (s : FState) (x : Name) : VKeep s (s.loadVar x) := by
  unfold FState.loadVar; split
  · exact (VKeep.refl s).upval _ _
  · exact (VKeep.refl s).on CState.loadVar_ok (loadVar_cps _ x)

theorem VKeep.storeVar (s : FState) (x : Name) : VKeep s (s.storeVar x) := by
  unfold FState.storeVar; split
  · split
    · split
      · exact (VKeep.refl s).error
      · exact (VKeep.refl s).upval _ _
    · exact (VKeep.refl s).error
  · exact (VKeep.refl s).on CState.storeVar_ok (storeVar_cps _ x)

theorem VKeep.declare (s : FState) (x : Name) : VKeep s (s.declare x) := by
  unfold FState.declare; split
  · exact (VKeep.refl s).error
  · exact (VKeep.refl s).on CState.declVar_ok (declVar_cps _ x)

theorem declParams_keep : ∀ (ps : List Name) (c : CState), ((declParams ps c).ok = true → c.ok = true) ∧ (declParams ps c).checkpoints = c.checkpoints
  | [], _ => ⟨id, rfl⟩
  | x :: ps, c => by
    obtain ⟨h1, h2⟩ := declParams_keep ps (c.declVar x)
    exact ⟨fun h => CState.declVar_ok (h1 h), h2.trans (declVar_cps c x)⟩

theorem VKeep.fn {s s3 : FState} {ps : List Name} {id : Nat} (h : VKeep (s.fnEnter ps) s3) : VKeep s (s.fnLeave id s3) := by
  obtain ⟨h1, h2⟩ := declParams_keep ps { s.c with scopes := [[]] }
  have h0 : VKeep s (s.fnEnter ps) := ⟨fun h => h1 h, h2⟩
  have hb : (s.fnBody s3).c.ok = s3.c.ok ∧ (s.fnBody s3).c.checkpoints = s3.c.checkpoints := ⟨(exitScope_parts _).2.2.2.2, (exitScope_parts _).2.2.2.1⟩
  refine (h0.trans h).trans ?_
  by_cases hu : s3.ups.headD [] = []
  · rw [fnLeave_nil hu]; exact ⟨fun h => by rw [← hb.1]; exact h, hb.2⟩
  · rw [fnLeave_cons hu]; exact ⟨fun h => by rw [← hb.1]; exact h, hb.2⟩

theorem VKeep.enterScope {s s' : FState} (h : VKeep s s') : VKeep s (s'.on fun c => c.enterScope) := ⟨h.ok, h.cps⟩
theorem VKeep.exitScope {s s' : FState} (h : VKeep s s') : VKeep s (s'.on fun c => c.exitScope) :=
  h.on (fun h => by rw [← (exitScope_parts _).2.2.2.2]; exact h) (exitScope_parts _).2.2.2.1

theorem visitTargets_keep : ∀ (ls : List FTarget) (s : FState), VKeep s (visitTargets ls s)
  | [], s => by rw [visitTargets]; exact VKeep.refl s
  | .assign x :: ls, s => by
    rw [visitTargets]; split
    · exact (VKeep.refl s).error
    · exact ((((VKeep.refl s).op _).emit _).trans (VKeep.storeVar _ x)).trans (visitTargets_keep ls _)
  | .let_ x :: ls, s => by
    rw [visitTargets]; split
    · exact (VKeep.refl s).error
    · exact (VKeep.declare s x).trans (visitTargets_keep ls _)
  | .const_ x :: ls, s => by
    rw [visitTargets]; split
    · exact (VKeep.refl s).error
    · exact ((VKeep.declare s x).on (fun h => by rw [← makeConst_ok]; exact h) (makeConst_cps _ x)).trans (visitTargets_keep ls _)

mutual
theorem visitFE_keep : ∀ (e : FExpr) (s : FState), VKeep s (visitFE e s)
  | .lit l, s => by rw [visitFE]; exact (VKeep.refl s).on (visitExpr_ok _ _) (lit_cps l _)
  | .var x, s => by rw [visitFE]; exact VKeep.loadVar s x
  | .un o e, s => by rw [visitFE]; exact (visitFE_keep e s).op _
  | .bin (.op o) l r, s => by rw [visitFE]; exact ((visitFE_keep l s).trans (visitFE_keep r _)).op _
  | .bin .ne l r, s => by rw [visitFE]; exact (((visitFE_keep l s).trans (visitFE_keep r _)).op _).op _
  | .bin .nid l r, s => by rw [visitFE]; exact (((visitFE_keep l s).trans (visitFE_keep r _)).op _).op _
  | .bin .and l r, s => by
    rw [visitFE]
    exact (((visitFE_keep l s).on (f := fun c => c.shortcircuit .BRF_8) id rfl).trans (visitFE_keep r _)).patch _
  | .bin .or l r, s => by
    rw [visitFE]
    exact (((visitFE_keep l s).on (f := fun c => c.shortcircuit .BRT_8) id rfl).trans (visitFE_keep r _)).patch _
  | .bin .coalesce l r, s => by
    rw [visitFE]
    exact (((visitFE_keep l s).on (f := fun c => c.shortcircuit .BRN_8) id rfl).trans (visitFE_keep r _)).patch _
  | .tri c a b, s => by
    rw [visitFE]
    exact ((((((visitFE_keep c s).jump .BRF_8).trans (visitFE_keep a _)).jump .BR_8).patch _).trans (visitFE_keep b _)).patch _
  | .list es, s => by rw [visitFE]; exact (((VKeep.refl s).op .END).trans (visitFEs_keep es _)).op _
  | .table es, s => by rw [visitFE]; exact (((VKeep.refl s).op .END).trans (visitFEs_keep es _)).op _
  | .get c k, s => by rw [visitFE]; exact ((visitFE_keep c s).trans (visitFE_keep k _)).op _
  | .slice c a b, s => by rw [visitFE]; exact (((visitFE_keep c s).trans (visitFE_keep a _)).trans (visitFE_keep b _)).op _
  | .fn id ps body, s => by rw [visitFE]; exact (visitFSs_keep body _).fn
  | .call f args, s => by
    rw [visitFE]
    have h : VKeep s (visitFE f s).initCall := (((visitFE_keep f s).emit _).emit _)
    exact (h.trans (visitFEs_keep args _)).emit _
  | .mcall obj name args, s => by
    rw [visitFE]
    have h : VKeep s ((visitFE obj s).initMc name) :=
      (visitFE_keep obj s).trans ⟨fun h => by
        have h : ((visitFE obj s).c.intern (.str name)).2.ok = true := h
        simpa using h, intern_cps _ _⟩
    exact (h.trans (visitFEs_keep args _)).emit _
  | .ctx all e, s => by
    rw [visitFE]
    have := visitFE_keep e { s with expected := if all then -1 else 1 }
    exact ⟨this.ok, this.cps⟩
theorem visitFEs_keep : ∀ (es : FExprs) (s : FState), VKeep s (visitFEs es s)
  | .nil, s => by rw [visitFEs]; exact VKeep.refl s
  | .cons e es, s => by rw [visitFEs]; exact (visitFE_keep e s).trans (visitFEs_keep es _)
theorem visitFS_keep : ∀ (st : FStmt) (s : FState), VKeep s (visitFS st s)
  | .expr (.lit _), s => by rw [visitFS]; exact VKeep.refl s
  | .expr (.var x), s => by rw [visitFS]; exact (VKeep.loadVar s x).validated
  | .expr (.un o e), s => by rw [visitFS] <;> first | exact (visitFE_keep _ s).op _ | (intro _ h; cases h)
  | .expr (.bin o l r), s => by rw [visitFS] <;> first | exact (visitFE_keep _ s).op _ | (intro _ h; cases h)
  | .expr (.tri c a b), s => by rw [visitFS] <;> first | exact (visitFE_keep _ s).op _ | (intro _ h; cases h)
  | .expr (.list es), s => by rw [visitFS] <;> first | exact (visitFE_keep _ s).op _ | (intro _ h; cases h)
  | .expr (.table es), s => by rw [visitFS] <;> first | exact (visitFE_keep _ s).op _ | (intro _ h; cases h)
  | .expr (.get c k), s => by rw [visitFS] <;> first | exact (visitFE_keep _ s).op _ | (intro _ h; cases h)
  | .expr (.slice c a b), s => by rw [visitFS] <;> first | exact (visitFE_keep _ s).op _ | (intro _ h; cases h)
  | .expr (.fn i ps b), s => by rw [visitFS] <;> first | exact (visitFE_keep _ s).op _ | (intro _ h; cases h)
  | .expr (.call f a), s => by rw [visitFS] <;> first | exact (visitFE_keep _ s).op _ | (intro _ h; cases h)
  | .expr (.mcall o n a), s => by rw [visitFS] <;> first | exact (visitFE_keep _ s).op _ | (intro _ h; cases h)
  | .expr (.ctx a e), s => by rw [visitFS] <;> first | exact (visitFE_keep _ s).op _ | (intro _ h; cases h)
  | .let_ x e, s => by rw [visitFS]; exact (visitFE_keep e s).trans (VKeep.declare _ x)
  | .const_ x e, s => by
    rw [visitFS]
    exact ((visitFE_keep e s).trans (VKeep.declare _ x)).on (fun h => by rw [← makeConst_ok]; exact h) (makeConst_cps _ x)
  | .multi ls es, s => by rw [visitFS]; exact (visitFEs_keep es s).trans (visitTargets_keep ls _)
  | .assign x e, s => by
    rw [visitFS]; split
    · exact (VKeep.refl s).error
    · exact (visitFE_keep e s).trans (VKeep.storeVar _ x)
  | .set c k v, s => by rw [visitFS]; exact (((visitFE_keep c s).trans (visitFE_keep k _)).trans (visitFE_keep v _)).op _
  | .echo e, s => by rw [visitFS]; exact ((visitFE_keep e s).op _).emit _
  | .assert e, s => by rw [visitFS]; exact (visitFE_keep e s).op _
  | .block ss, s => by rw [visitFS]; exact ((VKeep.refl s).enterScope.trans (visitFSs_keep ss _)).exitScope
  | .ifThen c t, s => by
    rw [visitFS]; split
    · exact visitFS_keep t s
    · split
      · exact (visitFS_keep t s).validated
      · exact (((visitFE_keep c s).jump .BRF_8).trans (visitFS_keep t _)).patch _
  | .ifElse c t e, s => by
    rw [visitFS]; split
    · exact ((visitFS_keep t s).trans (visitFS_keep e _)).validated
    · split
      · exact (visitFS_keep t s).validated.trans (visitFS_keep e _)
      · exact ((((((visitFE_keep c s).jump .BRF_8).trans (visitFS_keep t _)).jump .BR_8).patch _).trans (visitFS_keep e _)).patch _
  | .while_ c body, s => by
    rw [visitFS]; split
    · exact (visitFS_keep body s).validated
    · have h1 := visitFE_keep c (s.on fun c => c.addCheckpoint s.len)
      dsimp only
      generalize visitFE c (s.on fun c => c.addCheckpoint s.len) = s2 at h1 ⊢
      have h2 := visitFS_keep body ((s2.on fun c => c.addCheckpoint s2.len).jump .BRF_8)
      generalize visitFS body ((s2.on fun c => c.addCheckpoint s2.len).jump .BRF_8) = s3 at h2 ⊢
      refine ⟨fun h => h1.ok (h2.ok h), ?_⟩
      show s3.c.checkpoints.drop 2 = _
      rw [h2.cps]
      show s2.c.checkpoints.drop 1 = _
      rw [h1.cps]; rfl
  | .loop c body post, s => by
    rw [visitFS]; split
    · exact ((visitFS_keep body s).validated.trans (visitFS_keep post _)).validated
    · have h0 := ((((VKeep.refl s).jump .BR_8).trans (visitFS_keep post (s.jump .BR_8))).patch (s.len + 1))
      dsimp only
      generalize (visitFS post (s.jump .BR_8)).patch (s.len + 1) = s0 at h0 ⊢
      have h1 := visitFE_keep c (s0.on fun c => c.addCheckpoint (s.jump .BR_8).len)
      generalize visitFE c (s0.on fun c => c.addCheckpoint (s.jump .BR_8).len) = s2 at h1 ⊢
      have h2 := visitFS_keep body ((s2.on fun c => c.addCheckpoint s2.len).jump .BRF_8)
      generalize visitFS body ((s2.on fun c => c.addCheckpoint s2.len).jump .BRF_8) = s3 at h2 ⊢
      refine ⟨fun h => h0.ok (h1.ok (h2.ok h)), ?_⟩
      show s3.c.checkpoints.drop 2 = _
      rw [h2.cps]
      show s2.c.checkpoints.drop 1 = _
      rw [h1.cps]
      exact h0.cps
  | .forIter x coll body, s => by
    rw [visitFS]
    have h1 : VKeep s ((((visitFE coll (s.on fun c => c.enterScope)).op .INITFOR).op .END).on fun c => c.declVar x) :=
      ((((VKeep.refl s).enterScope.trans (visitFE_keep coll _)).op _).op _).on CState.declVar_ok (declVar_cps _ x)
    generalize ((((visitFE coll (s.on fun c => c.enterScope)).op .INITFOR).op .END).on fun c => c.declVar x) = s1 at h1 ⊢
    generalize hs2 : (s1.on fun c => c.addCheckpoint s1.len).op .ITER_1 = s2
    have hc2 : s2.c.checkpoints = s1.len :: s1.c.checkpoints ∧ s2.c.ok = s1.c.ok := by rw [← hs2]; exact ⟨rfl, rfl⟩
    have h3 := (VKeep.storeVar ((s2.on fun c => c.addCheckpoint s2.len).jump .BRF_8) x).trans (visitFS_keep body _)
    generalize visitFS body (((s2.on fun c => c.addCheckpoint s2.len).jump .BRF_8).storeVar x) = s3 at h3 ⊢
    refine ⟨fun h => h1.ok ?_, ?_⟩
    · rw [← hc2.2]
      refine h3.ok ?_
      have h : ((((s3.branchBack s1.len).patch (s2.len + 1)).op .ENDFOR).c.exitScope).ok = true := h
      rw [(exitScope_parts _).2.2.2.2] at h
      exact h
    · show ((((s3.branchBack s1.len).patch (s2.len + 1)).op .ENDFOR).c.exitScope).checkpoints.drop 2 = _
      rw [(exitScope_parts _).2.2.2.1]
      show s3.c.checkpoints.drop 2 = _
      rw [h3.cps]
      show s2.c.checkpoints.drop 1 = _
      rw [hc2.1]; exact h1.cps
  | .brk, s => by
    rw [visitFS]; split
    · exact (VKeep.refl s).error
    · exact ((VKeep.refl s).op _).branchBack _
  | .cont, s => by
    rw [visitFS]; split
    · exact (VKeep.refl s).error
    · exact (VKeep.refl s).branchBack _
  | .ret e, s => by
    rw [visitFS]; split
    · exact (VKeep.refl s).error
    · exact ((visitFE_keep e s).emit _).emit _
  | .fnDecl x id ps body, s => by
    rw [visitFS]; split
    · exact (VKeep.refl s).error
    · exact ((VKeep.refl s).on CState.declVar_ok (declVar_cps _ x)).trans (visitFSs_keep body _).fn
theorem visitFSs_keep : ∀ (ss : FStmts) (s : FState), VKeep s (visitFSs ss s)
  | .nil, s => by rw [visitFSs]; exact VKeep.refl s
  | .cons st ss, s => by rw [visitFSs]; exact (visitFS_keep st s).trans (visitFSs_keep ss _)
end

/-! ## Parts of statements -/

/-- Where the code is. -/
theorem VRes.pos {s s' : FState} {D : List Name} {V : VEnv} {C : FX → Nat → SEnv → Nat → Nat → Prop} (h : VRes s s' D V C) :
    VRes s s' D V (fun X base S p q => C X base S p q ∧ p = base + s.origin + s.len ∧ q = base + s'.origin + s'.len ∧ p ≤ q ∧ q ≤ X.code.length ∧
      (V.infn = true → S.ups ≠ none) ∧ ∀ x, X.gs x ↔ s.c.globals.get x ≠ none) := by
  obtain ⟨c, h1, h2, h3⟩ := h
  refine ⟨c, h1, h2, fun X base p U hX hp hl ha => ⟨h3 X base p U hX hp hl ha, hp, ?_, by omega, ha.length_le hl, ?_, ?_⟩⟩
  · rw [h1.origin, h1.len]; omega
  · intro hi
    have := hX.ups
    rw [hi] at this
    obtain ⟨_, _, _, _, h, _⟩ := this
    simp [h]
  · exact fun x => by rw [hX.gs, h1.grow.globals]

/-- In sequence. -/
theorem VRes.seqD {s s1 s2 : FState} {D1 D2 : List Name} {V : VEnv} {C1 C2 C : FX → Nat → SEnv → Nat → Nat → Prop} (h1 : VRes s s1 D1 V C1)
    (h2 : FRel s1 (V.push D1) → VRes s1 s2 D2 (V.push D1) C2)
    (hc : ∀ X base U p p1 q, C1 X base ⟨V.own, V.sts, U⟩ p p1 → C2 X base ⟨D1 ++ V.own, V.sts, U⟩ p1 q → C X base ⟨V.own, V.sts, U⟩ p q) :
    VRes s s2 (D2 ++ D1) V C := by
  obtain ⟨c1, e1, r1, k1⟩ := h1
  obtain ⟨c2, e2, r2, k2⟩ := h2 r1
  refine ⟨c1 ++ c2, e1.trans e2, ?_, ?_⟩
  · have : (V.push D1).push D2 = V.push (D2 ++ D1) := by simp [VEnv.push]
    rw [← this]; exact r2
  · intro X base p U hx hp hl ha
    have hl1 := ha.left.length_le hl
    have h2' := k2 X base (p + c1.length) U hx (by rw [e1.origin, e1.len]; omega) hl1 ha.right
    rw [VEnv.own_push] at h2'
    have := hc X base U p (p + c1.length) _ (k1 X base p U (hx.back e2) hp hl ha.left) h2'
    simpa [Nat.add_assoc] using this

theorem VRes.skip {s : FState} {V : VEnv} (h : FRel s V) : VRes s s [] V (fun _ _ _ p q => q = p) := by
  obtain ⟨sc, scs, hsc⟩ := List.exists_cons_of_ne_nil h.ne
  exact ⟨[], ⟨Grow.refl _, rfl, rfl, rfl, UpsGrow.refl _, List.prefix_refl _, sc, scs, [], hsc, hsc, rfl⟩, h, fun _ _ _ _ _ _ _ _ => rfl⟩

theorem VRes.cps {s s' : FState} {D : List Name} {V : VEnv} {C : FX → Nat → SEnv → Nat → Nat → Prop} (h : VRes s s' D V C) (a b : List Nat) :
    VRes { s with c := { s.c with checkpoints := a } } { s' with c := { s'.c with checkpoints := b } } D V C := by
  obtain ⟨c, h1, h2, h3⟩ := h
  refine ⟨c, ⟨⟨h1.grow.buffer, h1.grow.pool, h1.grow.globals, h1.grow.ok⟩, h1.outer, h1.used, h1.origin, h1.ups, h1.log, h1.scopes⟩,
    h2.of rfl rfl rfl rfl rfl rfl rfl rfl, fun X base p U hX hp hl ha => h3 X base p U ⟨hX.pool, hX.small, hX.codeLen, hX.log, hX.gs, hX.ups⟩ hp hl ha⟩

theorem VRes.validated {s s' : FState} {V : VEnv} {C : FX → Nat → SEnv → Nat → Nat → Prop} (h : VRes s s' [] V C) :
    VRes s (s.validated s') [] V (fun _ _ _ p q => q = p) := by
  obtain ⟨c, h1, h2, h3⟩ := h
  refine ⟨[], ⟨⟨?_, h1.grow.pool, h1.grow.globals, h1.grow.ok⟩, h1.outer, h1.used, h1.origin, h1.ups, List.prefix_refl _, h1.scopes⟩,
    h2.of rfl rfl rfl rfl rfl rfl rfl rfl, fun _ _ _ _ _ _ _ _ => rfl⟩
  show s'.c.buffer.take s.c.buffer.length = _
  rw [h1.grow.buffer]; simp

theorem VRes.branchBack {s : FState} {V : VEnv} (h : FRel s V) (i : Nat) : VRes s (s.branchBack i) [] V (fun X base _ p q =>
    base + s.origin + i ≤ X.code.length → JumpAt X .BR_8 p (base + s.origin + i) ∧ q = p + 9) := by
  refine ((VRes.on h (Ext.branchBack s.c i) (h.hok.branchBack i)).pos).mono ?_
  rintro X base U p q ⟨⟨a1, a2⟩, a3, -, a4, a5, -⟩ hle
  refine ⟨⟨?_, hle, by omega⟩, a2⟩
  have : (((base + s.origin + i : Nat) : Int) - p - 9) = (i : Int) - s.c.buffer.length - 9 := by rw [a3]; unfold FState.len; push_cast; omega
  rw [this]; exact a1

theorem VRes.ctx {s s1 : FState} {V : VEnv} {C : FX → Nat → SEnv → Nat → Nat → Prop} (all : Bool) (hs : FRel s V)
    (h : FRel { s with expected := wants all } { V with m := all } → VRes { s with expected := wants all } s1 [] { V with m := all } C) :
    VRes s { s1 with expected := s.expected } [] V C := by
  have hr : FRel { s with expected := wants all } { V with m := all } := by
    refine ⟨hs.rep, hs.names, hs.ne, hs.small, hs.ssmall, rfl, hs.pool, hs.hok, hs.upsR, hs.upsL, hs.used, hs.place⟩
  obtain ⟨c, e, r, k⟩ := h hr
  exact ⟨c, ⟨e.grow, e.outer, e.used, e.origin, e.ups, e.log, e.scopes⟩,
    ⟨r.rep, r.names, r.ne, r.small, r.ssmall, hs.exp, r.pool, r.hok, r.upsR, r.upsL, r.used, r.place⟩,
    fun X base p U hX hp hl ha => k X base p U ⟨hX.pool, hX.small, hX.codeLen, hX.log, hX.gs, hX.ups⟩ hp hl ha⟩

/-- A new variable in the innermost scope. -/
theorem VRes.declWith {s : FState} {V : VEnv} {f : CState → CState} {x : Name} {z : BitVec 64} (h : FRel s V) (hV : V.inner = true) (hl : V.own.length + 1 ≤ 128)
    (hs : SExt s.c (f s.c) [] [(x, z)]) (hz : getIndex z = BitVec.ofNat 64 (scopeLen s.c.scopes)) (hh : (f s.c).HOk) :
    VRes s (s.on f) [x] V (fun _ _ _ p q => q = p) := by
  have hfl := hs.flatten
  obtain ⟨g, -, sc, scs, h1, h2⟩ := hs
  have hfl' : (s.on f).c.scopes.flatten = [(x, z)] ++ s.c.scopes.flatten := hfl
  refine ⟨[], ⟨g, rfl, rfl, rfl, UpsGrow.refl _, List.prefix_refl _, sc, scs, [(x, z)], h1, h2, rfl⟩, ?_, fun _ _ _ _ _ _ _ _ => rfl⟩
  refine ⟨?_, ?_, ?_, ?_, h.ssmall, h.exp, g.poolOk h.pool, hh, h.upsR, h.upsL, h.used, ?_⟩
  · rw [hfl']; exact ⟨hz.trans (by rw [scopeLen_flatten]; rfl), h.rep⟩
  · rw [hfl', VEnv.own_push, List.map_append, h.names]; rfl
  · show (f s.c).scopes ≠ []
    rw [h2]; simp
  · rw [VEnv.own_push]; simpa [Nat.add_comm] using hl
  · have hp := h.place
    unfold VPlace at hp ⊢
    show match V.infn with | false => _ | true => _
    cases hi : V.infn with
    | true => rw [hi] at hp; exact hp
    | false =>
      rw [hi] at hp
      obtain ⟨a1, a2, blocks, st, a3, a4, a5⟩ := hp
      obtain ⟨b, bs, rfl⟩ := List.exists_cons_of_ne_nil (a5 hV)
      rw [h1] at a3
      simp only [List.cons_append, List.cons.injEq] at a3
      refine ⟨a1, a2, ((x, z) :: sc) :: bs, st, ?_, a4, fun _ => by simp⟩
      show (f s.c).scopes = _
      rw [h2, a3.2]; rfl

theorem VRes.declare {s : FState} {V : VEnv} {x : Name} (h : FRel s V) (hV : V.inner = true) (hl : V.own.length + 1 ≤ 128) (hok : (s.declare x).c.ok = true) :
    VRes s (s.declare x) [x] V (fun _ _ _ p q => q = p) := by
  unfold FState.declare at hok ⊢
  split at hok
  · simp [FState.error, FState.on] at hok
  · rename_i hc
    rw [if_neg hc]
    have hlen : scopeLen s.c.scopes = V.own.length := by rw [scopeLen_flatten, ← h.names, List.length_map]
    exact VRes.declWith h hV hl (declVar_spec s.c x h.ne (by simpa using hc) hok) (getIndex_ofNat (by omega)) (h.hok.declVar x)

theorem VRes.declConst {s : FState} {V : VEnv} {x : Name} (h : FRel s V) (hV : V.inner = true) (hl : V.own.length + 1 ≤ 128)
    (hok : ((s.declare x).on fun c => c.makeConst x).c.ok = true) :
    VRes s ((s.declare x).on fun c => c.makeConst x) [x] V (fun _ _ _ p q => q = p) := by
  replace hok : (s.declare x).c.ok = true := by rw [← makeConst_ok (s.declare x).c x]; exact hok
  unfold FState.declare at hok ⊢
  split at hok
  · simp [FState.error, FState.on] at hok
  · rename_i hc
    rw [if_neg hc]
    have hlen : scopeLen s.c.scopes = V.own.length := by rw [scopeLen_flatten, ← h.names, List.length_map]
    exact VRes.declWith (f := fun c => (c.declVar x).makeConst x) h hV hl (declConst_spec s.c x h.ne (by simpa using hc) hok) (getIndex_not (by omega))
      ((h.hok.declVar x).makeConst x)

theorem FRel.enterScope {s : FState} {V : VEnv} (h : FRel s V) : FRel (s.on fun c => c.enterScope) { V with inner := true } := by
  refine ⟨h.rep, h.names, by simp [FState.on, CState.enterScope], h.small, h.ssmall, h.exp, h.pool, h.hok, h.upsR, h.upsL, h.used, ?_⟩
  have hp := h.place
  unfold VPlace at hp ⊢
  show match V.infn with | false => _ | true => _
  cases hi : V.infn with
  | true => rw [hi] at hp; exact hp
  | false =>
    rw [hi] at hp
    obtain ⟨a1, a2, blocks, st, a3, a4, a5⟩ := hp
    exact ⟨a1, a2, [] :: blocks, st, by simp [FState.on, CState.enterScope, a3], a4, by simp⟩

theorem VRes.scoped {s s' : FState} {V : VEnv} {D : List Name} {C : FX → Nat → SEnv → Nat → Nat → Prop} (h : FRel s V)
    (h1 : FRel (s.on fun c => c.enterScope) { V with inner := true } → VRes (s.on fun c => c.enterScope) s' D { V with inner := true } C) :
    VRes s (s'.on fun c => c.exitScope) [] V (fun X base S p q => ∃ p1, C X base S p p1 ∧ At X.code p1 (List.replicate D.length Opc.POP.byte) ∧ q = p1 + D.length) := by
  obtain ⟨c, e, r, k⟩ := h1 h.enterScope
  obtain ⟨sc, scs, ds, a1, a2, a3⟩ := e.scopes
  replace a1 : ([] :: s.c.scopes) = sc :: scs := a1
  cases a1
  have hd : (ds ++ []).length = D.length := by rw [← a3]; simp
  have gx := Grow.exitScope a2
  rw [hd] at gx
  have hsc : (s'.on fun c => c.exitScope).c.scopes = s.c.scopes := by
    show s'.c.exitScope.scopes = _
    unfold CState.exitScope; rw [a2]
  obtain ⟨sc, scs, hs⟩ := List.exists_cons_of_ne_nil h.ne
  have g0 : Grow s.c s'.c c := ⟨e.grow.buffer, e.grow.pool, e.grow.globals, e.grow.ok⟩
  have g1 : Grow s.c (s'.on fun c => c.exitScope).c (c ++ List.replicate D.length Opc.POP.byte) := g0.trans gx
  refine ⟨_, ⟨g1, e.outer, e.used, e.origin, e.ups, e.log, sc, scs, [], hs, by rw [hsc, hs]; rfl, rfl⟩, ?_, ?_⟩
  · refine ⟨by rw [hsc]; exact h.rep, by rw [hsc]; exact h.names, by rw [hsc]; exact h.ne, h.small, h.ssmall, r.exp, g1.poolOk h.pool, r.hok.exit, r.upsR, r.upsL, r.used, ?_⟩
    have hp := h.place
    unfold VPlace at hp ⊢
    rw [hsc]
    show match V.infn with | false => s'.outer = [] ∧ _ | true => OutScopes _ _ s'.outer
    rw [e.outer]; exact hp
  · intro X base p U hX hp hl ha
    have hx' : XOk X base s' V.infn U := by
      refine ⟨?_, hX.small, hX.codeLen, hX.log, ?_, hX.ups⟩
      · rw [← (exitScope_parts s'.c).1]; exact hX.pool
      · rw [← (exitScope_parts s'.c).2.2.1]; exact hX.gs
    exact ⟨p + c.length, k X base p U hx' hp hl ha.left, ha.right, by simp; omega⟩

end Yasl
