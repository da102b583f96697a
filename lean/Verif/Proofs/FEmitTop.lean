import Verif.Proofs.FEmitMain
import Verif.Proofs.FSimTop
set_option autoImplicit false
/-! # What the compiler with functions emits: whole files -/
namespace Yasl

/-- The place of the statements of the file. -/
def VTop (sts : List Name) : VEnv := ⟨[], sts, false, false, [], false⟩

theorem VTop.own (sts : List Name) : (VTop sts).own = sts := rfl

/-- A new variable of the file. -/
theorem declTop {s : FState} {sts : List Name} {f : CState → CState} {x : Name} {z : BitVec 64} {st : Scope} (h : FRel s (VTop sts)) (hst : s.c.scopes = [st])
    (hl : sts.length + 1 ≤ 128) (hs : SExt s.c (f s.c) [] [(x, z)]) (hz : getIndex z = BitVec.ofNat 64 (scopeLen s.c.scopes)) (hh : (f s.c).HOk) :
    FRel (s.on f) (VTop (x :: sts)) ∧ Grow s.c (f s.c) [] ∧ (f s.c).scopes = [(x, z) :: st] := by
  have hfl := hs.flatten
  obtain ⟨g, -, sc, scs, h1, h2⟩ := hs
  rw [hst] at h1; cases h1
  have hfl' : (s.on f).c.scopes.flatten = [(x, z)] ++ s.c.scopes.flatten := hfl
  have hn := h.names
  rw [hst] at hn
  replace hn : st.map Prod.fst = sts := by simpa [VTop.own] using hn
  have ho : s.outer = [] := h.noOuter rfl
  have hu : s.ups = [] := by have := h.upsL; rw [ho] at this; exact List.length_eq_zero_iff.1 this
  refine ⟨⟨?_, ?_, ?_, by rw [VTop.own]; simpa using hl, by simpa [VTop] using hl, h.exp, g.poolOk h.pool, hh, ?_, h.upsL, h.used, ?_⟩, g, h2⟩
  · rw [hfl']; exact ⟨hz.trans (by rw [scopeLen_flatten]; rfl), h.rep⟩
  · rw [hfl', VTop.own, List.map_append, h.names]; rfl
  · show (f s.c).scopes ≠ []
    rw [h2]; simp
  · show UpsRel _ s.ups
    rw [hu]; trivial
  · refine ⟨ho, rfl, [], (x, z) :: st, ?_, ?_, by simp [VTop]⟩
    · show (f s.c).scopes = _
      rw [h2]; rfl
    · simp [VTop, hn]

theorem declTop_let {s : FState} {sts : List Name} {x : Name} {st : Scope} (h : FRel s (VTop sts)) (hst : s.c.scopes = [st]) (hl : sts.length + 1 ≤ 128)
    (hok : (s.declare x).c.ok = true) : FRel (s.declare x) (VTop (x :: sts)) ∧ Grow s.c (s.declare x).c [] ∧ (∃ z, (s.declare x).c.scopes = [(x, z) :: st]) ∧
      s.declare x = s.on fun c => c.declVar x := by
  unfold FState.declare at hok ⊢
  split at hok
  · simp [FState.error, FState.on] at hok
  · rename_i hc
    rw [if_neg hc]
    have hlen : scopeLen s.c.scopes = sts.length := by rw [scopeLen_flatten, ← VTop.own sts, ← h.names, List.length_map]
    obtain ⟨h1, h2, h3⟩ := declTop (f := fun c => c.declVar x) h hst hl (declVar_spec s.c x h.ne (by simpa using hc) hok) (getIndex_ofNat (by omega)) (h.hok.declVar x)
    exact ⟨h1, h2, ⟨_, h3⟩, rfl⟩

theorem declTop_const {s : FState} {sts : List Name} {x : Name} {st : Scope} (h : FRel s (VTop sts)) (hst : s.c.scopes = [st]) (hl : sts.length + 1 ≤ 128)
    (hok : ((s.declare x).on fun c => c.makeConst x).c.ok = true) : FRel ((s.declare x).on fun c => c.makeConst x) (VTop (x :: sts)) ∧
      Grow s.c ((s.declare x).on fun c => c.makeConst x).c [] ∧ (∃ z, ((s.declare x).on fun c => c.makeConst x).c.scopes = [(x, z) :: st]) ∧
      (s.declare x).on (fun c => c.makeConst x) = s.on fun c => (c.declVar x).makeConst x := by
  replace hok : (s.declare x).c.ok = true := by rw [← makeConst_ok (s.declare x).c x]; exact hok
  unfold FState.declare at hok ⊢
  split at hok
  · simp [FState.error, FState.on] at hok
  · rename_i hc
    rw [if_neg hc]
    have hlen : scopeLen s.c.scopes = sts.length := by rw [scopeLen_flatten, ← VTop.own sts, ← h.names, List.length_map]
    obtain ⟨h1, h2, h3⟩ := declTop (f := fun c => (c.declVar x).makeConst x) h hst hl (declConst_spec s.c x h.ne (by simpa using hc) hok) (getIndex_not (by omega))
      ((h.hok.declVar x).makeConst x)
    exact ⟨h1, h2, ⟨_, h3⟩, rfl⟩

/-- What the compilation of a statement of the file does. -/
def TopRes (s s1 : FState) (sts sts1 : List Name) (C : FX → Nat → Nat → Prop) : Prop :=
  ∃ c, Grow s.c s1.c c ∧ s.log <+: s1.log ∧ s1.origin = s.origin ∧ FRel s1 (VTop sts1) ∧ (∃ st, s1.c.scopes = [st]) ∧
    ∀ X base p, XOk X base s1 false none → p = base + s.origin + s.len → p ≤ X.code.length → At X.code p c → C X p (p + c.length)

theorem TopRes.of {s s1 : FState} {sts : List Name} {C : FX → Nat → SEnv → Nat → Nat → Prop} {C' : FX → Nat → Nat → Prop} {st : Scope} (hst : s.c.scopes = [st])
    (h : VRes s s1 [] (VTop sts) C) (hc : ∀ X base p q, C X base ⟨sts, sts, none⟩ p q → C' X p q) : TopRes s s1 sts sts C' := by
  obtain ⟨c, e, r, k⟩ := h
  exact ⟨c, e.grow, e.log, e.origin, r, ⟨st, by rw [e.scopes0, hst]⟩, fun X base p hX hp hl ha => hc X base _ _ (k X base p none hX hp hl ha)⟩

theorem TopRes.seq {s s1 s2 : FState} {sts sts1 sts2 : List Name} {C1 C2 C : FX → Nat → Nat → Prop} (h1 : TopRes s s1 sts sts1 C1) (h2 : TopRes s1 s2 sts1 sts2 C2)
    (hc : ∀ X p p1 q, C1 X p p1 → C2 X p1 q → C X p q) : TopRes s s2 sts sts2 C := by
  obtain ⟨c1, g1, l1, o1, r1, -, k1⟩ := h1
  obtain ⟨c2, g2, l2, o2, r2, i2, k2⟩ := h2
  refine ⟨c1 ++ c2, g1.trans g2, l1.trans l2, o2.trans o1, r2, i2, fun X base p hX hp hl ha => ?_⟩
  have hl1 := ha.left.length_le hl
  have hlen : s1.len = s.len + c1.length := by unfold FState.len; rw [g1.buffer, List.length_append]
  have hX1 : XOk X base s1 false none := ⟨g2.prefix.trans hX.pool, hX.small, hX.codeLen, fun q hq => hX.log q (l2.subset hq), fun x => by rw [hX.gs, g2.globals], rfl⟩
  have := hc X p (p + c1.length) _ (k1 X base p hX1 hp hl ha.left) (k2 X base (p + c1.length) hX (by rw [o1, hlen, hp]; omega) hl1 ha.right)
  simpa [Nat.add_assoc] using this

/-- The left sides of a declaration in the file. -/
theorem visitTargets_top : ∀ (ls : List FTarget) {s : FState} {sts : List Name} {sc : Scope}, (visitTargets ls s).c.ok = true → FRel s (VTop sts) →
    s.c.scopes = [sc] → sts.length + ls.length ≤ 128 →
    TopRes s (visitTargets ls s) sts (declsL ls ++ sts) (fun X p q => CodeL X true ⟨sts, sts, none⟩ ls p q)
  | [], s, sts, sc, hok, h, hst, hl => by
    rw [visitTargets]
    exact TopRes.of hst (VRes.skip h) fun X base p q a => a
  | .let_ x :: ls, s, sts, sc, hok, h, hst, hl => by
    rw [visitTargets] at hok ⊢
    rw [List.length_cons] at hl
    split at hok
    · simp [FState.error, FState.on] at hok
    · rename_i hc
      rw [if_neg hc]
      obtain ⟨r2, g2, ⟨z, h2⟩, h3⟩ := declTop_let h hst (x := x) (by omega) ((visitTargets_keep ls _).ok hok)
      have h1 : TopRes s (s.declare x) sts (x :: sts) (fun _ p q => q = p) :=
        ⟨[], g2, by rw [h3]; exact List.prefix_refl _, by rw [h3]; rfl, r2, ⟨_, h2⟩, fun _ _ _ _ _ _ _ => rfl⟩
      have h4 := visitTargets_top ls hok r2 h2 (by rw [List.length_cons]; omega)
      have hd : declsL (.let_ x :: ls) ++ sts = declsL ls ++ (x :: sts) := by simp [declsL]
      rw [hd]
      exact h1.seq h4 fun X p p1 q a b => by subst a; exact ⟨by simp only; omega, b⟩
  | .const_ x :: ls, s, sts, sc, hok, h, hst, hl => by
    rw [visitTargets] at hok ⊢
    rw [List.length_cons] at hl
    split at hok
    · simp [FState.error, FState.on] at hok
    · rename_i hc
      rw [if_neg hc]
      obtain ⟨r2, g2, ⟨z, h2⟩, h3⟩ := declTop_const h hst (x := x) (by omega) ((visitTargets_keep ls _).ok hok)
      have h1 : TopRes s ((s.declare x).on fun c => c.makeConst x) sts (x :: sts) (fun _ p q => q = p) :=
        ⟨[], g2, by rw [h3]; exact List.prefix_refl _, by rw [h3]; rfl, r2, ⟨_, h2⟩, fun _ _ _ _ _ _ _ => rfl⟩
      have h4 := visitTargets_top ls hok r2 h2 (by rw [List.length_cons]; omega)
      have hd : declsL (.const_ x :: ls) ++ sts = declsL ls ++ (x :: sts) := by simp [declsL]
      rw [hd]
      exact h1.seq h4 fun X p p1 q a b => by subst a; exact ⟨by simp only; omega, b⟩
  | .assign x :: ls, s, sts, sc, hok, h, hst, hl => by
    rw [visitTargets] at hok ⊢
    rw [List.length_cons] at hl
    have hlen : scopeLen s.c.scopes = sts.length := by rw [scopeLen_flatten, ← VTop.own sts, ← h.names, List.length_map]
    split at hok
    · simp [FState.error, FState.on] at hok
    · rename_i hc
      rw [if_neg hc, hlen]
      rw [hlen] at hok
      have hk := (visitTargets_keep ls _).ok hok
      have h1 := TopRes.of (C' := fun X p q => At X.code p [Opc.MOVEUP_FP.byte, BitVec.ofNat 8 sts.length] ∧ StoreAt X ⟨sts, sts, none⟩ x (p + 2) q) hst
        ((VRes.op2 h .MOVEUP_FP (BitVec.ofNat 8 sts.length)).andThen fun h => VRes.store (x := x) h (.inr (by simp [VTop])) hk) (by
          rintro X base p q ⟨p1, ⟨a, rfl⟩, b⟩; exact ⟨a, b⟩)
      obtain ⟨_, _, _, _, r2, ⟨_, h2⟩, _⟩ := id h1
      exact h1.seq (visitTargets_top ls hok r2 h2 (by omega)) fun X p p1 q a b => ⟨by simp only; omega, a.1, p1, a.2, b⟩

theorem visitFS_top (st : FStmt) {s : FState} {sts : List Name} {sc : Scope} (hok : (visitFS st s).c.ok = true) (h : FRel s (VTop sts)) (hst : s.c.scopes = [sc])
    (hf : FFitsTop sts (.cons st .nil)) : TopRes s (visitFS st s) sts (st.decls ++ sts) (fun X p q => CodeT X sts st p q) := by
  replace hf := hf.1
  have hstmt : st.decls = [] → FFitsS [] sts.length [] none st → TopRes s (visitFS st s) sts sts (fun X p q => CodeS X ⟨sts, sts, none⟩ st false none p q) := by
    intro hd hf
    refine TopRes.of hst ((visitFS_spec st none hok h (fun h => absurd hd h) hf).decls0 hd) ?_
    exact fun X base p q a => a none trivial
  cases st with
  | let_ x e =>
    rw [visitFS] at hok ⊢
    obtain ⟨c, e1, r1, k1⟩ := visitFE_spec e ((VKeep.declare _ x).ok hok) h hf.2
    obtain ⟨r2, g2, ⟨z, h2⟩, h3⟩ := declTop_let r1 (by rw [e1.scopes0, hst]) hf.1 hok
    refine ⟨c, by simpa using e1.grow.trans g2, ?_, ?_, r2, ⟨_, h2⟩, ?_⟩
    · rw [h3]; exact e1.log
    · rw [h3]; exact e1.origin
    · intro X base p hX hp hl ha
      refine ⟨hf.1, k1 X base p none ⟨?_, hX.small, hX.codeLen, ?_, ?_, rfl⟩ hp hl ha⟩
      · exact g2.prefix.trans hX.pool
      · have := hX.log; rw [h3] at this; exact this
      · intro x; rw [hX.gs, g2.globals]
  | const_ x e =>
    rw [visitFS] at hok ⊢
    have hk : ((visitFE e s).declare x).c.ok = true := by rw [← makeConst_ok _ x]; exact hok
    obtain ⟨c, e1, r1, k1⟩ := visitFE_spec e ((VKeep.declare _ x).ok hk) h hf.2
    obtain ⟨r2, g2, ⟨z, h2⟩, h3⟩ := declTop_const r1 (by rw [e1.scopes0, hst]) hf.1 hok
    refine ⟨c, by simpa using e1.grow.trans g2, ?_, ?_, r2, ⟨_, h2⟩, ?_⟩
    · rw [h3]; exact e1.log
    · rw [h3]; exact e1.origin
    · intro X base p hX hp hl ha
      refine ⟨hf.1, k1 X base p none ⟨?_, hX.small, hX.codeLen, ?_, ?_, rfl⟩ hp hl ha⟩
      · exact g2.prefix.trans hX.pool
      · have := hX.log; rw [h3] at this; exact this
      · intro x; rw [hX.gs, g2.globals]
  | multi ls es =>
    rw [visitFS] at hok ⊢
    have hl : sts.length + ls.length ≤ 128 := by have := hf.1; simpa using this
    have h1 := TopRes.of (C' := fun X p q => CodeEs X ⟨sts, sts, none⟩ es false p q) hst (visitFEs_spec es ((visitTargets_keep ls _).ok hok) h hf.2.2.1)
      fun X base p q a => a
    obtain ⟨_, _, _, _, r2, ⟨_, h2⟩, _⟩ := id h1
    exact h1.seq (visitTargets_top ls hok r2 h2 hl) fun X p p1 q a b => ⟨p1, hf.2.1, a, b⟩
  | fnDecl x id ps body =>
    obtain ⟨hl0, hn, hl1, hfb⟩ := hf
    rw [visitFS] at hok ⊢
    split at hok
    · simp [FState.error, FState.on] at hok
    · rename_i hc
      rw [if_neg hc]
      have hok3 := fnLeave_ok hok
      have hdec : s.declare x = s.on fun c => c.declVar x := by unfold FState.declare; rw [if_neg hc]
      have hkd : (s.declare x).c.ok = true := by rw [hdec]; exact (visitFSs_keep body _).fn.ok hok
      obtain ⟨r2, g2, ⟨z, h2⟩, h3⟩ := declTop_let h hst hl0 hkd
      rw [hdec] at r2 g2 h2
      obtain ⟨c, e1, r1, k1⟩ := VRes.fn (id := id) r2 hn hl1 fun h => visitFSs_spec body none hok3 h rfl hfb
      refine ⟨c, by simpa using g2.trans e1.grow, e1.log, e1.origin, r1, ⟨_, by rw [e1.scopes0]; exact h2⟩, ?_⟩
      intro X base p hX hp hl ha
      have hlen : (s.on fun c => c.declVar x).len = s.len := by
        unfold FState.len; rw [g2.buffer]; simp
      have := k1 X base p none hX (by rw [hlen]; exact hp) hl ha
      exact ⟨hl0, FnAt.mono this fun U p q h => h none trivial⟩
  | _ => exact hstmt rfl hf

theorem compileFAll_ok : ∀ (ss : FStmts) (s : FState) (code : List Byte), (compileFAll ss s code).1.c.ok = true → s.c.ok = true
  | .nil, s, code, h => h
  | .cons st ss, s, code, h => by
    rw [compileFAll] at h
    have h1 := compileFAll_ok ss _ _ h
    exact (visitFS_keep st s).ok h1

theorem compileFAll_spec : ∀ (ss : FStmts) {s : FState} {sts : List Name} {sc : Scope} (code : List Byte), (compileFAll ss s code).1.c.ok = true → FRel s (VTop sts) →
    s.c.scopes = [sc] → s.c.buffer = [] → FFitsTop sts ss →
    ∃ c, (compileFAll ss s code).2 = code ++ c ∧ (s.c.pool <+: (compileFAll ss s code).1.c.pool ∧ (compileFAll ss s code).1.c.globals = s.c.globals) ∧
      s.log <+: (compileFAll ss s code).1.log ∧ (compileFAll ss s code).1.c.HOk ∧
      ∀ X base p, XOk X base (compileFAll ss s code).1 false none → p = base + s.origin → p ≤ X.code.length → At X.code p c → CodeTop X sts ss p (p + c.length)
  | .nil, s, sts, sc, code, hok, h, hst, hb, hf => by
    rw [compileFAll]
    exact ⟨[], by simp, ⟨List.prefix_refl _, rfl⟩, List.prefix_refl _, h.hok, fun X base p hX hp hl ha => rfl⟩
  | .cons st ss, s, sts, sc, code, hok, h, hst, hb, hf => by
    rw [compileFAll] at hok ⊢
    dsimp only at hok ⊢
    have hok1 := compileFAll_ok ss _ _ hok
    obtain ⟨c1, g1, l1, o1, r1, ⟨sc1, hs1⟩, k1⟩ := visitFS_top st hok1 h hst ⟨hf.1, trivial⟩
    have hlen : (visitFS st s).len = c1.length := by unfold FState.len; rw [g1.buffer, hb]; rfl
    have hbuf : (visitFS st s).c.buffer = c1 := by rw [g1.buffer, hb]; rfl
    have hrel : FRel { (visitFS st s) with c := { (visitFS st s).c with buffer := [] }, origin := (visitFS st s).origin + (visitFS st s).len } (VTop (st.decls ++ sts)) :=
      r1.of rfl rfl rfl rfl rfl rfl rfl rfl
    obtain ⟨c2, e1, ⟨e2, e3⟩, e4, e5, e6⟩ := compileFAll_spec ss (code ++ (visitFS st s).c.buffer) hok hrel hs1 rfl hf.2
    refine ⟨c1 ++ c2, by rw [e1, hbuf]; simp, ⟨g1.prefix.trans e2, e3.trans g1.globals⟩, l1.trans e4, e5, ?_⟩
    intro X base p hX hp hl ha
    have hl1 := ha.left.length_le hl
    have hX1 : XOk X base (visitFS st s) false none := by
      refine ⟨e2.trans hX.pool, hX.small, hX.codeLen, fun q hq => hX.log q (e4.subset hq), fun x => ?_, rfl⟩
      rw [hX.gs, e3]
    have hs0 : s.len = 0 := by unfold FState.len; rw [hb]; rfl
    refine ⟨p + c1.length, k1 X base p hX1 (by rw [hs0, hp]; rfl) hl ha.left, ?_⟩
    have := e6 X base (p + c1.length) hX (by rw [o1, hlen, hp]; simp only; omega) hl1 ha.right
    rwa [List.length_append, ← Nat.add_assoc]

end Yasl
