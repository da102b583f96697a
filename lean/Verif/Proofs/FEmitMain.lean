import Verif.Proofs.FEmitS
set_option autoImplicit false
/-! # What the compiler with functions emits: the code of expressions and statements -/
namespace Yasl

/-- The number of variables of the file in the frame. -/
def VEnv.n (V : VEnv) : Nat := if V.infn then 0 else V.sts.length

theorem VEnv.own_length (V : VEnv) : V.own.length = V.loc.length + V.n := by
  unfold VEnv.own VEnv.n; cases V.infn <;> simp

theorem VEnv.n_push (V : VEnv) (D : List Name) : (V.push D).n = V.n := rfl

/-- The loop around a place. -/
def LoopOk (X : FX) (base : Nat) (s : FState) (V : VEnv) (L : Option (List Name)) (l : Option FLoopAt) : Prop :=
  match L with
  | none => True
  | some names => ∃ b ct rest, s.c.checkpoints = b :: ct :: rest ∧
      l = some ⟨base + s.origin + b, base + s.origin + ct, names ++ if V.infn then [] else V.sts⟩ ∧
      base + s.origin + b ≤ X.code.length ∧ base + s.origin + ct ≤ X.code.length

theorem LoopOk.of {X : FX} {base : Nat} {s s' : FState} {V V' : VEnv} {L : Option (List Name)} {l : Option FLoopAt} (h : LoopOk X base s V L l)
    (h1 : s'.c.checkpoints = s.c.checkpoints) (h2 : s'.origin = s.origin) (h3 : V'.infn = V.infn) (h4 : V'.sts = V.sts) : LoopOk X base s' V' L l := by
  unfold LoopOk at h ⊢
  cases L with
  | none => trivial
  | some names =>
    dsimp only at h ⊢
    rw [h1, h2, h3, h4]; exact h

theorem VRes.andThen {s s1 s2 : FState} {D : List Name} {V : VEnv} {C1 C2 : FX → Nat → SEnv → Nat → Nat → Prop} (h1 : VRes s s1 [] V C1)
    (h2 : FRel s1 V → VRes s1 s2 D V C2) : VRes s s2 D V (fun X base S p q => ∃ p1, C1 X base S p p1 ∧ C2 X base S p1 q) :=
  h1.seq h2 fun _ _ _ _ p1 _ a b => ⟨p1, a, b⟩

theorem VRes.origin {s s' : FState} {D : List Name} {V : VEnv} {C : FX → Nat → SEnv → Nat → Nat → Prop} (h : VRes s s' D V C) : s'.origin = s.origin := by
  obtain ⟨c, e, _⟩ := h; exact e.origin

theorem VRes.initCall {s : FState} {V : VEnv} (h : FRel s V) :
    VRes s s.initCall [] V (fun X _ _ p q => At X.code p [opINIT_CALL, BitVec.ofInt 8 (wants V.m)] ∧ q = p + 2) := by
  have e : Ext s.c ((fun c : CState => (c.emit opINIT_CALL).emit (BitVec.ofInt 8 s.expected)) s.c) [opINIT_CALL, BitVec.ofInt 8 (wants V.m)] := by
    rw [← h.exp]; exact (Ext.emit _ _).trans (Ext.emit _ _)
  exact VRes.on (f := fun c => (c.emit opINIT_CALL).emit (BitVec.ofInt 8 s.expected)) h e h.hok

theorem VRes.initMc {s : FState} {V : VEnv} (h : FRel s V) (name : Name) :
    VRes s (s.initMc name) [] V (fun X _ _ p q => ∃ i : Nat, i < 2 ^ 63 ∧ X.K[i]? = some (Val.str name) ∧
      At X.code p (opINIT_MC :: BitVec.ofInt 8 (wants V.m) :: bytes8 (BitVec.ofNat 64 i)) ∧ q = p + 10) := by
  obtain ⟨h1, h2⟩ := intern_spec s.c (.str name)
  have e : Ext s.c ((fun c : CState => (((c.intern (.str name)).2.emit opINIT_MC).emit (BitVec.ofInt 8 s.expected)).int
      (BitVec.ofNat 64 (s.c.intern (.str name)).1)) s.c) (opINIT_MC :: BitVec.ofInt 8 (wants V.m) :: bytes8 (BitVec.ofNat 64 (s.c.intern (.str name)).1)) := by
    rw [← h.exp]
    exact h1.trans ((Ext.emit _ _).trans ((Ext.emit _ _).trans (Ext.int _ _)))
  have hh : (s.c.intern (.str name)).2.HOk := h.hok.intern trivial
  refine ⟨_, EExt.on (f := fun c => (((c.intern (.str name)).2.emit opINIT_MC).emit (BitVec.ofInt 8 s.expected)).int
      (BitVec.ofNat 64 (s.c.intern (.str name)).1)) e h.ne, FRel.on (f := fun c => (((c.intern (.str name)).2.emit opINIT_MC).emit
      (BitVec.ofInt 8 s.expected)).int (BitVec.ofNat 64 (s.c.intern (.str name)).1)) h e hh, ?_⟩
  intro X base p U hX hp hl ha
  have hpool : (s.c.intern (.str name)).2.pool <+: X.K := hX.pool
  have hK := prefix_get hpool h2
  have := get_lt hK
  have := hX.small
  exact ⟨_, by omega, hK, ha, by simp⟩

theorem VRes.short {s s2 : FState} {V : VEnv} {C : FX → Nat → SEnv → Nat → Nat → Prop} (o : Opc) (h : FRel s V)
    (h2 : FRel (s.on fun c => c.shortcircuit o) V → VRes (s.on fun c => c.shortcircuit o) s2 [] V C) :
    VRes s (s2.patch (s.len + 2)) [] V (fun X base S p q => At X.code p [Opc.DUP.byte] ∧ JumpAt X o (p + 1) q ∧ At X.code (p + 10) [Opc.POP.byte] ∧
      C X base S (p + 11) q) := by
  have h3 := VRes.andThen (VRes.op h .DUP) fun h => VRes.over (s2 := s2) (D := []) o h fun h => VRes.andThen (VRes.op h .POP) h2
  have e : (s.op .DUP).len + 1 = s.len + 2 := by
    show (s.c.buffer ++ [_]).length + 1 = _
    rw [List.length_append]; rfl
  rw [e] at h3
  refine h3.mono ?_
  rintro X base U p q ⟨p1, ⟨a1, rfl⟩, a2, p2, ⟨a3, rfl⟩, a4⟩
  exact ⟨a1, a2, a3, a4⟩

theorem fnLeave_ok {s s3 : FState} {id : Nat} (h : (s.fnLeave id s3).c.ok = true) : s3.c.ok = true := by
  have hb : (s.fnBody s3).c.ok = s3.c.ok := (exitScope_parts _).2.2.2.2
  rw [← hb]
  by_cases hu : s3.ups.headD [] = []
  · rw [fnLeave_nil hu] at h; exact h
  · rw [fnLeave_cons hu] at h; exact h

theorem FnAt.mono {X : FX} {S : SEnv} {id np nd p q : Nat} {B B' : List Name → Nat → Nat → Prop} (h : FnAt X S id np nd B p q)
    (hb : ∀ U p q, B U p q → B' U p q) : FnAt X S id np nd B' p q := by
  obtain ⟨U, d, h1, h2, ⟨pe, h3, h4, h5, h6⟩, h7⟩ := h
  exact ⟨U, d, h1, h2, ⟨pe, h3, h4, hb _ _ _ h5, h6⟩, h7⟩

theorem VRes.emit2 {s : FState} {V : VEnv} (h : FRel s V) (o b : Byte) : VRes s ((s.emit o).emit b) [] V (fun X _ _ p q => At X.code p [o, b] ∧ q = p + 2) :=
  VRes.on (f := fun c => (c.emit o).emit b) h ((Ext.emit _ _).trans (Ext.emit _ _)) h.hok

theorem VRes.op2 {s : FState} {V : VEnv} (h : FRel s V) (o : Opc) (b : Byte) : VRes s ((s.op o).emit b) [] V (fun X _ _ p q => At X.code p [o.byte, b] ∧ q = p + 2) :=
  VRes.emit2 h o.byte b

/-- A variable as a statement. -/
theorem VRes.useless {s : FState} {V : VEnv} (h : FRel s V) {x : Name} (hx : x ∈ V.loc ∨ x ∉ V.hid) (hok : (s.loadVar x).c.ok = true) :
    VRes s (s.validated (s.loadVar x)) [] V (fun X _ S p q => DefinedAt X S x ∧ q = p) := by
  refine ((VRes.load h hx hok).validated).pos.mono ?_
  rintro X base U p q ⟨rfl, -, -, -, -, hu, hg⟩
  refine ⟨?_, rfl⟩
  unfold DefinedAt
  by_cases ho : x ∈ V.own
  · exact .inl ho
  by_cases hs : x ∈ V.sts
  · exact .inr (.inl hs)
  refine .inr (.inr ?_)
  rw [hg]
  have hv : scopeGet s.c.scopes x = none := by rw [scopeGet_none, h.names]; exact ho
  have hn : ¬ (scopeGet s.c.scopes x = none ∧ inOuter s.outer x = true) := by
    rintro ⟨-, h2⟩
    exact hs (VRes.upval h hx hv h2 opULOAD).2
  unfold FState.loadVar at hok
  rw [if_neg hn] at hok
  simp only [FState.on, CState.loadVar, hv] at hok
  split at hok
  · assumption
  · simp at hok

theorem FnAt.own {X : FX} {o o' sts : List Name} {U : Option (List Name)} {id np nd p q : Nat} {B : List Name → Nat → Nat → Prop}
    (h : FnAt X ⟨o, sts, U⟩ id np nd B p q) : FnAt X ⟨o', sts, U⟩ id np nd B p q := h

/-- A loop. -/
theorem VRes.whileLoop {s s2 s4 : FState} {V : VEnv} {Cc Cb : FX → Nat → SEnv → Nat → Nat → Prop} (h : FRel s V)
    (h1 : FRel (s.on fun c => c.addCheckpoint s.len) V → VRes (s.on fun c => c.addCheckpoint s.len) s2 [] V Cc)
    (h2 : FRel ((s2.on fun c => c.addCheckpoint s2.len).jump .BRF_8) V → VRes ((s2.on fun c => c.addCheckpoint s2.len).jump .BRF_8) s4 [] V Cb) :
    VRes s (((s4.branchBack s.len).patch (s2.len + 1)).on fun c => c.rmCheckpoints) [] V (fun X base S p q => ∃ p1 p2, Cc X base S p p1 ∧
      JumpAt X .BRF_8 p1 q ∧ Cb X base S (p1 + 9) p2 ∧ JumpAt X .BR_8 p2 p ∧ q = p2 + 9 ∧ p = base + s.origin + s.len ∧ p1 = base + s2.origin + s2.len ∧
      p ≤ X.code.length ∧ p1 ≤ X.code.length) := by
  have ha := h1 (h.of rfl rfl rfl rfl rfl rfl rfl rfl)
  have hao : s2.origin = s.origin := ha.origin
  have ha2 : VRes s (s2.on fun c => c.addCheckpoint s2.len) [] V _ := ha.pos.cps s.c.checkpoints (s2.len :: s2.c.checkpoints)
  have hb := h2 (FRel.jump ha2.rel .BRF_8)
  have hbo : s4.origin = s.origin := hb.origin.trans hao
  have hc := ha2.andThen fun h => VRes.over .BRF_8 h fun h => (h2 h).andThen fun h => VRes.branchBack h s.len
  have hd : VRes s (((s4.branchBack s.len).patch (s2.len + 1)).on fun c => c.rmCheckpoints) [] V _ := hc.cps s.c.checkpoints (s4.c.checkpoints.drop 2)
  refine hd.mono ?_
  rintro X base U p q ⟨p1, ⟨a1, a2, a3, a4, a5, -⟩, b1, p2, c1, c2⟩
  rw [hbo] at c2
  replace a2 : p = base + s.origin + s.len := a2
  rw [← a2] at c2
  obtain ⟨c3, rfl⟩ := c2 (by omega)
  exact ⟨p1, p2, a1, b1, c1, c3, rfl, a2, a3, by omega, a5⟩

/-- A loop with something that is done after each round. -/
theorem VRes.postLoop {s sp s3 s5 : FState} {V : VEnv} {Cp Cc Cb : FX → Nat → SEnv → Nat → Nat → Prop} (h : FRel s V)
    (h0 : FRel (s.jump .BR_8) V → VRes (s.jump .BR_8) sp [] V Cp)
    (h1 : FRel ((sp.patch (s.len + 1)).on fun c => c.addCheckpoint (s.jump .BR_8).len) V →
      VRes ((sp.patch (s.len + 1)).on fun c => c.addCheckpoint (s.jump .BR_8).len) s3 [] V Cc)
    (h2 : FRel ((s3.on fun c => c.addCheckpoint s3.len).jump .BRF_8) V → VRes ((s3.on fun c => c.addCheckpoint s3.len).jump .BRF_8) s5 [] V Cb) :
    VRes s (((s5.branchBack (s.jump .BR_8).len).patch (s3.len + 1)).on fun c => c.rmCheckpoints) [] V (fun X base S p q => ∃ pc p1 p2,
      JumpAt X .BR_8 p pc ∧ Cp X base S (p + 9) pc ∧ Cc X base S pc p1 ∧ JumpAt X .BRF_8 p1 q ∧ Cb X base S (p1 + 9) p2 ∧ JumpAt X .BR_8 p2 (p + 9) ∧
      q = p2 + 9 ∧ p + 9 = base + s.origin + (s.jump .BR_8).len ∧ p1 = base + s3.origin + s3.len ∧ p + 9 ≤ X.code.length ∧ p1 ≤ X.code.length) := by
  have hp := (VRes.over .BR_8 h h0).pos
  have hpo : sp.origin = s.origin := (h0 (FRel.jump h .BR_8)).origin
  have ha := h1 (hp.rel.of rfl rfl rfl rfl rfl rfl rfl rfl)
  have hao : s3.origin = s.origin := ha.origin.trans hpo
  have ha2 : VRes (sp.patch (s.len + 1)) (s3.on fun c => c.addCheckpoint s3.len) [] V _ := ha.pos.cps sp.c.checkpoints (s3.len :: s3.c.checkpoints)
  have hb := h2 (FRel.jump ha2.rel .BRF_8)
  have hbo : s5.origin = s.origin := hb.origin.trans hao
  have hc := ha2.andThen fun h => VRes.over .BRF_8 h fun h => (h2 h).andThen fun h => VRes.branchBack h (s.jump .BR_8).len
  have hd : VRes (sp.patch (s.len + 1)) (((s5.branchBack (s.jump .BR_8).len).patch (s3.len + 1)).on fun c => c.rmCheckpoints) [] V _ :=
    hc.cps sp.c.checkpoints (s5.c.checkpoints.drop 2)
  refine (hp.andThen fun _ => hd).mono ?_
  rintro X base U p q ⟨pc, ⟨⟨j1, j2⟩, j3, j4, j5, j6, -⟩, p1, ⟨a1, a2, a3, a4, a5, -⟩, b1, p2, c1, c2⟩
  rw [hbo] at c2
  have hlen : (s.jump .BR_8).len = s.len + 9 := by simp [FState.len, FState.jump, FState.on, CState.jump, CState.op, CState.emit, CState.int]
  have e : base + s.origin + (s.jump .BR_8).len = p + 9 := by rw [hlen, j3]; omega
  rw [e] at c2
  have hle : p + 9 ≤ X.code.length := by have := j1.1.length_le j1.2.2; simpa using this
  obtain ⟨c3, rfl⟩ := c2 hle
  exact ⟨pc, p1, p2, j1, j2, a1, b1, c1, c3, rfl, e.symm, a3, hle, a5⟩

/-- The part of a `for` loop which is done again and again. -/
theorem VRes.forCore {s1 s2 s3 s4 : FState} {V : VEnv} {x : Name} {Cb : FX → Nat → SEnv → Nat → Nat → Prop} (h : FRel s1 V) (hx : x ∈ V.loc)
    (hs2 : ((s1.on fun c => c.addCheckpoint s1.len).op .ITER_1) = s2)
    (hs3 : ((s2.on fun c => c.addCheckpoint s2.len).jump .BRF_8).storeVar x = s3) (hk3 : s3.c.ok = true) (h4 : FRel s3 V → VRes s3 s4 [] V Cb) :
    VRes s1 (((s4.branchBack s1.len).patch (s2.len + 1)).op .ENDFOR) [] V (fun X base S p q => ∃ p2 p3, At X.code p [Opc.ITER_1.byte] ∧
      JumpAt X .BRF_8 (p + 1) (p2 + 9) ∧ StoreAt X S x (p + 10) p3 ∧ Cb X base S p3 p2 ∧ JumpAt X .BR_8 p2 p ∧ At X.code (p2 + 9) [Opc.ENDFOR.byte] ∧ q = p2 + 10 ∧
      p = base + s1.origin + s1.len ∧ p + 1 = base + s2.origin + s2.len ∧ p + 1 ≤ X.code.length) := by
  have hI := VRes.op (s := s1.on fun c => c.addCheckpoint s1.len) (h.of rfl rfl rfl rfl rfl rfl rfl rfl) .ITER_1
  rw [hs2] at hI
  have hI2 : VRes s1 (s2.on fun c => c.addCheckpoint s2.len) [] V _ := hI.pos.cps s1.c.checkpoints (s2.len :: s2.c.checkpoints)
  have hS : FRel ((s2.on fun c => c.addCheckpoint s2.len).jump .BRF_8) V → VRes ((s2.on fun c => c.addCheckpoint s2.len).jump .BRF_8) s3 [] V (fun X _ S p q => StoreAt X S x p q) := by
    intro h
    have hS := VRes.store (x := x) h (.inl hx) (by rw [hs3]; exact hk3)
    rw [hs3] at hS; exact hS
  have ho : s4.origin = s1.origin := by
    have h1 := hS (FRel.jump hI2.rel _)
    exact (h4 h1.rel).origin.trans (h1.origin.trans hI2.origin)
  have hF := (hI2.andThen fun h => VRes.over .BRF_8 h fun h => (hS h).andThen fun h => (h4 h).andThen fun h => VRes.branchBack h s1.len).andThen fun h => VRes.op h .ENDFOR
  refine hF.mono ?_
  rintro X base U p q ⟨p9, ⟨p1, ⟨⟨a1, rfl⟩, a2, a3, a4, a5, -⟩, b1, p3, b2, p2, b3, b4⟩, c1, rfl⟩
  replace a2 : p = base + s1.origin + s1.len := a2
  rw [ho, ← a2] at b4
  obtain ⟨b5, rfl⟩ := b4 (by omega)
  exact ⟨p2, p3, a1, b1, b2, b3, b5, c1, rfl, a2, a3, a5⟩

/-- A `for` over a collection. -/
theorem VRes.forLoop {s sc s1 s2 s3 s4 : FState} {V : VEnv} {x : Name} {Cc Cb : FX → Nat → SEnv → Nat → Nat → Prop} (h : FRel s V) (hl : V.own.length + 1 ≤ 128)
    (h1 : FRel (s.on fun c => c.enterScope) { V with inner := true } → VRes (s.on fun c => c.enterScope) sc [] { V with inner := true } Cc)
    (hs1 : ((sc.op .INITFOR).op .END).on (fun c => c.declVar x) = s1) (hk1 : s1.c.ok = true)
    (hs2 : ((s1.on fun c => c.addCheckpoint s1.len).op .ITER_1) = s2)
    (hs3 : ((s2.on fun c => c.addCheckpoint s2.len).jump .BRF_8).storeVar x = s3) (hk3 : s3.c.ok = true)
    (h4 : FRel s3 ({ V with inner := true }.push [x]) → VRes s3 s4 [] ({ V with inner := true }.push [x]) Cb) :
    VRes s ((((s4.branchBack s1.len).patch (s2.len + 1)).op .ENDFOR).on fun c => c.exitScope.rmCheckpoints) [] V (fun X base S p q => ∃ p1 p2, Cc X base S p p1 ∧
      At X.code p1 [Opc.INITFOR.byte] ∧ At X.code (p1 + 1) [Opc.END.byte] ∧ At X.code (p1 + 2) [Opc.ITER_1.byte] ∧
      JumpAt X .BRF_8 (p1 + 3) (p2 + 9) ∧ At X.code (p1 + 12) [Opc.LSTORE.byte, BitVec.ofNat 8 S.own.length] ∧
      Cb X base ⟨x :: S.own, S.sts, S.ups⟩ (p1 + 14) p2 ∧ JumpAt X .BR_8 p2 (p1 + 2) ∧
      At X.code (p2 + 9) [Opc.ENDFOR.byte] ∧ At X.code (p2 + 10) [Opc.POP.byte] ∧ q = p2 + 11 ∧
      p1 + 2 = base + s3.origin + s1.len ∧ p1 + 3 = base + s3.origin + s2.len ∧ p1 + 3 ≤ X.code.length ∧ p1 + 2 ≤ X.code.length) := by
  have hA := h1 h.enterScope
  have hsco : sc.c.scopes = [] :: s.c.scopes := by
    obtain ⟨c, e, -⟩ := hA
    exact e.scopes0
  have hdec : ((sc.op .INITFOR).op .END).declare x = s1 := by
    have hc : ¬ ((sc.op .INITFOR).op .END).c.containsCur x = true := by
      show ¬ CState.containsCur ((sc.c.op .INITFOR).op .END) x = true
      unfold CState.containsCur
      rw [show ((sc.c.op .INITFOR).op .END).scopes = sc.c.scopes from rfl, hsco]
      simp [Scope.get]
    unfold FState.declare; rw [if_neg hc]; exact hs1
  -- up to the declaration
  have hB := hA.andThen fun h => (VRes.op h .INITFOR).andThen fun h => (VRes.op h .END).andThen fun h => by
    have := VRes.declare (x := x) h rfl hl (by rw [hdec]; exact hk1)
    rw [hdec] at this; exact this
  have hD := VRes.scoped h fun _ => hB.seqD (fun h => VRes.forCore h (by simp [VEnv.push]) hs2 hs3 hk3 h4) (fun X base U p p1 q a b => ⟨p1, a, b⟩)
    (C := fun X base S p q => ∃ p1, (∃ p2, Cc X base S p p2 ∧ ∃ p3, (At X.code p2 [Opc.INITFOR.byte] ∧ p3 = p2 + 1) ∧ ∃ p4, (At X.code p3 [Opc.END.byte] ∧
      p4 = p3 + 1) ∧ p1 = p4) ∧ ∃ p2 p3, At X.code p1 [Opc.ITER_1.byte] ∧ JumpAt X .BRF_8 (p1 + 1) (p2 + 9) ∧ StoreAt X ⟨[x] ++ S.own, S.sts, S.ups⟩ x (p1 + 10) p3 ∧
      Cb X base ⟨[x] ++ S.own, S.sts, S.ups⟩ p3 p2 ∧ JumpAt X .BR_8 p2 p1 ∧ At X.code (p2 + 9) [Opc.ENDFOR.byte] ∧ q = p2 + 10 ∧ p1 = base + s1.origin + s1.len ∧
      p1 + 1 = base + s2.origin + s2.len ∧ p1 + 1 ≤ X.code.length)
  have hE : VRes s ((((s4.branchBack s1.len).patch (s2.len + 1)).op .ENDFOR).on fun c => c.exitScope.rmCheckpoints) [] V _ :=
    hD.cps s.c.checkpoints (((((s4.branchBack s1.len).patch (s2.len + 1)).op .ENDFOR).on fun c => c.exitScope).c.checkpoints.drop 2)
  have ho3 : s3.origin = s2.origin := by
    rw [← hs3]; unfold FState.storeVar; split
    · split
      · split <;> rfl
      · rfl
    · rfl
  have ho2 : s2.origin = s1.origin := by rw [← hs2]; rfl
  refine hE.mono ?_
  rintro X base U p q ⟨p9, ⟨p4, ⟨p1, a1, p3, ⟨a2, rfl⟩, p4', ⟨a3, rfl⟩, rfl⟩, p2, p3, b1, b2, b3, b4, b5, b6, rfl, b7, b8, b9⟩, c1, rfl⟩
  have hst : p3 = p1 + 14 ∧ At X.code (p1 + 12) [Opc.LSTORE.byte, BitVec.ofNat 8 V.own.length] := by
    rcases b3 with ⟨i, j, d1, d2, d3, d4⟩ | ⟨d1, -⟩ | ⟨d1, -⟩
    · have hj : j = 0 := d1.unique (show PosOf ([x] ++ _) x 0 from rfl)
      subst hj
      have hi : i = V.own.length := by
        have d2 : i + 0 + 1 = ([x] ++ V.own).length := d2
        rw [List.length_append] at d2; simp at d2; omega
      subst hi
      exact ⟨d4, d3⟩
    · exact absurd (by simp) d1
    · exact absurd (by simp) d1
  obtain ⟨rfl, hst⟩ := hst
  refine ⟨p1, p2, a1, a2, a3, b1, b2, hst, b4, b5, b6, c1, rfl, ?_, ?_, b9, by omega⟩
  · rw [ho3, ho2]; exact b7
  · rw [ho3]; exact b8

theorem VRes.decls0 {s s' : FState} {D : List Name} {V : VEnv} {C : FX → Nat → SEnv → Nat → Nat → Prop} (h : VRes s s' D V C) (hd : D = []) :
    VRes s s' [] V C := hd ▸ h

theorem stmtExpr {e : FExpr} {s : FState} {V : VEnv} {L : Option (List Name)} (h : FRel s V) (hok : (visitFS (.expr e) s).c.ok = true)
    (he : visitFS (.expr e) s = (visitFE e s).op .POP) (h1 : (visitFE e s).c.ok = true → VRes s (visitFE e s) [] V (fun X _ S p q => CodeE X S e V.m p q)) :
    VRes s (visitFS (.expr e) s) (FStmt.expr e).decls V (fun X base S p q => ∀ l, LoopOk X base s V L l → CodeS X S (.expr e) V.m l p q) := by
  rw [he] at hok ⊢
  refine ((h1 hok).andThen fun h => VRes.op h .POP).mono ?_
  rintro X base U p q ⟨p1, a, b⟩ l _
  exact .inr (.inr ⟨p1, a, b⟩)

/-- The left sides of a declaration. -/
theorem visitTargets_spec : ∀ (ls : List FTarget) {s : FState} {V : VEnv}, (visitTargets ls s).c.ok = true → FRel s V → (declsL ls ≠ [] → V.inner = true) →
    V.own.length + ls.length ≤ 128 → FFitsL V.hid V.loc ls →
    VRes s (visitTargets ls s) (declsL ls) V (fun X _ S p q => CodeL X false S ls p q)
  | [], s, V, hok, h, hd, hl, hf => by
    rw [visitTargets]
    exact (VRes.skip h).mono fun _ _ _ _ _ a => a
  | .let_ x :: ls, s, V, hok, h, hd, hl, hf => by
    rw [visitTargets] at hok ⊢
    have hV : V.inner = true := hd (by simp [declsL])
    rw [List.length_cons] at hl
    split at hok
    · simp [FState.error, FState.on] at hok
    · rename_i hc
      rw [if_neg hc]
      refine (VRes.declare (x := x) h hV (by omega) ((visitTargets_keep ls _).ok hok)).seqD
        (fun h => visitTargets_spec ls hok h (fun _ => hV) (by rw [VEnv.own_push]; simp; omega) hf) ?_
      rintro X base U p p1 q rfl b
      exact ⟨by simp only; omega, b⟩
  | .const_ x :: ls, s, V, hok, h, hd, hl, hf => by
    rw [visitTargets] at hok ⊢
    have hV : V.inner = true := hd (by simp [declsL])
    rw [List.length_cons] at hl
    split at hok
    · simp [FState.error, FState.on] at hok
    · rename_i hc
      rw [if_neg hc]
      refine (VRes.declConst (x := x) h hV (by omega) ((visitTargets_keep ls _).ok hok)).seqD
        (fun h => visitTargets_spec ls hok h (fun _ => hV) (by rw [VEnv.own_push]; simp; omega) hf) ?_
      rintro X base U p p1 q rfl b
      exact ⟨by simp only; omega, b⟩
  | .assign x :: ls, s, V, hok, h, hd, hl, hf => by
    rw [visitTargets] at hok ⊢
    rw [List.length_cons] at hl
    have hlen : scopeLen s.c.scopes = V.own.length := by rw [scopeLen_flatten, ← h.names, List.length_map]
    split at hok
    · simp [FState.error, FState.on] at hok
    · rename_i hc
      rw [if_neg hc, hlen]
      rw [hlen] at hok
      have hk := (visitTargets_keep ls _).ok hok
      refine ((VRes.op2 h .MOVEUP_FP _).andThen fun h => (VRes.store h hf.1 hk).andThen fun h => visitTargets_spec ls hok h hd (by omega) hf.2).mono ?_
      rintro X base U p q ⟨p1, ⟨a, rfl⟩, p2, b, c⟩
      exact ⟨by simp only; omega, a, p2, b, c⟩

mutual
theorem visitFE_spec : ∀ (e : FExpr) {s : FState} {V : VEnv}, (visitFE e s).c.ok = true → FRel s V → FFitsE V.hid V.loc e →
    VRes s (visitFE e s) [] V (fun X _ S p q => CodeE X S e V.m p q)
  | .lit l, s, V, hok, h, hf => by rw [visitFE]; exact VRes.lit h l
  | .var x, s, V, hok, h, hf => by
    rw [visitFE] at hok ⊢
    exact (VRes.load h hf hok).mono fun _ _ _ _ _ a => a.1
  | .un o e, s, V, hok, h, hf => by
    rw [visitFE] at hok ⊢
    refine ((visitFE_spec e hok h hf).andThen fun h => VRes.op h _).mono ?_
    rintro X base U p q ⟨p1, a, b⟩
    exact ⟨p1, a, b⟩
  | .bin (.op o) l r, s, V, hok, h, hf => by
    rw [visitFE] at hok ⊢
    refine ((visitFE_spec l ((visitFE_keep r _).ok hok) h hf.1).andThen fun h => (visitFE_spec r hok h hf.2).andThen fun h => VRes.op h _).mono ?_
    rintro X base U p q ⟨p1, a, p2, b, c⟩
    exact ⟨p1, p2, a, b, c⟩
  | .bin .ne l r, s, V, hok, h, hf => by
    rw [visitFE] at hok ⊢
    refine ((visitFE_spec l ((visitFE_keep r _).ok hok) h hf.1).andThen fun h => (visitFE_spec r hok h hf.2).andThen fun h =>
      (VRes.op h _).andThen fun h => VRes.op h _).mono ?_
    rintro X base U p q ⟨p1, a, p2, b, p3, ⟨c, rfl⟩, d, rfl⟩
    exact ⟨p1, p2, a, b, c, d, rfl⟩
  | .bin .nid l r, s, V, hok, h, hf => by
    rw [visitFE] at hok ⊢
    refine ((visitFE_spec l ((visitFE_keep r _).ok hok) h hf.1).andThen fun h => (visitFE_spec r hok h hf.2).andThen fun h =>
      (VRes.op h _).andThen fun h => VRes.op h _).mono ?_
    rintro X base U p q ⟨p1, a, p2, b, p3, ⟨c, rfl⟩, d, rfl⟩
    exact ⟨p1, p2, a, b, c, d, rfl⟩
  | .bin .and l r, s, V, hok, h, hf => by
    rw [visitFE] at hok ⊢
    have hk : (visitFE l s).c.ok = true := (visitFE_keep r ((visitFE l s).on fun c => c.shortcircuit .BRF_8)).ok hok
    refine ((visitFE_spec l hk h hf.1).andThen fun h => VRes.short .BRF_8 h fun h => visitFE_spec r hok h hf.2).mono ?_
    rintro X base U p q ⟨p1, a, b⟩
    exact ⟨p1, a, b⟩
  | .bin .or l r, s, V, hok, h, hf => by
    rw [visitFE] at hok ⊢
    have hk : (visitFE l s).c.ok = true := (visitFE_keep r ((visitFE l s).on fun c => c.shortcircuit .BRT_8)).ok hok
    refine ((visitFE_spec l hk h hf.1).andThen fun h => VRes.short .BRT_8 h fun h => visitFE_spec r hok h hf.2).mono ?_
    rintro X base U p q ⟨p1, a, b⟩
    exact ⟨p1, a, b⟩
  | .bin .coalesce l r, s, V, hok, h, hf => by
    rw [visitFE] at hok ⊢
    have hk : (visitFE l s).c.ok = true := (visitFE_keep r ((visitFE l s).on fun c => c.shortcircuit .BRN_8)).ok hok
    refine ((visitFE_spec l hk h hf.1).andThen fun h => VRes.short .BRN_8 h fun h => visitFE_spec r hok h hf.2).mono ?_
    rintro X base U p q ⟨p1, a, b⟩
    exact ⟨p1, a, b⟩
  | .tri c a b, s, V, hok, h, hf => by
    rw [visitFE] at hok ⊢
    have hk2 := (visitFE_keep b _).ok hok
    have hk1 := (visitFE_keep a _).ok hk2
    refine ((visitFE_spec c hk1 h hf.1).andThen fun h => VRes.arms h (fun h => visitFE_spec a hk2 h hf.2.1) (fun h => visitFE_spec b hok h hf.2.2)).mono ?_
    rintro X base U p q ⟨p1, a, p2, b, c, d, e⟩
    exact ⟨p1, p2, a, b, c, d, e⟩
  | .list es, s, V, hok, h, hf => by
    rw [visitFE] at hok ⊢
    refine ((VRes.op h .END).andThen fun h => (visitFEs_spec es hok h hf).andThen fun h => VRes.op h .NEWLIST).mono ?_
    rintro X base U p q ⟨p1, ⟨a, rfl⟩, p2, b, c⟩
    exact ⟨p2, a, b, c⟩
  | .table es, s, V, hok, h, hf => by
    rw [visitFE] at hok ⊢
    refine ((VRes.op h .END).andThen fun h => (visitFEs_spec es hok h hf).andThen fun h => VRes.op h .NEWTABLE).mono ?_
    rintro X base U p q ⟨p1, ⟨a, rfl⟩, p2, b, c⟩
    exact ⟨p2, a, b, c⟩
  | .get l r, s, V, hok, h, hf => by
    rw [visitFE] at hok ⊢
    refine ((visitFE_spec l ((visitFE_keep r _).ok hok) h hf.1).andThen fun h => (visitFE_spec r hok h hf.2).andThen fun h => VRes.op h _).mono ?_
    rintro X base U p q ⟨p1, a, p2, b, c⟩
    exact ⟨p1, p2, a, b, c⟩
  | .slice c a b, s, V, hok, h, hf => by
    rw [visitFE] at hok ⊢
    have hk2 := (visitFE_keep b _).ok hok
    have hk1 := (visitFE_keep a _).ok hk2
    refine ((visitFE_spec c hk1 h hf.1).andThen fun h => (visitFE_spec a hk2 h hf.2.1).andThen fun h => (visitFE_spec b hok h hf.2.2).andThen
      fun h => VRes.op h _).mono ?_
    rintro X base U p q ⟨p1, a, p2, b, p3, c, d⟩
    exact ⟨p1, p2, p3, a, b, c, d⟩
  | .fn id ps body, s, V, hok, h, hf => by
    rw [visitFE] at hok ⊢
    have hok3 := fnLeave_ok hok
    refine (VRes.fn (id := id) h hf.1 hf.2.1 fun h => visitFSs_spec body none hok3 h rfl hf.2.2).mono ?_
    rintro X base U p q a
    refine FnAt.mono a fun U p q h => h none trivial
  | .call f args, s, V, hok, h, hf => by
    rw [visitFE] at hok ⊢
    have hk1 := (visitFEs_keep args _).ok hok
    refine ((visitFE_spec f hk1 h hf.1).andThen fun h => (VRes.initCall h).andThen fun h => (visitFEs_spec args hok h hf.2).andThen
      fun h => VRes.emit h _).mono ?_
    rintro X base U p q ⟨p1, a, p2, ⟨b, rfl⟩, p3, c, d⟩
    exact ⟨p1, p3, a, b, c, d⟩
  | .mcall f name args, s, V, hok, h, hf => by
    rw [visitFE] at hok ⊢
    have hk1 : (visitFE f s).c.ok = true := by
      have h : ((visitFE f s).c.intern (.str name)).2.ok = true := (visitFEs_keep args _).ok hok
      simpa using h
    refine ((visitFE_spec f hk1 h hf.1).andThen fun h => (VRes.initMc h name).andThen fun h => (visitFEs_spec args hok h hf.2).andThen
      fun h => VRes.emit h _).mono ?_
    rintro X base U p q ⟨p1, a, p2, ⟨i, b1, b2, b3, rfl⟩, p3, c, d⟩
    exact ⟨p1, p3, i, a, b1, b2, b3, c, d⟩
  | .ctx all e, s, V, hok, h, hf => by
    rw [visitFE] at hok ⊢
    have hw : (if all = true then -1 else 1) = wants all := by cases all <;> rfl
    rw [hw] at hok ⊢
    exact VRes.ctx all h fun h => visitFE_spec e hok h hf
theorem visitFEs_spec : ∀ (es : FExprs) {s : FState} {V : VEnv}, (visitFEs es s).c.ok = true → FRel s V → FFitsEs V.hid V.loc es →
    VRes s (visitFEs es s) [] V (fun X _ S p q => CodeEs X S es V.m p q)
  | .nil, s, V, hok, h, hf => by rw [visitFEs]; exact VRes.skip h
  | .cons e es, s, V, hok, h, hf => by
    rw [visitFEs] at hok ⊢
    refine ((visitFE_spec e ((visitFEs_keep es _).ok hok) h hf.1).andThen fun h => visitFEs_spec es hok h hf.2).mono ?_
    rintro X base U p q ⟨p1, a, b⟩
    exact ⟨p1, a, b⟩
theorem visitFS_spec : ∀ (st : FStmt) (L : Option (List Name)) {s : FState} {V : VEnv}, (visitFS st s).c.ok = true → FRel s V →
    (st.decls ≠ [] → V.inner = true) → FFitsS V.hid V.n V.loc L st →
    VRes s (visitFS st s) st.decls V (fun X base S p q => ∀ l, LoopOk X base s V L l → CodeS X S st V.m l p q)
  | .expr (.lit l), L, s, V, hok, h, hd, hf => by
    rw [visitFS]
    exact (VRes.skip h).mono fun _ _ _ _ _ a _ _ => .inl ⟨l, rfl, a⟩
  | .expr (.var x), L, s, V, hok, h, hd, hf => by
    rw [visitFS] at hok ⊢
    refine (VRes.useless h hf hok).mono ?_
    rintro X base U p q ⟨a, b⟩ l hl
    exact .inr (.inl ⟨x, rfl, a, b⟩)
  | .expr (.un o e), L, s, V, hok, h, hd, hf => stmtExpr h hok (by rw [visitFS] <;> (intro _ h; cases h)) (visitFE_spec _ · h hf)
  | .expr (.bin o l r), L, s, V, hok, h, hd, hf => stmtExpr h hok (by rw [visitFS] <;> (intro _ h; cases h)) (visitFE_spec _ · h hf)
  | .expr (.tri c a b), L, s, V, hok, h, hd, hf => stmtExpr h hok (by rw [visitFS] <;> (intro _ h; cases h)) (visitFE_spec _ · h hf)
  | .expr (.list es), L, s, V, hok, h, hd, hf => stmtExpr h hok (by rw [visitFS] <;> (intro _ h; cases h)) (visitFE_spec _ · h hf)
  | .expr (.table es), L, s, V, hok, h, hd, hf => stmtExpr h hok (by rw [visitFS] <;> (intro _ h; cases h)) (visitFE_spec _ · h hf)
  | .expr (.get c k), L, s, V, hok, h, hd, hf => stmtExpr h hok (by rw [visitFS] <;> (intro _ h; cases h)) (visitFE_spec _ · h hf)
  | .expr (.slice c a b), L, s, V, hok, h, hd, hf => stmtExpr h hok (by rw [visitFS] <;> (intro _ h; cases h)) (visitFE_spec _ · h hf)
  | .expr (.fn i ps b), L, s, V, hok, h, hd, hf => stmtExpr h hok (by rw [visitFS] <;> (intro _ h; cases h)) (visitFE_spec _ · h hf)
  | .expr (.call f a), L, s, V, hok, h, hd, hf => stmtExpr h hok (by rw [visitFS] <;> (intro _ h; cases h)) (visitFE_spec _ · h hf)
  | .expr (.mcall o n a), L, s, V, hok, h, hd, hf => stmtExpr h hok (by rw [visitFS] <;> (intro _ h; cases h)) (visitFE_spec _ · h hf)
  | .expr (.ctx a e), L, s, V, hok, h, hd, hf => stmtExpr h hok (by rw [visitFS] <;> (intro _ h; cases h)) (visitFE_spec _ · h hf)
  | .let_ x e, L, s, V, hok, h, hd, hf => by
    rw [visitFS] at hok ⊢
    have hl : V.own.length + 1 ≤ 128 := by rw [VEnv.own_length]; have := hf.1; omega
    refine ((visitFE_spec e ((VKeep.declare _ x).ok hok) h hf.2).andThen fun h => VRes.declare h (hd (by simp [FStmt.decls])) hl hok).mono ?_
    rintro X base U p q ⟨p1, a, rfl⟩ l _
    exact ⟨hl, a⟩
  | .const_ x e, L, s, V, hok, h, hd, hf => by
    rw [visitFS] at hok ⊢
    have hl : V.own.length + 1 ≤ 128 := by rw [VEnv.own_length]; have := hf.1; omega
    have hk : ((visitFE e s).declare x).c.ok = true := by rw [← makeConst_ok _ x]; exact hok
    refine ((visitFE_spec e ((VKeep.declare _ x).ok hk) h hf.2).andThen fun h => VRes.declConst h (hd (by simp [FStmt.decls])) hl hok).mono ?_
    rintro X base U p q ⟨p1, a, rfl⟩ l _
    exact ⟨hl, a⟩
  | .multi ls es, L, s, V, hok, h, hd, hf => by
    rw [visitFS] at hok ⊢
    have hl : V.own.length + ls.length ≤ 128 := by rw [VEnv.own_length]; have := hf.1; omega
    refine ((visitFEs_spec es ((visitTargets_keep ls _).ok hok) h hf.2.2.1).andThen fun h => visitTargets_spec ls hok h hd hl hf.2.2.2).mono ?_
    rintro X base U p q ⟨p1, a, b⟩ l _
    exact ⟨p1, hf.2.1, a, b⟩
  | .assign x e, L, s, V, hok, h, hd, hf => by
    rw [visitFS] at hok ⊢
    split at hok
    · simp [FState.error, FState.on] at hok
    · rename_i hc
      rw [if_neg hc]
      refine ((visitFE_spec e ((VKeep.storeVar _ x).ok hok) h hf.2).andThen fun h => VRes.store h hf.1 hok).mono ?_
      rintro X base U p q ⟨p1, a, b⟩ l _
      exact ⟨p1, a, b⟩
  | .set c a b, L, s, V, hok, h, hd, hf => by
    rw [visitFS] at hok ⊢
    have hk2 := (visitFE_keep b _).ok hok
    have hk1 := (visitFE_keep a _).ok hk2
    refine ((visitFE_spec c hk1 h hf.1).andThen fun h => (visitFE_spec a hk2 h hf.2.1).andThen fun h => (visitFE_spec b hok h hf.2.2).andThen
      fun h => VRes.op h _).mono ?_
    rintro X base U p q ⟨p1, a, p2, b, p3, c, d⟩ l _
    exact ⟨p1, p2, p3, a, b, c, d⟩
  | .echo e, L, s, V, hok, h, hd, hf => by
    rw [visitFS] at hok ⊢
    refine ((visitFE_spec e hok h hf).andThen fun h => (VRes.op2 h .ECHO _)).mono ?_
    rintro X base U p q ⟨p1, a, b, c⟩ l _
    exact ⟨p1, _, a, b, c⟩
  | .assert e, L, s, V, hok, h, hd, hf => by
    rw [visitFS] at hok ⊢
    refine ((visitFE_spec e hok h hf).andThen fun h => (VRes.op h .ASS)).mono ?_
    rintro X base U p q ⟨p1, a, b, c⟩ l _
    exact ⟨p1, a, b, c⟩
  | .block ss, L, s, V, hok, h, hd, hf => by
    rw [visitFS] at hok ⊢
    have hk : (visitFSs ss (s.on fun c => c.enterScope)).c.ok = true := by
      have hok : (visitFSs ss (s.on fun c => c.enterScope)).c.exitScope.ok = true := hok
      rw [(exitScope_parts _).2.2.2.2] at hok; exact hok
    refine (VRes.scoped h fun h => visitFSs_spec ss L hk h rfl hf).mono ?_
    rintro X base U p q ⟨p1, a, b⟩ l hl
    exact ⟨p1, a l (hl.of rfl rfl rfl rfl), b⟩
  | .ifThen c t, L, s, V, hok, h, hd, hf => by
    rw [visitFS] at hok ⊢
    split
    · rename_i hc
      rw [if_pos hc] at hok
      have h1 := visitFS_spec t L hok h (by rw [hf.2.1]; simp) hf.2.2
      rw [hf.2.1] at h1
      exact h1.mono fun _ _ _ _ _ a l hl => ⟨hf.2.1, .inl ⟨hc, a l hl⟩⟩
    · rename_i hc
      rw [if_neg hc] at hok
      split
      · rename_i hc2
        rw [if_pos hc2] at hok
        have h1 := visitFS_spec t L hok h (by rw [hf.2.1]; simp) hf.2.2
        rw [hf.2.1] at h1
        exact h1.validated.mono fun _ _ _ _ _ a l hl => ⟨hf.2.1, .inr (.inl ⟨hc2, a⟩)⟩
      · rename_i hc2
        rw [if_neg hc2] at hok
        have hk : (visitFE c s).c.ok = true := (visitFS_keep t ((visitFE c s).jump .BRF_8)).ok hok
        have h0 := visitFE_spec c hk h hf.1
        have ho := h0.origin
        have hcp := (visitFE_keep c s).cps
        refine (h0.andThen fun h => VRes.over .BRF_8 h fun h => (visitFS_spec t L (s := (visitFE c s).jump .BRF_8) hok h (fun h => absurd hf.2.1 h)
          hf.2.2).decls0 hf.2.1).mono ?_
        · rintro X base U p q ⟨p1, a, b, c⟩ l hl
          exact ⟨hf.2.1, .inr (.inr ⟨p1, a, b, c l (hl.of hcp ho rfl rfl)⟩)⟩
  | .ifElse c t e, L, s, V, hok, h, hd, hf => by
    obtain ⟨hfc, ⟨hdt, hft⟩, hde, hfe⟩ := hf
    rw [visitFS] at hok ⊢
    split
    · rename_i hc
      rw [if_pos hc] at hok
      have h1 := visitFS_spec t L ((visitFS_keep e _).ok hok) h (by rw [hdt]; simp) hft
      rw [hdt] at h1
      refine (h1.andThen fun h => VRes.validated (C := fun X base S p q => ∀ l, LoopOk X base (visitFS t s) V L l → CodeS X S e V.m l p q) ?_).mono ?_
      · have h2 := visitFS_spec e L (s := visitFS t s) hok h (by rw [hde]; simp) hfe
        rw [hde] at h2
        exact h2
      · rintro X base U p q ⟨p1, a, rfl⟩ l hl
        exact ⟨⟨hdt, hde⟩, .inl ⟨hc, a l hl⟩⟩
    · rename_i hc
      rw [if_neg hc] at hok
      split
      · rename_i hc2
        rw [if_pos hc2] at hok
        have h1 := visitFS_spec t L ((visitFS_keep e (s.validated (visitFS t s))).ok hok) h (by rw [hdt]; simp) hft
        rw [hdt] at h1
        have ho := h1.origin
        have hcp := (visitFS_keep t s).cps
        refine (h1.validated.andThen fun h => (visitFS_spec e L (s := s.validated (visitFS t s)) hok h (fun h => absurd hde h) hfe).decls0 hde).mono ?_
        · rintro X base U p q ⟨p1, rfl, a⟩ l hl
          exact ⟨⟨hdt, hde⟩, .inr (.inl ⟨hc2, a l (hl.of hcp ho rfl rfl)⟩)⟩
      · rename_i hc2
        rw [if_neg hc2] at hok
        have hk2 : (visitFS t ((visitFE c s).jump .BRF_8)).c.ok = true :=
          (visitFS_keep e (((visitFS t ((visitFE c s).jump .BRF_8)).jump .BR_8).patch ((visitFE c s).len + 1))).ok hok
        have hk : (visitFE c s).c.ok = true := (visitFS_keep t ((visitFE c s).jump .BRF_8)).ok hk2
        have h0 := visitFE_spec c hk h hfc
        have ho := h0.origin
        have hcp := (visitFE_keep c s).cps
        have hcp2 := (visitFS_keep t ((visitFE c s).jump .BRF_8)).cps
        have h1 : FRel ((visitFE c s).jump .BRF_8) V → VRes ((visitFE c s).jump .BRF_8) (visitFS t ((visitFE c s).jump .BRF_8)) [] V
            (fun X base S p q => ∀ l, LoopOk X base ((visitFE c s).jump .BRF_8) V L l → CodeS X S t V.m l p q) := by
          intro h
          have h1 := visitFS_spec t L hk2 h (by rw [hdt]; simp) hft
          rw [hdt] at h1; exact h1
        have ho2 := (h1 (FRel.jump h0.rel _)).origin
        refine (h0.andThen fun h => VRes.arms h h1 fun h => (visitFS_spec e L (s := ((visitFS t ((visitFE c s).jump .BRF_8)).jump .BR_8).patch
          ((visitFE c s).len + 1)) hok h (fun h => absurd hde h) hfe).decls0 hde).mono ?_
        · rintro X base U p q ⟨p1, a, p2, b, c, d, e⟩ l hl
          exact ⟨⟨hdt, hde⟩, .inr (.inr ⟨p1, p2, a, b, c l (hl.of hcp ho rfl rfl), d, e l (hl.of (hcp2.trans hcp) (ho2.trans ho) rfl rfl)⟩)⟩
  | .while_ c body, L, s, V, hok, h, hd, hf => by
    obtain ⟨hfc, hdb, hfb⟩ := hf
    rw [visitFS] at hok ⊢
    split
    · rename_i hc
      rw [if_pos hc] at hok
      have h1 := visitFS_spec body (some V.loc) hok h (by rw [hdb]; simp) hfb
      rw [hdb] at h1
      exact h1.validated.mono fun _ _ _ _ _ a l hl => ⟨hdb, .inl ⟨hc, a⟩⟩
    · rename_i hc
      rw [if_neg hc] at hok
      have hk2 : (visitFS body (((visitFE c (s.on fun c => c.addCheckpoint s.len)).on fun c' => c'.addCheckpoint
          (visitFE c (s.on fun c => c.addCheckpoint s.len)).len).jump .BRF_8)).c.ok = true := hok
      have hk : (visitFE c (s.on fun c => c.addCheckpoint s.len)).c.ok = true :=
        (visitFS_keep body (((visitFE c (s.on fun c => c.addCheckpoint s.len)).on fun c' => c'.addCheckpoint
          (visitFE c (s.on fun c => c.addCheckpoint s.len)).len).jump .BRF_8)).ok hk2
      have hcp : (visitFE c (s.on fun c => c.addCheckpoint s.len)).c.checkpoints = s.len :: s.c.checkpoints := (visitFE_keep c _).cps
      have ho : (visitFE c (s.on fun c => c.addCheckpoint s.len)).origin = s.origin :=
        (visitFE_spec c hk (V := V) (h.of rfl rfl rfl rfl rfl rfl rfl rfl) hfc).origin
      refine (VRes.whileLoop h (fun h => visitFE_spec c hk h hfc) fun h => (visitFS_spec body (some V.loc) hk2 h (fun h => absurd hdb h) hfb).decls0 hdb).mono ?_
      rintro X base U p q ⟨p1, p2, a, b, c1, d, rfl, e1, e2, e3, e4⟩ l _
      refine ⟨hdb, .inr ⟨p1, p2, a, b, c1 _ ⟨(visitFE c (s.on fun c => c.addCheckpoint s.len)).len, s.len, s.c.checkpoints, ?_, ?_, ?_, ?_⟩, d, rfl⟩⟩
      · show _ :: _ = _
        rw [hcp]
      · show _ = some (⟨base + (visitFE c (s.on fun c => c.addCheckpoint s.len)).origin + _, base + (visitFE c (s.on fun c => c.addCheckpoint s.len)).origin + _, _⟩ : FLoopAt)
        rw [e1, e2, ho]; rfl
      · show base + (visitFE c (s.on fun c => c.addCheckpoint s.len)).origin + _ ≤ _
        rw [← e2]; exact e4
      · show base + (visitFE c (s.on fun c => c.addCheckpoint s.len)).origin + _ ≤ _
        rw [ho, ← e1]; exact e3
  | .loop c body post, L, s, V, hok, h, hd, hf => by
    obtain ⟨hfc, ⟨hdb, hfb⟩, hdp, hfp⟩ := hf
    rw [visitFS] at hok ⊢
    split
    · rename_i hc
      rw [if_pos hc] at hok
      have h1 := (visitFS_spec body (some V.loc) ((visitFS_keep post (s.validated (visitFS body s))).ok hok) h (by rw [hdb]; simp) hfb).decls0 hdb
      have h2 := h1.validated.andThen fun h => ((visitFS_spec post none (s := s.validated (visitFS body s)) hok h (by rw [hdp]; simp) hfp).decls0 hdp).validated
      refine h2.mono ?_
      rintro X base U p q ⟨p1, rfl, rfl⟩ l _
      exact ⟨⟨hdb, hdp⟩, .inl ⟨hc, rfl⟩⟩
    · rename_i hc
      rw [if_neg hc] at hok
      dsimp only at hok ⊢
      generalize hsp : visitFS post (s.jump .BR_8) = sp at hok ⊢
      generalize hs3 : visitFE c ((sp.patch (s.len + 1)).on fun c => c.addCheckpoint (s.jump .BR_8).len) = s3 at hok ⊢
      generalize hs5 : visitFS body ((s3.on fun c => c.addCheckpoint s3.len).jump .BRF_8) = s5 at hok ⊢
      have hk5 : s5.c.ok = true := hok
      have hk3 : s3.c.ok = true := by rw [← hs5] at hk5; exact (visitFS_keep body ((s3.on fun c => c.addCheckpoint s3.len).jump .BRF_8)).ok hk5
      have hkp : sp.c.ok = true := by
        rw [← hs3] at hk3; exact (visitFE_keep c ((sp.patch (s.len + 1)).on fun c => c.addCheckpoint (s.jump .BR_8).len)).ok hk3
      have h0 : FRel (s.jump .BR_8) V → VRes (s.jump .BR_8) sp [] V _ := fun h => by
        rw [← hsp] at hkp ⊢; exact (visitFS_spec post none hkp h (fun h => absurd hdp h) hfp).decls0 hdp
      have h1 : FRel ((sp.patch (s.len + 1)).on fun c => c.addCheckpoint (s.jump .BR_8).len) V →
          VRes ((sp.patch (s.len + 1)).on fun c => c.addCheckpoint (s.jump .BR_8).len) s3 [] V _ := fun h => by
        rw [← hs3] at hk3 ⊢; exact visitFE_spec c hk3 h hfc
      have h2 : FRel ((s3.on fun c => c.addCheckpoint s3.len).jump .BRF_8) V → VRes ((s3.on fun c => c.addCheckpoint s3.len).jump .BRF_8) s5 [] V _ := fun h => by
        rw [← hs5] at hk5 ⊢; exact (visitFS_spec body (some V.loc) hk5 h (fun h => absurd hdb h) hfb).decls0 hdb
      have hpo : sp.origin = s.origin := (h0 (FRel.jump h .BR_8)).origin
      have ho : s3.origin = s.origin := (h1 ((FRel.patch (h0 (FRel.jump h .BR_8)).rel (s.len + 1)).of rfl rfl rfl rfl rfl rfl rfl rfl)).origin.trans hpo
      have hcp : s3.c.checkpoints = (s.jump .BR_8).len :: sp.c.checkpoints := by rw [← hs3]; exact (visitFE_keep c _).cps
      refine (VRes.postLoop h h0 h1 h2).mono ?_
      rintro X base U p q ⟨pc, p1, p2, a0, a0', a, b, c1, d, rfl, e1, e2, e3, e4⟩ l _
      refine ⟨⟨hdb, hdp⟩, .inr ⟨pc, p1, p2, a0, a0' none trivial, a, b, c1 _ ⟨s3.len, (s.jump .BR_8).len, sp.c.checkpoints, ?_, ?_, ?_, ?_⟩, d, rfl⟩⟩
      · show _ :: _ = _
        rw [hcp]
      · show _ = some (⟨base + s3.origin + _, base + s3.origin + _, _⟩ : FLoopAt)
        rw [e1, e2, ho]; rfl
      · show base + s3.origin + _ ≤ _
        rw [← e2]; exact e4
      · show base + s3.origin + _ ≤ _
        rw [ho, ← e1]; exact e3
  | .forIter x coll body, L, s, V, hok, h, hd, hf => by
    obtain ⟨hl0, hfc, hdb, hfb⟩ := hf
    have hl : V.own.length + 1 ≤ 128 := by rw [VEnv.own_length]; omega
    rw [visitFS] at hok ⊢
    generalize hsc : visitFE coll (s.on fun c => c.enterScope) = sc at hok ⊢
    generalize hs1 : ((sc.op .INITFOR).op .END).on (fun c => c.declVar x) = s1 at hok ⊢
    generalize hs2 : ((s1.on fun c => c.addCheckpoint s1.len).op .ITER_1) = s2 at hok ⊢
    generalize hs3 : ((s2.on fun c => c.addCheckpoint s2.len).jump .BRF_8).storeVar x = s3 at hok ⊢
    generalize hs4 : visitFS body s3 = s4 at hok ⊢
    have hk4 : s4.c.ok = true := by
      have hok : ((((s4.branchBack s1.len).patch (s2.len + 1)).op .ENDFOR).c.exitScope).ok = true := hok
      rw [(exitScope_parts _).2.2.2.2] at hok
      exact hok
    have hk3 : s3.c.ok = true := by rw [← hs4] at hk4; exact (visitFS_keep body s3).ok hk4
    have hk2 : s2.c.ok = true := by rw [← hs3] at hk3; exact (VKeep.storeVar ((s2.on fun c => c.addCheckpoint s2.len).jump .BRF_8) x).ok hk3
    have hk1 : s1.c.ok = true := by rw [← hs2] at hk2; exact hk2
    have hkc : sc.c.ok = true := by rw [← hs1] at hk1; exact CState.declVar_ok (s := ((sc.op .INITFOR).op .END).c) hk1
    have hcp2 : s2.c.checkpoints = s1.len :: s1.c.checkpoints := by rw [← hs2]; rfl
    have hcp3 : s3.c.checkpoints = s2.len :: s1.len :: s1.c.checkpoints := by
      rw [← hs3, (VKeep.storeVar ((s2.on fun c => c.addCheckpoint s2.len).jump .BRF_8) x).cps, ← hcp2]; rfl
    refine (VRes.forLoop (s2 := s2) (s3 := s3) (s4 := s4) (x := x) h hl (fun h => by rw [← hsc] at hkc ⊢; exact visitFE_spec coll hkc h hfc) hs1 hk1 hs2 hs3 hk3
      (fun h => by rw [← hs4] at hk4 ⊢; exact (visitFS_spec body (some (x :: V.loc)) hk4 h (fun h => absurd hdb h) hfb).decls0 hdb)).mono ?_
    rintro X base U p q ⟨p1, p2, a1, a2, a3, a4, a5, a6, a7, a8, a9, a10, a11, b1, b2, b3, b4⟩ l _
    refine ⟨hdb, hl, p1, p2, a1, a2, a3, a4, a5, a6, a7 _ ⟨s2.len, s1.len, _, hcp3, ?_, ?_, ?_⟩, a8, a9, a10, a11⟩
    · rw [b1, b2]; rfl
    · rw [← b2]; exact b3
    · rw [← b1]; exact b4
  | .brk, L, s, V, hok, h, hd, hf => by
    rw [visitFS] at hok ⊢
    split at hok
    · simp [FState.error, FState.on] at hok
    · rename_i cp rest hcp
      refine ((VRes.op h .BCONST_F).andThen fun h => VRes.branchBack h cp).mono ?_
      rintro X base U p q ⟨p1, ⟨a, rfl⟩, b⟩ l hl
      rw [show L = some V.loc from hf] at hl
      obtain ⟨b1, ct, rest', e1, e2, e3, e4⟩ := hl
      rw [hcp] at e1
      cases e1
      obtain ⟨b1, rfl⟩ := b e3
      exact ⟨_, e2, rfl, a, b1, rfl⟩
  | .cont, L, s, V, hok, h, hd, hf => by
    rw [visitFS] at hok ⊢
    split at hok
    · simp [FState.error, FState.on] at hok
    · rename_i hcp
      refine (VRes.branchBack h _).mono ?_
      rintro X base U p q b l hl
      rw [show L = some V.loc from hf] at hl
      obtain ⟨b1, ct, rest', e1, e2, e3, e4⟩ := hl
      rw [e1] at b
      obtain ⟨b1, rfl⟩ := b e4
      exact ⟨_, e2, rfl, b1, rfl⟩
  | .ret e, L, s, V, hok, h, hd, hf => by
    rw [visitFS] at hok ⊢
    split at hok
    · simp [FState.error, FState.on] at hok
    · rename_i ho
      rw [if_neg ho]
      have hi := h.infn ho
      have h1 := (visitFE_spec e hok h hf).pos
      have hu : (visitFE e s).used.headD false = false := by
        rw [h1.rel.used]
        cases (visitFE e s).ups.length <;> rfl
      have hsl : scopeLen (visitFE e s).c.scopes = V.own.length := by rw [scopeLen_flatten, ← h1.rel.names, List.length_map]
      dsimp only
      rw [hu, hsl]
      refine (h1.andThen fun h => VRes.emit2 h opRET (BitVec.ofNat 8 V.own.length)).mono ?_
      rintro X base U p q ⟨p1, ⟨a, -, -, -, -, b, -⟩, c, d⟩ l _
      exact ⟨p1, b hi, a, c, d⟩
  | .fnDecl x id ps body, L, s, V, hok, h, hd, hf => by
    obtain ⟨hl0, hn, hl1, hfb⟩ := hf
    have hl : V.own.length + 1 ≤ 128 := by rw [VEnv.own_length]; omega
    rw [visitFS] at hok ⊢
    split at hok
    · simp [FState.error, FState.on] at hok
    · rename_i hc
      rw [if_neg hc]
      have hok3 := fnLeave_ok hok
      have hdec : s.declare x = s.on fun c => c.declVar x := by unfold FState.declare; rw [if_neg hc]
      have hkd : (s.declare x).c.ok = true := by rw [hdec]; exact (visitFSs_keep body _).fn.ok hok
      have h1 := VRes.declare h (hd (by simp [FStmt.decls])) hl hkd
      rw [hdec] at h1
      refine h1.seqD (fun h => VRes.fn (id := id) h hn hl1 fun h => visitFSs_spec body none hok3 h rfl hfb) ?_
      rintro X base U p p1 q rfl a l _
      exact ⟨hl, FnAt.mono a.own fun U p q h => h none trivial⟩
theorem visitFSs_spec : ∀ (ss : FStmts) (L : Option (List Name)) {s : FState} {V : VEnv}, (visitFSs ss s).c.ok = true → FRel s V → V.inner = true →
    FFitsSs V.hid V.n V.loc L ss →
    VRes s (visitFSs ss s) ss.decls V (fun X base S p q => ∀ l, LoopOk X base s V L l → CodeSs X S ss V.m l p q)
  | .nil, L, s, V, hok, h, hV, hf => by
    rw [visitFSs]
    exact (VRes.skip h).mono fun _ _ _ _ _ a _ _ => a
  | .cons st ss, L, s, V, hok, h, hV, hf => by
    rw [visitFSs] at hok ⊢
    have h1 := visitFS_spec st L ((visitFSs_keep ss _).ok hok) h (fun _ => hV) hf.1
    have ho := h1.origin
    have hc := (visitFS_keep st s).cps
    refine h1.seqD (fun h => visitFSs_spec ss L hok h hV hf.2) ?_
    intro X base U p p1 q a b l hl
    exact ⟨p1, a l hl, b l (hl.of hc ho rfl rfl)⟩
end

end Yasl
