import Verif.Proofs.FEmitVar
set_option autoImplicit false
/-! # What the compiler emits for a function literal -/
namespace Yasl

theorem declParams_spec : ∀ (ps : List Name) (c : CState) (sc : Scope), c.scopes = [sc] → ps.Nodup → (∀ x ∈ ps, x ∉ sc.map Prod.fst) → ScRep sc →
    sc.length + ps.length ≤ 255 → ∃ sc', declParams ps c = { c with scopes := [sc'] } ∧ sc'.map Prod.fst = ps.reverse ++ sc.map Prod.fst ∧ ScRep sc'
  | [], c, sc, hc, _, _, hr, _ => ⟨sc, by rw [declParams, ← hc], by simp, hr⟩
  | x :: ps, c, sc, hc, hn, hx, hr, hl => by
    have hg : sc.get x = none := by rw [Scope.get_none]; exact hx x (by simp)
    have hlen : scopeLen c.scopes = sc.length := by rw [hc]; simp [scopeLen]
    have hd : c.declVar x = { c with scopes := [(x, BitVec.ofNat 64 sc.length) :: sc] } := by
      unfold CState.declVar
      rw [hc]
      dsimp only
      rw [← hc, hlen]
      have hp : sc.put x (BitVec.ofNat 64 sc.length) = (x, BitVec.ofNat 64 sc.length) :: sc := by rw [Scope.put, if_pos hg]
      rw [hp]
      rw [if_neg (by simp [scopeLen] at hl ⊢; omega)]
    rw [declParams, hd]
    rw [List.nodup_cons] at hn
    obtain ⟨sc', h1, h2, h3⟩ := declParams_spec ps { c with scopes := [(x, BitVec.ofNat 64 sc.length) :: sc] } ((x, BitVec.ofNat 64 sc.length) :: sc) rfl hn.2 (by
      intro y hy
      simp only [List.map_cons, List.mem_cons, not_or]
      exact ⟨by rintro rfl; exact hn.1 hy, hx y (by simp [hy])⟩) ⟨getIndex_ofNat (by simp at hl; omega), hr⟩ (by simp at hl ⊢; omega)
    exact ⟨sc', h1, by simp [h2], h3⟩

/-- The place in a function. -/
def VEnv.enter (V : VEnv) (ps : List Name) : VEnv := ⟨ps.reverse, V.sts, true, V.m, V.loc ++ V.hid, true⟩

theorem VEnv.own_enter (V : VEnv) (ps : List Name) : (V.enter ps).own = ps.reverse := by simp [VEnv.own, VEnv.enter]

theorem FRel.outer_enter {s : FState} {V : VEnv} (h : FRel s V) : OutScopes V.sts (V.loc ++ V.hid) (s.c.scopes :: s.outer) := by
  have hp := h.place
  have hn := h.names
  unfold VEnv.own at hn
  unfold VPlace at hp
  cases hi : V.infn with
  | false =>
    rw [hi] at hp hn
    obtain ⟨h1, h2, blocks, st, h3, h4, h5⟩ := hp
    rw [h1]
    refine ⟨blocks, st, h3, h4, ?_, ?_⟩
    · have := h.rep
      rw [h3, List.flatten_append] at this
      simpa using this.right
    · rw [h3, List.flatten_append, List.map_append] at hn
      simp only [List.flatten_cons, List.flatten_nil, List.append_nil, Bool.false_eq_true, if_false, h4] at hn
      rw [List.append_cancel_right hn]
      intro x hx; simp [hx]
  | true =>
    rw [hi] at hp hn
    simp only [if_true, List.append_nil] at hn
    have hmono : ∀ outer, OutScopes V.sts V.hid outer → OutScopes V.sts (V.loc ++ V.hid) outer := by
      intro outer
      induction outer with
      | nil => exact id
      | cons o rest ih =>
        cases rest with
        | nil =>
          rintro ⟨blocks, st, h1, h2, h3, h4⟩
          exact ⟨blocks, st, h1, h2, h3, fun x hx => by simp [h4 x hx]⟩
        | cons o2 rest =>
          rintro ⟨h1, h2⟩
          exact ⟨fun x hx => by simp [h1 x hx], ih h2⟩
    have hp' := hmono _ hp
    cases hs : s.outer with
    | nil => rw [hs] at hp; exact hp.elim
    | cons o rest =>
      rw [hs] at hp'
      exact ⟨by rw [hn]; intro x hx; simp [hx], hp'⟩

theorem FRel.enter {s : FState} {V : VEnv} (h : FRel s V) {ps : List Name} (hn : ps.Nodup) (hl : ps.length ≤ 128) :
    FRel (s.fnEnter ps) (V.enter ps) ∧ (∃ sc, (s.fnEnter ps).c.scopes = [sc]) ∧ Grow s.c (s.fnEnter ps).c ([opFCONST] ++ bytes8 0 ++ [BitVec.ofNat 8 ps.length]) ∧
      (s.fnEnter ps).outer = s.c.scopes :: s.outer ∧ (s.fnEnter ps).ups = [] :: s.ups ∧ (s.fnEnter ps).used = false :: s.used ∧
      (s.fnEnter ps).origin = s.origin ∧ (s.fnEnter ps).log = s.log := by
  obtain ⟨sc, h1, h2, h3⟩ := declParams_spec ps { s.c with scopes := [[]] } [] rfl hn (by simp) trivial (by simp; omega)
  have hsc : (s.fnEnter ps).c.scopes = [sc] := by
    simp only [FState.fnEnter, FState.emit, FState.on, CState.emit, CState.int, h1]
  have hgrow : Grow s.c (s.fnEnter ps).c ([opFCONST] ++ bytes8 0 ++ [BitVec.ofNat 8 ps.length]) := by
    simp only [FState.fnEnter, FState.emit, FState.on, CState.emit, CState.int, h1]
    refine ⟨by simp, ⟨[], by simp, by simp⟩, rfl, rfl⟩
  refine ⟨⟨?_, ?_, by rw [hsc]; simp, ?_, h.ssmall, h.exp, hgrow.poolOk h.pool, ?_, ?_, ?_, ?_, ?_⟩, ⟨sc, hsc⟩, hgrow, rfl, rfl, rfl, rfl, rfl⟩
  · rw [hsc]; simpa using h3
  · rw [hsc, VEnv.own_enter]; simpa using h2
  · rw [VEnv.own_enter]; simpa using hl
  · refine h.hok.of ?_ ?_ <;> simp only [FState.fnEnter, FState.emit, FState.on, CState.emit, CState.int, h1]
  · exact ⟨⟨by simp, by simp, by simp⟩, h.upsR⟩
  · show s.ups.length + 1 = s.outer.length + 1
    rw [h.upsL]
  · show false :: s.used = List.replicate (s.ups.length + 1) false
    rw [h.used]; rfl
  · exact h.outer_enter

theorem Grow.exitScope {c : CState} {sc : Scope} {scs : List Scope} (h : c.scopes = sc :: scs) : Grow c c.exitScope (List.replicate sc.length Opc.POP.byte) := by
  unfold CState.exitScope
  rw [h]
  exact ⟨rfl, ⟨[], by simp, by simp⟩, rfl, rfl⟩

theorem CState.HOk.exit {s : CState} (h : s.HOk) : s.exitScope.HOk := by
  unfold CState.exitScope; split <;> exact h

/-- The parts of the state that the end of a function does not change. -/
theorem exitScope_parts (c : CState) : c.exitScope.pool = c.pool ∧ c.exitScope.header = c.header ∧ c.exitScope.globals = c.globals ∧
    c.exitScope.checkpoints = c.checkpoints ∧ c.exitScope.ok = c.ok := by
  unfold CState.exitScope; split <;> simp

/-- The state after the end of the code of a function, before what it captures is added. -/
def FState.fnBody (s s3 : FState) : FState :=
  let s4 := ((s3.op .NCONST).emit (if s3.used.headD false then opCRET else opRET)).emit (BitVec.ofNat 8 (scopeLen s3.c.scopes))
  (s4.on fun c => c.exitScope).patch (s.len + 1)

theorem fnLeave_nil {id : Nat} {s s3 : FState} (h : s3.ups.headD [] = []) : s.fnLeave id s3 =
    { s.fnBody s3 with c := { (s.fnBody s3).c with scopes := s.c.scopes }, outer := s.outer, ups := s3.ups.tail, used := s3.used.tail,
                       log := s3.log ++ [(id, some (s.origin + (s.len + 9)))] } := by
  have h' : (s.fnBody s3).ups.headD [] = [] := h
  unfold FState.fnLeave
  dsimp only
  rw [show ((((s3.op .NCONST).emit (if s3.used.headD false then opCRET else opRET)).emit (BitVec.ofNat 8 (scopeLen s3.c.scopes))).on fun c => c.exitScope).patch (s.len + 1) =
    s.fnBody s3 from rfl]
  rw [if_pos h', if_pos h']
  rfl

theorem fnLeave_cons {id : Nat} {s s3 : FState} (h : s3.ups.headD [] ≠ []) : s.fnLeave id s3 =
    { s.fnBody s3 with c := { (s.fnBody s3).c with scopes := s.c.scopes, buffer := (s.fnBody s3).c.buffer.set s.len opCCONST ++ BitVec.ofNat 8 (s3.ups.headD []).length :: (s3.ups.headD []).map Prod.snd },
                       outer := s.outer, ups := s3.ups.tail, used := s3.used.tail, log := s3.log ++ [(id, none)] } := by
  have h' : (s.fnBody s3).ups.headD [] ≠ [] := h
  unfold FState.fnLeave
  dsimp only
  rw [show ((((s3.op .NCONST).emit (if s3.used.headD false then opCRET else opRET)).emit (BitVec.ofNat 8 (scopeLen s3.c.scopes))).on fun c => c.exitScope).patch (s.len + 1) =
    s.fnBody s3 from rfl]
  rw [if_neg h', if_neg h']
  rfl

theorem fnBody_spec {s s3 : FState} {V : VEnv} {ps D : List Name} {cb : List Byte} (h : FRel s V) (hn : ps.Nodup) (hl : ps.length ≤ 128)
    (e3 : EExt (s.fnEnter ps) s3 cb D) :
    Grow s.c (s.fnBody s3).c ([opFCONST] ++ bytes8 (BitVec.ofInt 64 ([BitVec.ofNat 8 ps.length] ++ cb ++ ([Opc.NCONST.byte] ++
          [opRET, BitVec.ofNat 8 (ps.length + D.length)]) ++ List.replicate (ps.length + D.length) Opc.POP.byte).length) ++
        ([BitVec.ofNat 8 ps.length] ++ cb ++ ([Opc.NCONST.byte] ++ [opRET, BitVec.ofNat 8 (ps.length + D.length)]) ++
          List.replicate (ps.length + D.length) Opc.POP.byte)) ∧ (s.fnBody s3).c.pool = s3.c.pool ∧ (s.fnBody s3).c.header = s3.c.header ∧
      (s.fnBody s3).c.globals = s3.c.globals ∧ (s.fnBody s3).c.ok = s3.c.ok ∧ (s.fnBody s3).c.checkpoints = s3.c.checkpoints := by
  obtain ⟨r, ⟨sc, hsc⟩, g0, h1, h2, h3, h4, h5⟩ := h.enter hn hl
  obtain ⟨sc', scs', ds, a1, a2, a3⟩ := e3.scopes
  rw [hsc] at a1; cases a1
  have hscl : sc.length = ps.length := by
    have := r.names
    rw [hsc, VEnv.own_enter] at this
    have := congrArg List.length this
    simpa using this
  have hdsl : ds.length = D.length := by rw [← a3]; simp
  have hsl : scopeLen s3.c.scopes = ps.length + D.length := by rw [a2]; simp [scopeLen]; omega
  have hu : s3.used.headD false = false := by rw [e3.used, h3]; rfl
  unfold FState.fnBody
  rw [hu, hsl]
  simp only [Bool.false_eq_true, if_false]
  have g1 : Grow s.c ((((s3.op .NCONST).emit opRET).emit (BitVec.ofNat 8 (ps.length + D.length))).on fun c => c.exitScope).c
      ([opFCONST] ++ bytes8 0 ++ [BitVec.ofNat 8 ps.length] ++ cb ++ [Opc.NCONST.byte] ++ [opRET] ++ [BitVec.ofNat 8 (ps.length + D.length)] ++
        List.replicate (ps.length + D.length) Opc.POP.byte) := by
    have g := ((((g0.trans e3.grow).op .NCONST).emit opRET).emit (BitVec.ofNat 8 (ps.length + D.length)))
    have hsc4 : (((s3.c.op .NCONST).emit opRET).emit (BitVec.ofNat 8 (ps.length + D.length))).scopes = (ds ++ sc) :: [] := a2
    have gx := Grow.exitScope hsc4
    rw [show (ds ++ sc).length = ps.length + D.length by simp; omega] at gx
    exact g.trans gx
  refine ⟨?_, ?_, ?_, ?_, ?_, ?_⟩
  · refine Grow.patch (x := 0) (c1 := [opFCONST]) ?_ rfl
    simpa [List.append_assoc] using g1
  · exact (exitScope_parts _).1
  · exact (exitScope_parts _).2.1
  · exact (exitScope_parts _).2.2.1
  · exact (exitScope_parts _).2.2.2.2
  · exact (exitScope_parts _).2.2.2.1

theorem UpsOk.byte {V : VEnv} {rest : List (List (Name × Byte))} {us : List (Name × Byte)} {own : List Name} {U : Option (List Name)}
    (h : UpsOk V.sts (rest.head?.map (·.map Prod.fst)) us)
    (hu : match V.infn with
      | false => U = none ∧ rest = []
      | true => ∃ us2 rest2 names, rest = us2 :: rest2 ∧ U = some names ∧ us2.map Prod.fst <+: names)
    (k : Nat) (x : Name) (hk : (us.map Prod.fst)[k]? = some x) : ∃ b, (us.map Prod.snd)[k]? = some b ∧ UpByte ⟨own, V.sts, U⟩ x b := by
  simp only [List.getElem?_map, Option.map_eq_some_iff] at hk
  obtain ⟨q, h1, rfl⟩ := hk
  refine ⟨q.2, by simp [h1], ?_⟩
  refine UpByte.mono (S := ⟨[], V.sts, rest.head?.map (·.map Prod.fst)⟩) rfl ?_ (h.2.2 q (List.mem_of_getElem? h1))
  cases hi : V.infn with
  | false => rw [hi] at hu; obtain ⟨rfl, rfl⟩ := hu; trivial
  | true => rw [hi] at hu; obtain ⟨us2, rest2, names, rfl, rfl, h3⟩ := hu; exact h3

theorem VRes.fn {s s3 : FState} {V : VEnv} {ps D : List Name} {id : Nat} {B : FX → Nat → SEnv → Nat → Nat → Prop} (h : FRel s V) (hn : ps.Nodup)
    (hl : ps.length + D.length ≤ 128) (h3 : FRel (s.fnEnter ps) (V.enter ps) → VRes (s.fnEnter ps) s3 D (V.enter ps) B) :
    VRes s (s.fnLeave id s3) [] V (fun X base S p q =>
      FnAt X S id ps.length D.length (fun U p q => B X base ⟨ps.reverse, V.sts, some U⟩ p q) p q) := by
  obtain ⟨r, -, -, a1, a2, a3, a4, a5⟩ := h.enter hn (by omega)
  obtain ⟨cb, e3, r3, k3⟩ := h3 r
  obtain ⟨g, f1, f2, f3, f4, -⟩ := fnBody_spec h hn (by omega) e3
  -- captured variables
  obtain ⟨us, rest, hu⟩ : ∃ us rest, s3.ups = us :: rest := by
    have := e3.ups
    rw [a2] at this
    generalize s3.ups = u at this
    cases this with
    | cons _ _ => exact ⟨_, _, rfl⟩
  have hgr : UpsGrow s.ups rest := by
    have := e3.ups
    rw [a2, hu] at this
    cases this with
    | cons _ h => exact h
  have hR := r3.upsR
  rw [hu] at hR
  replace hR : UpsRel V.sts (us :: rest) := hR
  have hul : us.length ≤ 128 := Nat.le_trans hR.1.length h.ssmall
  have hhd : s3.ups.headD [] = us := by rw [hu]; rfl
  have htl : s3.ups.tail = rest := by rw [hu]; rfl
  have hut : s3.used.tail = s.used := by rw [e3.used, a3]; rfl
  have hrl : rest.length = s.outer.length := by
    have := r3.upsL
    rw [hu, e3.outer, a1] at this
    simpa using this
  have hlog : s.log <+: s3.log := by rw [← a5]; exact e3.log
  obtain ⟨sc, scs, hsc⟩ := List.exists_cons_of_ne_nil h.ne
  have hrel : ∀ sF : FState, sF.c.scopes = s.c.scopes → sF.c.globals = s3.c.globals → sF.c.pool = s3.c.pool → sF.c.header = s3.c.header → sF.outer = s.outer →
      sF.ups = rest → sF.used = s.used → sF.expected = s3.expected → FRel sF V := by
    intro sF b1 b2 b3 b4 b5 b6 b7 b8
    refine ⟨by rw [b1]; exact h.rep, by rw [b1]; exact h.names, by rw [b1]; exact h.ne, h.small, h.ssmall, by rw [b8]; exact r3.exp,
      by rw [b2, b3]; exact r3.pool, r3.hok.of b3 b4, by rw [b6]; exact hR.2, by rw [b6, b5]; exact hrl, ?_, ?_⟩
    · rw [b7, b6, h.used, h.upsL, hrl]
    · have := h.place
      unfold VPlace at this ⊢
      rw [b1, b5]; exact this
  have hxok : ∀ (sF : FState) (X : FX) (base : Nat) (U : Option (List Name)), XOk X base sF V.infn U → sF.c.pool = s3.c.pool → sF.c.globals = s3.c.globals →
      (∃ q, sF.log = s3.log ++ [q]) → XOk X base s3 true (some (us.map Prod.fst)) := by
    intro sF X base U hX b1 b2 ⟨q, b3⟩
    refine ⟨by rw [← b1]; exact hX.pool, hX.small, hX.codeLen, fun q hq => hX.log q (by rw [b3]; simp [hq]), fun x => by rw [hX.gs, b2], us, rest, _, hu, rfl, List.prefix_refl _⟩
  have hbyte : ∀ (sF : FState) (X : FX) (base : Nat) (U : Option (List Name)), XOk X base sF V.infn U → sF.ups = rest →
      ∀ (k : Nat) (x : Name), (us.map Prod.fst)[k]? = some x → ∃ b, (us.map Prod.snd)[k]? = some b ∧ UpByte ⟨V.own, V.sts, U⟩ x b := by
    intro sF X base U hX b1
    refine UpsOk.byte hR.1 ?_
    have := hX.ups
    cases hi : V.infn with
    | false =>
      rw [hi] at this
      refine ⟨this, ?_⟩
      have := h.noOuter hi
      rw [this] at hrl
      exact List.length_eq_zero_iff.1 hrl
    | true =>
      rw [hi, b1] at this
      exact this
  generalize htail : [BitVec.ofNat 8 ps.length] ++ cb ++ ([Opc.NCONST.byte] ++ [opRET, BitVec.ofNat 8 (ps.length + D.length)]) ++
        List.replicate (ps.length + D.length) Opc.POP.byte = tl at g
  have hbody : ∀ (X : FX) (base p : Nat), XOk X base s3 true (some (us.map Prod.fst)) → p = base + s.origin + s.len → p + 9 + tl.length ≤ X.code.length →
      At X.code (p + 9) tl → BodyAt X ps.length D.length (fun p q => B X base ⟨ps.reverse, V.sts, some (us.map Prod.fst)⟩ p q) (p + 9) := by
    intro X base p hX hp hle ha
    rw [← htail] at ha
    have hle2 : p + 10 + cb.length ≤ X.code.length := by rw [← htail] at hle; simp at hle; omega
    refine ⟨p + 9 + 1 + cb.length, hl, ha.left.left.left, ?_, ?_, ?_⟩
    · have := k3 X base (p + 9 + 1) (some (us.map Prod.fst)) hX ?_ (by omega) (ha.left.left.right.cast rfl)
      · rw [VEnv.own_enter] at this; exact this
      · obtain ⟨-, -, g0, -⟩ := h.enter hn (by omega)
        rw [a4]
        unfold FState.len
        rw [g0.buffer, hp]
        unfold FState.len
        simp; omega
    · exact ha.left.right.left.cast (by simp; omega)
    · exact ha.left.right.right.cast (by simp; omega)
  by_cases hus : us = []
  · -- no captured variables
    rw [fnLeave_nil (by rw [hhd, hus])]
    refine ⟨_, ⟨⟨g.buffer, g.pool, g.globals, g.ok⟩, rfl, hut, ?_, by rw [← htl] at hgr; exact hgr, ?_, sc, scs, [], hsc, hsc, rfl⟩, hrel _ rfl f3 f1 f2 rfl htl hut rfl, ?_⟩
    · show s3.origin = s.origin
      rw [e3.origin, a4]
    · exact hlog.trans (List.prefix_append _ _)
    · intro X base p U hX hp hle ha
      have hle' := ha.length_le hle
      have hq : p + ([opFCONST] ++ bytes8 (BitVec.ofInt 64 tl.length) ++ tl).length = p + 9 + tl.length := by simp; omega
      rw [hq] at hle' ⊢
      have hX3 := hxok _ X base U hX f1 f3 ⟨_, rfl⟩
      have := hX.codeLen
      refine ⟨us.map Prod.fst, tl.length, by simpa using hul, by omega, hbody X base p hX3 hp (by omega) (ha.right.cast (by simp)), .inl ⟨by rw [hus]; rfl, ?_, ha.left, rfl⟩⟩
      have := hX.log (id, some (s.origin + (s.len + 9))) (by simp)
      rw [this, hp]
      simp; omega
  · -- a closure
    rw [fnLeave_cons (by rw [hhd]; exact hus), hhd]
    have hbuf : (s.fnBody s3).c.buffer.set s.len opCCONST = s.c.buffer ++ ([opCCONST] ++ bytes8 (BitVec.ofInt 64 tl.length) ++ tl) := by
      rw [g.buffer]
      unfold FState.len
      rw [List.set_append_right _ _ (Nat.le_refl _)]
      simp
    refine ⟨[opCCONST] ++ bytes8 (BitVec.ofInt 64 tl.length) ++ tl ++ BitVec.ofNat 8 us.length :: us.map Prod.snd,
      ⟨⟨by dsimp only; rw [hbuf, List.append_assoc], g.pool, g.globals, g.ok⟩, rfl, hut, ?_, by rw [← htl] at hgr; exact hgr, ?_, sc, scs, [], hsc, hsc, rfl⟩, hrel _ rfl f3 f1 f2 rfl htl hut rfl, ?_⟩
    · show s3.origin = s.origin
      rw [e3.origin, a4]
    · exact hlog.trans (List.prefix_append _ _)
    · intro X base p U hX hp hle ha
      have hle' := ha.length_le hle
      have hq : p + ([opCCONST] ++ bytes8 (BitVec.ofInt 64 tl.length) ++ tl ++ BitVec.ofNat 8 us.length :: us.map Prod.snd).length =
        p + 9 + tl.length + 1 + (us.map Prod.snd).length := by simp; omega
      rw [hq] at hle' ⊢
      have hX3 := hxok _ X base U hX f1 f3 ⟨_, rfl⟩
      have := hX.codeLen
      refine ⟨us.map Prod.fst, tl.length, by simpa using hul, by omega, hbody X base p hX3 hp (by omega) (ha.left.right.cast (by simp)), .inr ⟨?_, us.map Prod.snd, by simp, ha.left.left, ?_, rfl, ?_⟩⟩
      · have := hX.log (id, none) (by simp)
        rw [this]; rfl
      · have hr := ha.right.cast (q := p + 9 + tl.length) (by simp; omega)
        simpa using hr
      · exact hbyte _ X base U hX htl

end Yasl
