import Verif.Proofs.FEmit
set_option autoImplicit false
/-! # What the compiler with functions emits: variables, literals, jumps -/
namespace Yasl

theorem FRel.get {s : FState} {V : VEnv} (h : FRel s V) {x : Name} {v : BitVec 64} (hv : scopeGet s.c.scopes x = some v) :
    ∃ i j, PosOf V.own x j ∧ i + j + 1 = V.own.length ∧ getIndex v = BitVec.ofNat 64 i := by
  rw [scopeGet_flatten] at hv
  obtain ⟨i, j, h1, h2, h3⟩ := h.rep.get hv
  rw [h.names] at h1
  have hl : s.c.scopes.flatten.length = V.own.length := by rw [← h.names, List.length_map]
  exact ⟨i, j, h1, by omega, h3⟩

theorem FRel.notOwn {s : FState} {V : VEnv} (h : FRel s V) {x : Name} (hv : scopeGet s.c.scopes x = none) : x ∉ V.own := by
  rw [scopeGet_none, h.names] at hv; exact hv

theorem FRel.infn {s : FState} {V : VEnv} (h : FRel s V) (ho : s.outer ≠ []) : V.infn = true := by
  have := h.place
  unfold VPlace at this
  cases hi : V.infn with
  | true => rfl
  | false => rw [hi] at this; exact absurd this.1 ho

theorem FRel.outScopes {s : FState} {V : VEnv} (h : FRel s V) (hi : V.infn = true) : OutScopes V.sts V.hid s.outer := by
  have := h.place
  unfold VPlace at this
  rw [hi] at this; exact this

theorem inOuter_ne {outer : List (List Scope)} {x : Name} (h : inOuter outer x = true) : outer ≠ [] := by
  rintro rfl; simp [inOuter] at h

/-- The names that are not in the scopes in use, nor around them. -/
theorem FRel.notSts {s : FState} {V : VEnv} (h : FRel s V) {x : Name} (hx : x ∈ V.loc ∨ x ∉ V.hid) (hv : scopeGet s.c.scopes x = none)
    (ho : inOuter s.outer x = false) : x ∉ V.sts := by
  have hn := h.notOwn hv
  unfold VEnv.own at hn
  cases hi : V.infn with
  | false => rw [hi] at hn; simp at hn; exact hn.2
  | true =>
    have hl : x ∉ V.hid := by
      rcases hx with hx | hx
      · simp [hx] at hn
      · exact hx
    rw [← inOuter_spec hl s.outer (h.outScopes hi), ho]
    simp

theorem FRel.noOuter {s : FState} {V : VEnv} (h : FRel s V) (hi : V.infn = false) : s.outer = [] := by
  have := h.place
  unfold VPlace at this
  rw [hi] at this; exact this.1

theorem VRes.upval {s : FState} {V : VEnv} (h : FRel s V) {x : Name} (hx : x ∈ V.loc ∨ x ∉ V.hid) (hv : scopeGet s.c.scopes x = none)
    (ho : inOuter s.outer x = true) (op : Byte) : VRes s (s.upval op x) [] V (fun X _ S p q =>
      ∃ (U : List Name) (k : Nat), S.ups = some U ∧ U[k]? = some x ∧ At X.code p [op, BitVec.ofNat 8 k] ∧ q = p + 2) ∧ x ∈ V.sts := by
  have hi := h.infn (inOuter_ne ho)
  have hos := h.outScopes hi
  have hn := h.notOwn hv
  have hh : x ∉ V.hid := by
    rcases hx with hx | hx
    · exact absurd (by simp [VEnv.own, hx]) hn
    · exact hx
  have hxs : x ∈ V.sts := (inOuter_spec hh _ hos).1 ho
  refine ⟨?_, hxs⟩
  have hul := h.upsL
  obtain ⟨us, rest, hu⟩ : ∃ us rest, s.ups = us :: rest := by
    apply List.exists_cons_of_ne_nil
    intro h0
    rw [h0] at hul
    exact inOuter_ne ho (List.length_eq_zero_iff.1 hul.symm)
  have hR := h.upsR
  rw [hu] at hR hul
  obtain ⟨us', rest', h1, h2, h3, h4⟩ := addUp_spec h.ssmall hxs hh s.outer us rest hos hul hR
  have hused : s.used = false :: List.replicate rest.length false := by rw [h.used, hu]; rfl
  unfold FState.upval
  dsimp only
  rw [hused]
  dsimp only
  rw [markUsed_spec hh s.outer _ hos (by simpa using hul), ← hused]
  have e1 : Ext s.c ((s.c.emit op).emit (BitVec.ofNat 8 (addUp s.outer s.ups x).1)) [op, BitVec.ofNat 8 (addUp s.outer s.ups x).1] :=
    (Ext.emit s.c op).trans (Ext.emit _ _)
  obtain ⟨sc, scs, hsc⟩ := List.exists_cons_of_ne_nil h.ne
  have hl2 : (us' :: rest').length = (us :: rest).length := h4.length_eq.symm
  refine ⟨[op, BitVec.ofNat 8 (addUp s.outer s.ups x).1], ⟨e1.grow, rfl, rfl, rfl, ?_, List.prefix_refl _, sc, scs, [], hsc, hsc, rfl⟩, ?_, ?_⟩
  · show UpsGrow s.ups (addUp s.outer s.ups x).2
    rw [hu, h1]; exact h4
  · refine ⟨h.rep, h.names, h.ne, h.small, h.ssmall, h.exp, h.pool, h.hok, ?_, ?_, ?_, h.place⟩
    · show UpsRel V.sts (addUp s.outer s.ups x).2
      rw [hu, h1]; exact h3
    · show (addUp s.outer s.ups x).2.length = s.outer.length
      rw [hu, h1, hl2, hul]
    · show s.used = List.replicate (addUp s.outer s.ups x).2.length false
      rw [hu, h1, hl2, h.used, hu]
  · intro X base p U hX hp hl ha
    have := hX.ups
    rw [hi] at this
    obtain ⟨us2, rest2, names, a1, a2, a3⟩ := this
    replace a1 : (addUp s.outer s.ups x).2 = us2 :: rest2 := a1
    rw [hu, h1] at a1
    cases a1
    refine ⟨names, (addUp s.outer s.ups x).1, a2, ?_, ha, rfl⟩
    rw [hu]
    obtain ⟨t, rfl⟩ := a3
    rw [List.getElem?_append_left (by rw [List.getElem?_eq_some_iff] at h2; exact h2.1)]
    exact h2

theorem VRes.load {s : FState} {V : VEnv} (h : FRel s V) {x : Name} (hx : x ∈ V.loc ∨ x ∉ V.hid) (hok : (s.loadVar x).c.ok = true) :
    VRes s (s.loadVar x) [] V (fun X _ S p q => LoadAt X S x p q ∧ DefinedAt X S x) := by
  unfold FState.loadVar at hok ⊢
  split
  · rename_i hc
    obtain ⟨h1, h2⟩ := VRes.upval h hx hc.1 hc.2 opULOAD
    refine h1.mono ?_
    rintro X base U p q ⟨U', k, a1, a2, a3, a4⟩
    exact ⟨.inr (.inl ⟨h.notOwn hc.1, U', k, a1, a2, a3, a4⟩), .inr (.inl h2)⟩
  · rename_i hc
    rw [if_neg hc] at hok
    simp only [FState.on] at hok
    cases hv : scopeGet s.c.scopes x with
    | some v =>
      obtain ⟨i, j, h1, h2, h3⟩ := h.get hv
      have e : (fun c : CState => c.loadVar x) s.c = (s.c.op .LLOAD).emit ((getIndex v).setWidth 8) := by simp only [CState.loadVar, hv]
      have e1 : Ext s.c ((fun c : CState => c.loadVar x) s.c) [Opc.LLOAD.byte, BitVec.ofNat 8 i] := by
        rw [e, h3, setWidth_ofNat]; exact (Ext.op s.c .LLOAD).trans (Ext.emit _ _)
      refine (VRes.on h e1 (h.hok.loadVar x)).mono ?_
      rintro X base U p q ⟨a1, a2⟩
      exact ⟨.inl ⟨i, j, h1, h2, a1, a2⟩, .inl h1.mem⟩
    | none =>
      have ho : inOuter s.outer x = false := by
        cases ho : inOuter s.outer x with
        | false => rfl
        | true => exact absurd ⟨hv, ho⟩ hc
      simp only [CState.loadVar, hv] at hok
      split at hok
      · rename_i hg
        obtain ⟨i, h1, h2⟩ := nameIndex_spec (h.pool x hg)
        have e : (fun c : CState => c.loadVar x) s.c = (s.c.op .GLOAD_8).int (s.c.nameIndex x) := by simp only [CState.loadVar, hv, if_pos hg]
        have e1 : Ext s.c ((fun c : CState => c.loadVar x) s.c) (Opc.GLOAD_8.byte :: bytes8 (BitVec.ofNat 64 i)) := by
          rw [e, h1]; exact (Ext.op s.c .GLOAD_8).trans (Ext.int _ _)
        refine ⟨_, EExt.on e1 h.ne, h.on e1 (h.hok.loadVar x), ?_⟩
        intro X base p U hX hp hl ha
        have hpool : s.c.pool <+: X.K := e1.pool.trans hX.pool
        have hgs : X.gs x := by rw [hX.gs]; show ((fun c : CState => c.loadVar x) s.c).globals.get x ≠ none; rw [e1.globals]; exact hg
        have hK := prefix_get hpool h2
        have := get_lt hK
        have := hX.small
        exact ⟨.inr (.inr ⟨h.notOwn hv, h.notSts hx hv ho, hgs, i, by omega, hK, ha, by simp⟩), .inr (.inr hgs)⟩
      · simp at hok

theorem VRes.store {s : FState} {V : VEnv} (h : FRel s V) {x : Name} (hx : x ∈ V.loc ∨ x ∉ V.hid) (hok : (s.storeVar x).c.ok = true) :
    VRes s (s.storeVar x) [] V (fun X _ S p q => StoreAt X S x p q) := by
  unfold FState.storeVar at hok ⊢
  split
  · rename_i hc
    rw [if_pos hc] at hok
    cases hg : outerGet s.outer x with
    | none => rw [hg] at hok; simp [FState.error, FState.on] at hok
    | some v =>
      rw [hg] at hok
      dsimp only at hok ⊢
      split at hok
      · simp [FState.error, FState.on] at hok
      · rename_i hcv
        rw [if_neg hcv]
        obtain ⟨h1, h2⟩ := VRes.upval h hx hc.1 hc.2 opUSTORE
        refine h1.mono ?_
        rintro X base U p q ⟨U', k, a1, a2, a3, a4⟩
        exact .inr (.inl ⟨h.notOwn hc.1, U', k, a1, a2, a3, a4⟩)
  · rename_i hc
    rw [if_neg hc] at hok
    simp only [FState.on] at hok
    cases hv : scopeGet s.c.scopes x with
    | some v =>
      obtain ⟨i, j, h1, h2, h3⟩ := h.get hv
      simp only [CState.storeVar, hv] at hok
      split at hok
      · simp at hok
      · rename_i hcv
        have e : (fun c : CState => c.storeVar x) s.c = (s.c.op .LSTORE).emit (v.setWidth 8) := by simp only [CState.storeVar, hv, if_neg hcv]
        have hv' : v = BitVec.ofNat 64 i := by rw [← h3, getIndex, if_neg hcv]
        have e1 : Ext s.c ((fun c : CState => c.storeVar x) s.c) [Opc.LSTORE.byte, BitVec.ofNat 8 i] := by
          rw [e, hv', setWidth_ofNat]; exact (Ext.op s.c .LSTORE).trans (Ext.emit _ _)
        refine (VRes.on h e1 (h.hok.storeVar x)).mono ?_
        rintro X base U p q ⟨a1, a2⟩
        exact .inl ⟨i, j, h1, h2, a1, a2⟩
    | none =>
      have ho : inOuter s.outer x = false := by
        cases ho : inOuter s.outer x with
        | false => rfl
        | true => exact absurd ⟨hv, ho⟩ hc
      simp only [CState.storeVar, hv] at hok
      cases hg : s.c.globals.get x with
      | none => rw [hg] at hok; simp at hok
      | some v =>
        rw [hg] at hok
        dsimp only at hok
        split at hok
        · simp at hok
        · rename_i hcv
          have hg' : s.c.globals.get x ≠ none := by rw [hg]; simp
          obtain ⟨i, h1, h2⟩ := nameIndex_spec (h.pool x hg')
          have e : (fun c : CState => c.storeVar x) s.c = (s.c.op .GSTORE_8).int (s.c.nameIndex x) := by simp only [CState.storeVar, hv, hg, if_neg hcv]
          have e1 : Ext s.c ((fun c : CState => c.storeVar x) s.c) (Opc.GSTORE_8.byte :: bytes8 (BitVec.ofNat 64 i)) := by
            rw [e, h1]; exact (Ext.op s.c .GSTORE_8).trans (Ext.int _ _)
          refine ⟨_, EExt.on e1 h.ne, h.on e1 (h.hok.storeVar x), ?_⟩
          intro X base p U hX hp hl ha
          have hpool : s.c.pool <+: X.K := e1.pool.trans hX.pool
          have hgs : X.gs x := by rw [hX.gs]; show ((fun c : CState => c.storeVar x) s.c).globals.get x ≠ none; rw [e1.globals]; exact hg'
          have hK := prefix_get hpool h2
          have := get_lt hK
          have := hX.small
          exact .inr (.inr ⟨h.notOwn hv, h.notSts hx hv ho, hgs, i, by omega, hK, ha, by simp⟩)

/-! ## Literals -/

theorem VRes.pushLiteral {s : FState} {V : VEnv} (h : FRel s V) {v : Val} (hv : v.Literal) :
    VRes s (s.on fun c => c.pushLiteral v) [] V (fun X _ _ p q => ConstAt X v p q) := by
  obtain ⟨h1, h2⟩ := intern_spec s.c v
  have hh := h.hok.pushLiteral hv
  have hlit : (fun c : CState => c.pushLiteral v) s.c = (s.c.intern v).2.literal (s.c.intern v).1 := rfl
  by_cases hi : (s.c.intern v).1 < 128
  · have e1 : Ext s.c ((fun c : CState => c.pushLiteral v) s.c) [Opc.LIT.byte, BitVec.ofNat 8 (s.c.intern v).1] := by
      rw [hlit, CState.literal, if_pos hi]
      exact h1.trans ((Ext.op _ .LIT).trans (Ext.emit _ _))
    refine ⟨_, EExt.on e1 h.ne, h.on e1 hh, ?_⟩
    intro X base p U hX hp hl ha
    have hpool : (s.c.intern v).2.pool <+: X.K := by
      have : ((fun c : CState => c.pushLiteral v) s.c).pool = (s.c.intern v).2.pool := by rw [hlit, CState.literal, if_pos hi]; rfl
      rw [← this]; exact hX.pool
    exact .inl ⟨_, hi, prefix_get hpool h2, ha, rfl⟩
  · have e1 : Ext s.c ((fun c : CState => c.pushLiteral v) s.c) (Opc.LIT8.byte :: bytes8 (BitVec.ofNat 64 (s.c.intern v).1)) := by
      rw [hlit, CState.literal, if_neg hi]
      exact h1.trans ((Ext.op _ .LIT8).trans (Ext.int _ _))
    refine ⟨_, EExt.on e1 h.ne, h.on e1 hh, ?_⟩
    intro X base p U hX hp hl ha
    have hpool : (s.c.intern v).2.pool <+: X.K := by
      have : ((fun c : CState => c.pushLiteral v) s.c).pool = (s.c.intern v).2.pool := by rw [hlit, CState.literal, if_neg hi]; rfl
      rw [← this]; exact hX.pool
    have hK := prefix_get hpool h2
    have := get_lt hK
    have := hX.small
    exact .inr ⟨_, by omega, hK, ha, by simp⟩

theorem VRes.lit {s : FState} {V : VEnv} (h : FRel s V) (l : FLit) : VRes s (s.on fun c => visitExpr l.expr c) [] V (fun X _ _ p q => LitAt X l p q) := by
  cases l with
  | undef => exact VRes.op h .NCONST
  | bool b => exact VRes.op h (if b then .BCONST_T else .BCONST_F)
  | int i => exact VRes.pushLiteral h (v := .int i) trivial
  | float f => exact VRes.pushLiteral h (v := .float f) trivial
  | str t => exact VRes.pushLiteral h (v := .str t) trivial

/-! ## Jumps -/

theorem EExt.patch {s s' : FState} {c1 c2 : List Byte} {x : BitVec 64} {D : List Name} (h : EExt s s' (c1 ++ bytes8 x ++ c2) D) {i : Nat}
    (hi : i = s.len + c1.length) : EExt s (s'.patch i) (c1 ++ bytes8 (BitVec.ofInt 64 c2.length) ++ c2) D :=
  ⟨h.grow.patch hi, h.outer, h.used, h.origin, h.ups, h.log, h.scopes⟩

theorem EExt.op {s s' : FState} {c : List Byte} {D : List Name} (h : EExt s s' c D) (o : Opc) : EExt s (s'.op o) (c ++ [o.byte]) D :=
  ⟨h.grow.op o, h.outer, h.used, h.origin, h.ups, h.log, h.scopes⟩

theorem EExt.jump {s s' : FState} {c : List Byte} {D : List Name} (h : EExt s s' c D) (o : Opc) : EExt s (s'.jump o) (c ++ o.byte :: bytes8 0) D :=
  ⟨h.grow.jump o, h.outer, h.used, h.origin, h.ups, h.log, h.scopes⟩

theorem XOk.patch {X : FX} {base : Nat} {s : FState} {infn : Bool} {U : Option (List Name)} {i : Nat} (h : XOk X base (s.patch i) infn U) : XOk X base s infn U :=
  ⟨h.pool, h.small, h.codeLen, h.log, h.gs, h.ups⟩

/-- A jump over what is visited next. -/
theorem VRes.over {s s2 : FState} {V : VEnv} {D : List Name} {C : FX → Nat → SEnv → Nat → Nat → Prop} (o : Opc) (h : FRel s V)
    (h2 : FRel (s.jump o) V → VRes (s.jump o) s2 D V C) :
    VRes s (s2.patch (s.len + 1)) D V (fun X base S p q => JumpAt X o p q ∧ C X base S (p + 9) q) := by
  obtain ⟨c, e1, r1, k1⟩ := h2 (h.jump o)
  have ej : EExt s (s.jump o) ([o.byte] ++ bytes8 0) [] := EExt.on (Ext.jump s.c o) h.ne
  have e2 := (ej.trans e1).patch (c1 := [o.byte]) (i := s.len + 1) rfl
  rw [List.append_nil] at e2
  refine ⟨_, e2, r1.patch _, ?_⟩
  intro X base p U hX hp hl ha
  have hle := ha.length_le hl
  have hq : p + ([o.byte] ++ bytes8 (BitVec.ofInt 64 c.length) ++ c).length = p + 9 + c.length := by simp; omega
  rw [hq] at hle ⊢
  refine ⟨⟨?_, hle, hl⟩, k1 X base (p + 9) U hX.patch ?_ (by omega) ha.right⟩
  · have : (((p + 9 + c.length : Nat) : Int) - p - 9) = (c.length : Int) := by push_cast; omega
    rw [this]; exact ha.left
  · have := ej.len; rw [this, hp]; show _ = base + s.origin + _; simp; omega

/-- Two alternatives. -/
theorem VRes.arms {s s2 s4 : FState} {V : VEnv} {Ca Cb : FX → Nat → SEnv → Nat → Nat → Prop} (h : FRel s V)
    (h2 : FRel (s.jump .BRF_8) V → VRes (s.jump .BRF_8) s2 [] V Ca)
    (h4 : FRel ((s2.jump .BR_8).patch (s.len + 1)) V → VRes ((s2.jump .BR_8).patch (s.len + 1)) s4 [] V Cb) :
    VRes s (s4.patch (s2.len + 1)) [] V (fun X base S p q => ∃ p2, JumpAt X .BRF_8 p (p2 + 9) ∧ Ca X base S (p + 9) p2 ∧ JumpAt X .BR_8 p2 q ∧
      Cb X base S (p2 + 9) q) := by
  obtain ⟨ca, ea, ra, ka⟩ := h2 (h.jump _)
  have rb := (FRel.jump ra .BR_8).patch (s.len + 1)
  obtain ⟨cb, eb, rb', kb⟩ := h4 rb
  have ej : EExt s (s.jump .BRF_8) ([Opc.BRF_8.byte] ++ bytes8 0) [] := EExt.on (Ext.jump s.c .BRF_8) h.ne
  have e1 := (ej.trans ea).jump .BR_8
  rw [List.append_assoc] at e1
  have e2 := e1.patch (c1 := [Opc.BRF_8.byte]) (i := s.len + 1) rfl
  have e3 := e2.trans eb
  have hlen2 : s2.len = s.len + (9 + ca.length) := by rw [ea.len, ej.len]; simp; omega
  have e4 := EExt.patch (c1 := [Opc.BRF_8.byte] ++ bytes8 (BitVec.ofInt 64 (ca ++ Opc.BR_8.byte :: bytes8 0).length) ++ (ca ++ [Opc.BR_8.byte])) (c2 := cb)
    (x := 0) (i := s2.len + 1) (by simpa using e3) (by rw [hlen2]; simp; omega)
  refine ⟨_, e4, rb'.patch _, ?_⟩
  intro X base p U hX hp hl ha
  have hX1 : XOk X base ((s2.jump .BR_8).patch (s.len + 1)) V.infn U := hX.patch.back eb
  have hX2 : XOk X base s2 V.infn U := ⟨hX1.pool, hX1.small, hX1.codeLen, hX1.log, hX1.gs, hX1.ups⟩
  have hle := ha.length_le hl
  simp only [List.length_append, List.length_cons, List.length_nil, bytes8_length] at hle
  refine ⟨p + 9 + ca.length, ⟨?_, by omega, hl⟩, ?_, ⟨?_, ?_, by omega⟩, ?_⟩
  · have e : (((p + 9 + ca.length + 9 : Nat) : Int) - p - 9) = ((ca ++ Opc.BR_8.byte :: bytes8 0).length : Int) := by simp; omega
    rw [e]; exact ha.left.left.left
  · have a2 := ha.left.left.right.left.cast (q := p + 9) (by simp)
    exact ka X base (p + 9) U hX2 (by rw [ej.len, hp]; show _ = base + s.origin + _; simp; omega) (by omega) a2
  · have e : (((p + ([Opc.BRF_8.byte] ++ bytes8 (BitVec.ofInt 64 (ca ++ Opc.BR_8.byte :: bytes8 0).length) ++ (ca ++ [Opc.BR_8.byte]) ++
        bytes8 (BitVec.ofInt 64 cb.length) ++ cb).length : Nat) : Int) - (p + 9 + ca.length : Nat) - 9) = (cb.length : Int) := by simp; omega
    rw [e]
    have a3 : At X.code p (([Opc.BRF_8.byte] ++ bytes8 (BitVec.ofInt 64 (ca ++ Opc.BR_8.byte :: bytes8 0).length) ++ ca) ++
        ((Opc.BR_8.byte :: bytes8 (BitVec.ofInt 64 cb.length)) ++ cb)) := by simpa [List.append_assoc] using ha
    exact a3.right.left.cast (by simp; omega)
  · simp; omega
  · have a4 := ha.right.cast (q := p + 9 + ca.length + 9) (by simp; omega)
    have := kb X base (p + 9 + ca.length + 9) U hX.patch (by rw [e2.origin, e2.len, hp]; simp; omega) (by omega) a4
    have e : p + ([Opc.BRF_8.byte] ++ bytes8 (BitVec.ofInt 64 (ca ++ Opc.BR_8.byte :: bytes8 0).length) ++ (ca ++ [Opc.BR_8.byte]) ++
        bytes8 (BitVec.ofInt 64 cb.length) ++ cb).length = p + 9 + ca.length + 9 + cb.length := by simp; omega
    rw [e]; exact this

end Yasl
