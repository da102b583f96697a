import Verif.Proofs.CompileProg
set_option autoImplicit false
/-! # Compiled statements: control flow -/
namespace Yasl
section
variable {W : Type} {F : FloatOps} {P : Prims W}

theorem EnvRepL.drop : ∀ {ds sc : Scope} {env : LEnv}, EnvRepL (ds ++ sc) env → EnvRepL sc (env.drop ds.length)
  | [], sc, env, h => by simpa using h
  | (x, z) :: ds, sc, env, h => by
    obtain ⟨v, env', rfl, h'⟩ := EnvRepL.cons h
    simpa using EnvRepL.drop h'

theorem Frame.Ok.drop {f : Frame} {t : PState W} {scs scs' : List Scope} {gs ds : Scope} (h : (f.on t).Ok scs' gs)
    (hs : scs'.flatten = ds ++ scs.flatten) : (f.on { t with env := t.env.drop ds.length }).Ok scs gs := by
  have hr := h.rep
  unfold EnvRep at hr
  rw [hs] at hr
  refine ⟨hr.drop, h.fpEq, ?_, h.codeLen, h.KLen, h.defined, h.gEnd, ?_⟩
  · have := h.small; simp only [Frame.on, List.length_drop] at this ⊢; omega
  · intro q hq; exact h.envEnd q (List.mem_of_mem_drop hq)

theorem run_pops {f : Frame} : ∀ (m : Nat) (t : PState W) (p : Nat), At f.code p (List.replicate m Opc.POP.byte) → m ≤ t.env.length →
    VM.run F P f.code f.K m (f.vmS t p []) = .next (f.vmS { t with env := t.env.drop m } (p + m) [])
  | 0, t, p, _, _ => by simp [VM.run]
  | m + 1, t, p, hA, hm => by
    have hA' : At f.code p (Opc.POP.byte :: List.replicate m Opc.POP.byte) := by simpa [List.replicate_succ] using hA
    cases he : t.env with
    | nil => simp [he] at hm
    | cons q env =>
      have hst : VM.step F P f.code f.K (f.vmS t p []) = .next (f.vmS { t with env := env } (p + 1) []) := by
        have := step_pop (F := F) (P := P) (K := f.K) (fp := f.fp) (loops := f.loops) (g := t.globals) (w := t.world) (out := t.out) q.2
          (st := env.map Prod.snd ++ f.below) hA'
        simpa [Frame.vmS, Frame.vm, Frame.on, he] using this
      simp only [VM.run, hst]
      rw [run_pops m { t with env := env } (p + 1) hA'.tail (by simpa [he] using hm)]
      simp [Nat.add_assoc, Nat.add_comm 1]

theorem Grow.ofCheckpoint {s s' : CState} {i : Nat} {c : List Byte} (h : Grow (s.addCheckpoint i) s' c) : Grow s s' c :=
  ⟨h.buffer, h.pool, h.globals, h.ok⟩

theorem SSim.only {n : Nat} {code : List Byte} {K : List Val} {T T' : Sig → PState W → VM W → Prop} {m : VM W} {r : SRes W}
    (h : SSim F P code K n m r T) (h1 : r.2 ≠ .brk) (h2 : r.2 ≠ .cont) (hT : ∀ t m, T .normal t m → T' .normal t m) : SSim F P code K n m r T' := by
  obtain ⟨t, sig⟩ := r
  cases sig with
  | err | timeout => exact h
  | normal => obtain ⟨k, m2, h3, h4⟩ := h; exact ⟨k, m2, h3, hT _ _ h4⟩
  | brk => simp at h1
  | cont => simp at h2

theorem withVal_sig {α : Type} {t : PState W} {r : PRes W α} {k : PState W → α → SRes W} {x : Sig} (hx : ∀ e, x ≠ .err e)
    (hk : ∀ t v, (k t v).2 ≠ x) : (withVal t r k).2 ≠ x := by
  obtain ⟨w, e | v⟩ := r
  · exact (hx e).symm
  · exact hk _ _

/-- Assignments end normally or with an error. -/
theorem post_sig {fuel : Nat} {st : Stmt} {n L d : Nat} (h : Fits (.post st) n L d) (t : PState W) :
    (exec F P fuel (.post st) t).2 ≠ .brk ∧ (exec F P fuel (.post st) t).2 ≠ .cont := by
  cases st with
  | assign x e =>
    simp only [exec]
    exact ⟨withVal_sig (by simp) (by simp), withVal_sig (by simp) (by simp)⟩
  | set c k v =>
    simp only [exec]
    constructor <;> exact withVal_sig (by simp) fun _ _ => withVal_sig (by simp) fun _ _ => withVal_sig (by simp) fun _ _ => withVal_sig (by simp) (by simp)
  | _ => simp [Fits] at h

theorem post_spec (hP : P.NoEnd) (st : Stmt) (s : CState) : StmtSpec F P (.post st) s := by
  intro hok hne hg n L d hF
  cases st with
  | assign x e =>
    have := assign_spec (F := F) (P := P) hP x e s (by simpa only [visitStmt] using hok) hne hg n L d (by simpa only [Fits] using hF)
    simpa only [visitStmt, exec, Stmt.declares] using this
  | set c k v =>
    have := set_spec (F := F) (P := P) hP c k v s (by simpa only [visitStmt] using hok) hne hg n L d (by simpa only [Fits] using hF)
    simpa only [visitStmt, exec, Stmt.declares] using this
  | _ => simp [Fits] at hF

theorem brk_spec (s : CState) : StmtSpec F P .brk s := by
  intro hok hne hg n L d hF
  simp only [visitStmt] at hok ⊢
  simp only [Fits] at hF
  split at hok
  · simp at hok
  rename_i cp rest hcp
  have hx := (Ext.op s .BCONST_F).trans (Ext.branchBack (s.op .BCONST_F) cp)
  refine ⟨_, [], by simpa only [hcp] using hx.sext hne, rfl, ?_⟩
  intro f t base fuel g hf hn hd hb hK hA e1 e2 e3 e4
  obtain ⟨⟨h1, h2⟩, ⟨h3, h4⟩, h5, h6⟩ := e4 (by simp [hcp])
  simp only [hcp, List.getD_cons_zero] at h1 h2
  simp only [exec]
  have hlen := hf.envLen
  have hsm : t.env.length ≤ 128 := hf.small
  refine SSim.step' (m' := f.vmS t (base + s.buffer.length + 1) [.bool false]) ?_ ?_
  · exact step_push (c := []) .BCONST_F (.bool false) (by simp) hA.left (by simp [Frame.on, hb, stackSize]; omega)
  · have hcl : f.code.length < 2 ^ 63 := hf.codeLen
    have hA2 := hA.right
    have hpl := hA.length_le'
    have hp : base + s.buffer.length + 1 < f.code.length := by
      have := hA2.head
      by_contra hc
      rw [List.getElem?_eq_none (by simpa using hc)] at this; simp at this
    have hp9 := hA2.length_le (by simp; omega)
    simp at hp9
    have hbl : (s.op .BCONST_F).buffer.length = s.buffer.length + 1 := by simp [CState.op, CState.emit]
    refine SSim.step' (m' := f.vmS t g.pb [.bool false]) (step_jump hA2 ?_ ?_ ?_) ?_
    · rw [h1, hbl]; simp; omega
    · rw [hbl]; omega
    · rw [hbl]; omega
    · refine SSim.brk ⟨rfl, ?_⟩
      have : g.loop = s.scopes.flatten := h5.eq_of_length (by rw [h6, ← hF, ← hn, hlen, scopeLen_flatten])
      rw [e2]
      exact hf.congr (by simp [this])

theorem cont_spec (s : CState) : StmtSpec F P .cont s := by
  intro hok hne hg n L d hF
  simp only [visitStmt] at hok ⊢
  simp only [Fits] at hF
  split at hok
  · simp at hok
  rename_i hcp
  have hcp' : s.checkpoints ≠ [] := fun h => hcp h
  have hx := Ext.branchBack s (s.checkpoints.getD 1 0)
  refine ⟨_, [], hx.sext hne, rfl, ?_⟩
  intro f t base fuel g hf hn hd hb hK hA e1 e2 e3 e4
  obtain ⟨⟨h1, h2⟩, ⟨h3, h4⟩, h5, h6⟩ := e4 hcp'
  simp only [exec]
  have hlen := hf.envLen
  have hcl : f.code.length < 2 ^ 63 := hf.codeLen
  have hp : base + s.buffer.length < f.code.length := by
    have := hA.head
    by_contra hc
    rw [List.getElem?_eq_none (by simpa using hc)] at this; simp at this
  have hp9 := hA.length_le (by omega)
  simp at hp9
  refine SSim.step' (m' := f.vmS t g.pc []) (step_jump hA ?_ ?_ ?_) ?_
  · rw [h3]; push_cast; omega
  · omega
  · omega
  · refine SSim.cont ⟨rfl, ?_⟩
    have : g.loop = s.scopes.flatten := h5.eq_of_length (by rw [h6, ← hF, ← hn, hlen, scopeLen_flatten])
    rw [e2]
    exact hf.congr (by simp [this])

def StmtsSpec (F : FloatOps) (P : Prims W) (ss : Stmts) (s : CState) : Prop :=
  (visitStmts ss s).ok = true → s.scopes ≠ [] → PoolOk s.globals s.pool → ∀ n L d, FitsAll ss n L d →
    ∃ c ds, SExt s (visitStmts ss s) c ds ∧ StmtSem F P s (visitStmts ss s) c n L d (fun fuel => execAll F P fuel ss)

theorem block_spec {ss : Stmts} {s : CState} (ih : StmtsSpec F P ss s.enterScope) : StmtSpec F P (.block ss) s := by
  intro hok hne hg n L d hF
  simp only [visitStmt] at hok ⊢
  simp only [Fits] at hF
  obtain ⟨c, ds, h1, h2⟩ := ih (by simpa using hok) (by simp [CState.enterScope]) hg n L d hF
  have hsc : (visitStmts ss s.enterScope).scopes = ds :: s.scopes := by
    obtain ⟨_, _, sc, scs, a1, a2⟩ := h1
    simp only [CState.enterScope, List.cons.injEq] at a1
    rw [a2, ← a1.1, ← a1.2]; simp
  have hex : (visitStmts ss s.enterScope).exitScope =
      { (visitStmts ss s.enterScope) with scopes := s.scopes, buffer := (visitStmts ss s.enterScope).buffer ++ List.replicate ds.length Opc.POP.byte } := by
    simp [CState.exitScope, hsc]
  rw [hex]
  refine ⟨c ++ List.replicate ds.length Opc.POP.byte, [], ?_, rfl, ?_⟩
  · refine SExt.of ⟨?_, h1.grow.pool, h1.grow.globals, h1.grow.ok⟩ h1.checkpoints rfl hne
    simp only
    rw [h1.grow.buffer]; simp [CState.enterScope]
  · intro f t base fuel g hf hn hd hb hK hA e1 e2 e3 e4
    simp only [exec]
    have := h2 f t base fuel ⟨(visitStmts ss s.enterScope).scopes, g.globals, base + s.buffer.length + c.length, g.pb, g.pc, g.loop⟩
      (hf.congr (by simp [CState.enterScope])) hn hd hb hK hA.left rfl e2 rfl (by
        intro hc
        simpa [CState.enterScope] using e4 hc)
    refine SSim.bind (k := fun r => match r with
      | (s', .normal) => (s'.leave t.env.length, .normal)
      | r => r) this (fun _ _ => rfl) (fun _ => rfl) ?_ ?_ ?_
    · rintro t' m ⟨rfl, h3⟩
      simp only at h3
      have h4 := h3.drop (scs := s.scopes) (ds := ds) (by rw [hsc]; simp)
      have hl3 : t'.env.length = ds.length + scopeLen s.scopes := by
        rw [h3.envLen, hsc]; simp [scopeLen]
      have hlv : t'.leave t.env.length = { t' with env := t'.env.drop ds.length } := by
        have := hf.envLen
        simp [PState.leave, hl3, this]
      simp only [hlv]
      refine SSim.run (run_pops ds.length t' _ (hA.right.cast (by simp)) (by omega)) ?_
      refine SSim.normal ⟨?_, ?_⟩
      · rw [e3]; simp [CState.enterScope, Nat.add_assoc]
      · rw [e1]; exact h4
    · rintro t' m h
      exact SSim.brk h
    · rintro t' m h
      exact SSim.cont h

theorem truthyNode_eval {c : Expr} (h : c.truthyNode = true) (ρ : Name → Option Val) (w : W) : ∃ v, eval F P ρ c w = (w, .ok v) ∧ v.falsey = false := by
  cases c <;> simp [Expr.truthyNode] at h
  · exact ⟨_, rfl, by simp [h, Val.falsey]⟩
  · exact ⟨_, rfl, by simp [Val.falsey]⟩

theorem falseyNode_eval {c : Expr} (h : c.falseyNode = true) (ρ : Name → Option Val) (w : W) : ∃ v, eval F P ρ c w = (w, .ok v) ∧ v.falsey = true := by
  cases c <;> simp [Expr.falseyNode] at h
  · exact ⟨_, rfl, by simp [Val.falsey]⟩
  · exact ⟨_, rfl, by simp [h, Val.falsey]⟩

theorem SExt.nil {s s' : CState} {c : List Byte} {ds : Scope} (h : SExt s s' c ds) (h0 : ds.length = 0) : SExt s s' c [] := by
  rw [List.length_eq_zero_iff] at h0; subst h0; exact h

theorem ifThen_spec (hP : P.NoEnd) {c : Expr} {st : Stmt} {s : CState} (ih : ∀ s, StmtSpec F P st s) : StmtSpec F P (.ifThen c st) s := by
  intro hok hne hg n L d hF
  simp only [visitStmt] at hok ⊢
  simp only [Fits] at hF
  obtain ⟨hF1, hF2, hF3⟩ := hF
  by_cases ht : c.truthyNode = true
  · rw [if_pos ht] at hok ⊢
    obtain ⟨cc, ds, h1, h2, h3⟩ := ih s hok hne hg n L d hF3
    refine ⟨cc, [], h1.nil (by omega), rfl, ?_⟩
    intro f t base fuel g hf hn hd hb hK hA e1 e2 e3 e4
    obtain ⟨v, hv1, hv2⟩ := truthyNode_eval (F := F) (P := P) ht t.look t.world
    simp only [exec, hv1, withVal, hv2]
    exact h3 f t base fuel g hf hn hd hb hK hA e1 e2 e3 e4
  · rw [if_neg ht] at hok ⊢
    by_cases hfa : c.falseyNode = true
    · rw [if_pos hfa] at hok ⊢
      obtain ⟨cc, ds, h1, h2, h3⟩ := ih s (by simpa using hok) hne hg n L d hF3
      have hv := validated_sext (h1.nil (by omega))
      refine ⟨[], [], hv, rfl, ?_⟩
      intro f t base fuel g hf hn hd hb hK hA e1 e2 e3 e4
      obtain ⟨v, hv1, hv2⟩ := falseyNode_eval (F := F) (P := P) hfa t.look t.world
      simp only [exec, hv1, withVal, hv2]
      exact SSim.normal ⟨by simp [e3], by rw [e1, e2, hv.scopes]; exact hf⟩
    · rw [if_neg hfa] at hok ⊢
      have hok2 : (visitStmt st ((visitExpr c s).jump .BRF_8)).ok = true := by simpa using hok
      have hok1 : (visitExpr c s).ok = true := by simpa using visitStmt_ok _ _ hok2
      obtain ⟨c1, h1, s1⟩ := visitExpr_spec (F := F) (P := P) hP c s hok1 hg
      have h1j := h1.trans (Ext.jump (visitExpr c s) .BRF_8)
      obtain ⟨c2, ds, h2, h3, s2⟩ := ih _ hok2 (by rw [h1j.scopes]; exact hne) (h1j.grow.poolOk hg) n L d hF3
      have h2' := h2.nil (by omega)
      have hall := (h1j.grow.trans h2.grow)
      have hp := Grow.patch (c1 := c1 ++ [Opc.BRF_8.byte]) (c2 := c2) (x := 0) (s := s) (by simpa using hall)
        (i := (visitExpr c s).buffer.length + 1) (by simp [h1.buffer, Nat.add_assoc])
      refine ⟨_, [], SExt.of hp (by simp [CState.patch, h2.checkpoints, h1j.checkpoints]) (by simp [CState.patch, h2'.scopes, h1j.scopes]) hne, rfl, ?_⟩
      intro f t base fuel g hf hn hd hb hK hA e1 e2 e3 e4
      have hK' : (visitStmt st ((visitExpr c s).jump .BRF_8)).pool <+: f.K := hK
      simp only [exec]
      refine SSim.expr s1 hf ((Ext.jump (visitExpr c s) .BRF_8).pool.trans (h2.grow.prefix.trans hK')) hA.left.left.left hF1 (by simp [hb, hn]) ?_ hP
      intro w v _ _
      have hbr : At f.code (base + s.buffer.length + c1.length) (Opc.BRF_8.byte :: bytes8 (BitVec.ofInt 64 c2.length)) := by
        have := hA.left
        rw [List.append_assoc] at this
        exact this.right
      have hk : c2.length < 2 ^ 63 := by
        have := hA.right.length_le'; have := hf.codeLen; simp only [Frame.on] at this; omega
      refine SSim.step' (step_brf hbr hk) ?_
      have hbl : ((visitExpr c s).jump .BRF_8).buffer.length = s.buffer.length + c1.length + 9 := by
        rw [h1j.buffer]; simp; omega
      have hgs : g.scopes = s.scopes := by rw [e1]; simp [CState.patch, h2'.scopes, h1j.scopes]
      by_cases hv : v.falsey
      · rw [if_pos hv, if_pos hv]
        refine SSim.normal ⟨by rw [e3]; congr 1; simp; omega, by rw [hgs, e2]; exact hf⟩
      · rw [if_neg hv, if_neg hv]
        have := s2 f { t with world := w } base fuel g (by rw [h1j.scopes, h1j.globals]; exact hf) hn hd hb hK'
          (hA.right.cast (by rw [hbl]; simp; omega)) (by rw [e1]; rfl) (by rw [e2, h1j.globals]) (by rw [e3, hbl]; simp; omega) (e4.ext (h1j.sext hne))
        rw [hbl] at this
        convert this using 2; omega

theorem ifElse_spec (hP : P.NoEnd) {c : Expr} {st se : Stmt} {s : CState} (ih : ∀ s, StmtSpec F P st s) (ih2 : ∀ s, StmtSpec F P se s) :
    StmtSpec F P (.ifElse c st se) s := by
  intro hok hne hg n L d hF
  simp only [visitStmt] at hok ⊢
  simp only [Fits] at hF
  obtain ⟨hF1, ⟨hF2, hF3⟩, hF4, hF5⟩ := hF
  by_cases ht : c.truthyNode = true
  · rw [if_pos ht] at hok ⊢
    have hok1 : (visitStmt se (visitStmt st s)).ok = true := by simpa using hok
    obtain ⟨cc, ds, h1, h2, h3⟩ := ih s (visitStmt_ok _ _ hok1) hne hg n L d hF3
    obtain ⟨cd, ds2, h4, h5, h6⟩ := ih2 _ hok1 h1.ne (h1.grow.poolOk hg) n L d hF5
    have hv := validated_sext (h4.nil (by omega))
    refine ⟨cc ++ [], [] ++ [], (h1.nil (by omega)).trans hv, rfl, ?_⟩
    intro f t base fuel g hf hn hd hb hK hA e1 e2 e3 e4
    obtain ⟨v, hv1, hv2⟩ := truthyNode_eval (F := F) (P := P) ht t.look t.world
    simp only [exec, hv1, withVal, hv2]
    exact h3 f t base fuel g hf hn hd hb (hv.grow.prefix.trans hK) (by simpa using hA) (by rw [e1, hv.scopes]) e2 (by simpa using e3) e4
  · rw [if_neg ht] at hok ⊢
    by_cases hfa : c.falseyNode = true
    · rw [if_pos hfa] at hok ⊢
      have hok1 : (visitStmt st s).ok = true := by simpa using visitStmt_ok _ _ hok
      obtain ⟨cc, ds, h1, h2, h3⟩ := ih s hok1 hne hg n L d hF3
      have hv := validated_sext (h1.nil (by omega))
      obtain ⟨cd, ds2, h4, h5, h6⟩ := ih2 _ hok hv.ne (hv.grow.poolOk hg) n L d hF5
      refine ⟨[] ++ cd, [] ++ [], hv.trans (h4.nil (by omega)), rfl, ?_⟩
      intro f t base fuel g hf hn hd hb hK hA e1 e2 e3 e4
      obtain ⟨v, hv1, hv2⟩ := falseyNode_eval (F := F) (P := P) hfa t.look t.world
      simp only [exec, hv1, withVal, hv2]
      have hbl : (s.validated (visitStmt st s)).buffer = s.buffer := by rw [hv.grow.buffer]; simp
      have := h6 f t base fuel g (by rw [hv.scopes, hv.grow.globals]; exact hf) hn hd hb hK (by simpa [hbl] using hA) e1 (by rw [e2, hv.grow.globals]) (by simpa [hbl] using e3) (e4.ext hv)
      rw [hbl] at this
      exact this
    · rw [if_neg hfa] at hok ⊢
      have hok3 := visitStmt_ok se _ (by simpa using hok)
      have hok2 : (visitStmt st ((visitExpr c s).jump .BRF_8)).ok = true := by simpa using hok3
      have hok1 : (visitExpr c s).ok = true := by simpa using visitStmt_ok _ _ hok2
      obtain ⟨c1, h1, s1⟩ := visitExpr_spec (F := F) (P := P) hP c s hok1 hg
      have h1j := h1.trans (Ext.jump (visitExpr c s) .BRF_8)
      obtain ⟨c2, ds, h2, h3, s2⟩ := ih _ hok2 (by rw [h1j.scopes]; exact hne) (h1j.grow.poolOk hg) n L d hF3
      have h2' := h2.nil (by omega)
      have h2j := Ext.jump (visitStmt st ((visitExpr c s).jump .BRF_8)) .BR_8
      have hp1 := Grow.patch (c1 := c1 ++ [Opc.BRF_8.byte]) (c2 := c2 ++ Opc.BR_8.byte :: bytes8 0) (x := 0) (s := s)
        (s' := (visitStmt st ((visitExpr c s).jump .BRF_8)).jump .BR_8) (by simpa using (h1j.grow.trans h2.grow).trans h2j.grow)
        (i := (visitExpr c s).buffer.length + 1) (by simp [h1.buffer, Nat.add_assoc])
      have hx3 := SExt.of hp1 (by simp [CState.patch, h2j.checkpoints, h2.checkpoints, h1j.checkpoints])
        (by simp [CState.patch, h2j.scopes, h2'.scopes, h1j.scopes]) hne
      have hok4 : (visitStmt se (((visitStmt st ((visitExpr c s).jump .BRF_8)).jump .BR_8).patch ((visitExpr c s).buffer.length + 1))).ok = true := by simpa using hok
      obtain ⟨c3, ds3, h4, h5, s3⟩ := ih2 _ hok4 hx3.ne (hp1.poolOk hg) n L d hF5
      have h4' := h4.nil (by omega)
      have hb2 : (visitStmt st ((visitExpr c s).jump .BRF_8)).buffer.length + 1 = s.buffer.length + (c1 ++ [Opc.BRF_8.byte] ++ bytes8 (BitVec.ofInt 64 (c2 ++ Opc.BR_8.byte :: bytes8 0).length) ++ c2 ++ [Opc.BR_8.byte]).length := by
        rw [h2.grow.buffer, h1j.buffer]; simp; omega
      have hp2 := Grow.patch (c1 := c1 ++ [Opc.BRF_8.byte] ++ bytes8 (BitVec.ofInt 64 (c2 ++ Opc.BR_8.byte :: bytes8 0).length) ++ c2 ++ [Opc.BR_8.byte]) (c2 := c3)
        (x := 0) (s := s) (by simpa using hp1.trans h4.grow) (i := (visitStmt st ((visitExpr c s).jump .BRF_8)).buffer.length + 1) hb2
      refine ⟨_, [], SExt.of hp2 (h4.checkpoints.trans hx3.checkpoints) (h4'.scopes.trans hx3.scopes) hne, rfl, ?_⟩
      intro f t base fuel g hf hn hd hb hK hA e1 e2 e3 e4
      have hK3 : (visitStmt se (((visitStmt st ((visitExpr c s).jump .BRF_8)).jump .BR_8).patch ((visitExpr c s).buffer.length + 1))).pool <+: f.K := hK
      have hK2 : (visitStmt st ((visitExpr c s).jump .BRF_8)).pool <+: f.K := by
        have h := h4.grow.prefix.trans hK3
        exact h2j.pool.trans h
      simp only [exec]
      refine SSim.expr s1 hf ((Ext.jump (visitExpr c s) .BRF_8).pool.trans (h2.grow.prefix.trans hK2)) hA.left.left.left.left.left.left hF1 (by simp [hb, hn]) ?_ hP
      intro w v _ _
      -- the parts of the code
      have hA1 : At f.code (base + s.buffer.length) (c1 ++ (Opc.BRF_8.byte :: bytes8 (BitVec.ofInt 64 (c2.length + 9 : Nat))) ++ c2 ++ (Opc.BR_8.byte :: bytes8 (BitVec.ofInt 64 c3.length)) ++ c3) := by
        convert hA using 1; simp
      have hbr := hA1.left.left.left.right
      have hA2 : At f.code (base + s.buffer.length + c1.length + 9) c2 := hA1.left.left.right.cast (by simp; omega)
      have hbr2 : At f.code (base + s.buffer.length + c1.length + 9 + c2.length) (Opc.BR_8.byte :: bytes8 (BitVec.ofInt 64 c3.length)) := hA1.left.right.cast (by simp; omega)
      have hA3 : At f.code (base + s.buffer.length + c1.length + 9 + (c2.length + 9)) c3 := hA1.right.cast (by simp; omega)
      have hcl : f.code.length < 2 ^ 63 := hf.codeLen
      have hk : c2.length + 9 < 2 ^ 63 := by
        have := hA1.length_le'; simp at this; omega
      have hk3 : c3.length < 2 ^ 63 := by
        have := hA1.length_le'; simp at this; omega
      refine SSim.step' (step_brf hbr hk) ?_
      have hbl : ((visitExpr c s).jump .BRF_8).buffer.length = s.buffer.length + c1.length + 9 := by
        rw [h1j.buffer]; simp; omega
      have hbl3 : (((visitStmt st ((visitExpr c s).jump .BRF_8)).jump .BR_8).patch ((visitExpr c s).buffer.length + 1)).buffer.length = s.buffer.length + c1.length + 9 + (c2.length + 9) := by
        rw [hp1.buffer]; simp; omega
      have hgs : g.scopes = s.scopes := by rw [e1]; exact h4'.scopes.trans hx3.scopes
      have hgp : g.p = base + s.buffer.length + c1.length + 9 + (c2.length + 9) + c3.length := by rw [e3]; simp; omega
      by_cases hv : v.falsey
      · rw [if_pos hv, if_pos hv]
        have := s3 f { t with world := w } base fuel g (by rw [hx3.scopes, hp1.globals]; exact hf) hn hd hb hK3
          (hA3.cast (by rw [hbl3]; omega)) (by rw [e1]; rfl) (by rw [e2, hp1.globals]) (by rw [hgp, hbl3]; omega) (e4.ext hx3)
        rw [hbl3] at this
        convert this using 2; omega
      · rw [if_neg hv, if_neg hv]
        have := s2 f { t with world := w } base fuel { g with p := base + s.buffer.length + c1.length + 9 + c2.length } (by rw [h1j.scopes, h1j.globals]; exact hf) hn hd hb hK2
          (hA2.cast (by rw [hbl]; omega)) (by simp only; rw [hgs, h2'.scopes, h1j.scopes]) (by rw [h1j.globals]; exact e2) (by rw [hbl]; simp; omega) (e4.ext (h1j.sext hne))
        rw [hbl] at this
        refine SSim.bind (k := id) (by convert this using 2; omega) (fun _ _ => rfl) (fun _ => rfl) ?_ ?_ ?_
        · rintro t' m ⟨rfl, h⟩
          refine SSim.step' (step_jump hbr2 (q := g.p) ?_ (by omega) (by omega)) ?_
          · rw [hgp]; push_cast; omega
          · exact SSim.normal ⟨rfl, h⟩
        · intro t' m h; exact SSim.brk h
        · intro t' m h; exact SSim.cont h

/-- `visit_While` from the condition on. -/
def whileTail (c : Expr) (body : CState → CState) (start : Nat) (s1 : CState) : CState :=
  let s2 := visitExpr c (s1.addCheckpoint start)
  let s3 := (s2.addCheckpoint s2.buffer.length).jump .BRF_8
  (((body s3).branchBack start).patch (s2.buffer.length + 1)).rmCheckpoints

theorem whileTail_spec (hP : P.NoEnd) {c : Expr} {st : Stmt} {start : Nat} {s : CState} (ih : ∀ s, StmtSpec F P st s)
    (hok : (whileTail c (visitStmt st) start s).ok = true) (hne : s.scopes ≠ []) (hg : PoolOk s.globals s.pool) (hstart : start ≤ s.buffer.length)
    {n d : Nat} (hF1 : FitsE c n) (hF2 : st.declares = 0) (hF3 : Fits st n n d) :
    ∃ cc, SExt s (whileTail c (visitStmt st) start s) cc [] ∧
      ∀ (f : Frame) (t : PState W) (base fuel : Nat) (post : PState W → SRes W) (g : Target), (f.on t).Ok s.scopes s.globals → t.env.length = n → f.loops.length = d →
        f.below = [] → (whileTail c (visitStmt st) start s).pool <+: f.K → At f.code (base + s.buffer.length) cc → g.scopes = s.scopes → g.globals = s.globals →
        g.p = base + s.buffer.length + cc.length →
        (∀ t : PState W, (f.on t).Ok s.scopes s.globals → SSim F P f.code f.K fuel (f.vmS t (base + start) []) (post t)
          (fun sig t' m => sig = .normal ∧ m = f.vmS t' (base + s.buffer.length) [] ∧ (f.on t').Ok s.scopes s.globals)) →
        SSim F P f.code f.K fuel (f.vmS t (base + s.buffer.length) [])
          (loop (fun s => eval F P s.look c s.world) (exec F P fuel st) post fuel t) (g.To f) := by
  unfold whileTail at hok ⊢
  simp only at hok ⊢
  generalize hs2 : visitExpr c (s.addCheckpoint start) = s2 at hok ⊢
  generalize hs3 : (s2.addCheckpoint s2.buffer.length).jump .BRF_8 = s3 at hok ⊢
  have hok3 : (visitStmt st s3).ok = true := by simpa using hok
  have hok2 : s2.ok = true := by have := visitStmt_ok st s3 hok3; rw [← hs3] at this; simpa using this
  obtain ⟨c1, h1, q1⟩ := visitExpr_spec (F := F) (P := P) hP c (s.addCheckpoint start) (by rw [hs2]; exact hok2) hg
  rw [hs2] at h1 q1
  have hj := Ext.jump (s2.addCheckpoint s2.buffer.length) .BRF_8
  rw [hs3] at hj
  have g1 : Grow s s2 c1 := h1.grow.ofCheckpoint
  have g3 : Grow s s3 (c1 ++ Opc.BRF_8.byte :: bytes8 0) := g1.trans hj.grow.ofCheckpoint
  have hsc3 : s3.scopes = s.scopes := hj.scopes.trans h1.scopes
  have hcp3 : s3.checkpoints = s2.buffer.length :: start :: s.checkpoints := by
    rw [hj.checkpoints]
    show s2.buffer.length :: s2.checkpoints = _
    rw [h1.checkpoints]; rfl
  obtain ⟨c2, ds, h2, h3, q2⟩ := ih s3 hok3 (by rw [hsc3]; exact hne) (g3.poolOk hg) n n d hF3
  have h2' := h2.nil (by omega)
  have hb := Ext.branchBack (visitStmt st s3) start
  have gall := (g3.trans h2.grow).trans hb.grow
  have hbl2 : s2.buffer.length = s.buffer.length + c1.length := by rw [g1.buffer]; simp
  have hbl3 : s3.buffer.length = s.buffer.length + c1.length + 9 := by rw [g3.buffer]; simp; omega
  have hbl4 : (visitStmt st s3).buffer.length = s.buffer.length + c1.length + 9 + c2.length := by rw [h2.grow.buffer]; simp [hbl3]
  generalize hd : ((start : Int) - ((visitStmt st s3).buffer.length : Int) - 9) = dd at hb gall
  have hp := Grow.patch (c1 := c1 ++ [Opc.BRF_8.byte]) (c2 := c2 ++ Opc.BR_8.byte :: bytes8 (BitVec.ofInt 64 dd)) (x := 0) (s := s)
    (s' := (visitStmt st s3).branchBack start) (by simpa using gall) (i := s2.buffer.length + 1) (by simp [hbl2, Nat.add_assoc])
  have hpr : Grow s (((visitStmt st s3).branchBack start).patch (s2.buffer.length + 1)).rmCheckpoints _ := ⟨hp.buffer, hp.pool, hp.globals, hp.ok⟩
  refine ⟨_, SExt.of hpr ?_ ?_ hne, ?_⟩
  · show (List.drop 2 ((visitStmt st s3).branchBack start).checkpoints) = _
    rw [hb.checkpoints, h2.checkpoints, hcp3]; rfl
  · show ((visitStmt st s3).branchBack start).scopes = _
    rw [hb.scopes, h2'.scopes, hsc3]
  intro f t base fuel post g hf hn hl hbe hK hA e1 e2 e3 hpost
  have hK4 : (visitStmt st s3).pool <+: f.K := hb.pool.trans hK
  have hK2 : s2.pool <+: f.K := (Ext.pool hj).trans (h2.grow.prefix.trans hK4)
  have hA1 : At f.code (base + s.buffer.length) (c1 ++ (Opc.BRF_8.byte :: bytes8 (BitVec.ofInt 64 (c2.length + 9 : Nat))) ++ c2 ++ (Opc.BR_8.byte :: bytes8 (BitVec.ofInt 64 dd))) := by
    convert hA using 1; simp
  have hcl : f.code.length < 2 ^ 63 := hf.codeLen
  have hlenc := hA1.length_le'
  simp at hlenc
  have hp0 : base + s.buffer.length < f.code.length := by
    by_contra hc
    have := hA1.length_le'
    have h0 : At f.code (base + s.buffer.length) (c1 ++ (Opc.BRF_8.byte :: bytes8 (BitVec.ofInt 64 (c2.length + 9 : Nat))) ++ c2 ++ (Opc.BR_8.byte :: bytes8 (BitVec.ofInt 64 dd))) := hA1
    unfold At at h0
    rw [List.drop_eq_nil_of_le (by omega)] at h0
    have := h0.length_le; simp at this
  have hpe := hA1.length_le (by omega)
  simp at hpe
  have hbr := hA1.left.left.right
  have hA2 : At f.code (base + s3.buffer.length) c2 := hA1.left.right.cast (by rw [hbl3]; simp; omega)
  have hA3 : At f.code (base + s.buffer.length + c1.length + 9 + c2.length) (Opc.BR_8.byte :: bytes8 (BitVec.ofInt 64 dd)) := hA1.right.cast (by simp; omega)
  refine loop_sem (f := f) (scs := s.scopes) (gs := s.globals) (cond := fun s => eval F P s.look c s.world) (pcond := base + s.buffer.length)
    (p1 := base + s.buffer.length + c1.length) (pback := base + s.buffer.length + c1.length + 9 + c2.length) (pstart := base + start) (k := c2.length + 9)
    (gb := ⟨s.scopes, s.globals, base + s.buffer.length + c1.length + 9 + c2.length, base + s.buffer.length + c1.length, base + start, s.scopes.flatten⟩)
    ?_ hbr (by omega) ?_ rfl ?_ hpost e1 e2 ?_ fuel (Nat.le_refl _) t hf
  · intro t' ht'
    have := q1 (f.on t') (base + s.buffer.length) [] t'.world ht' hK2 hA1.left.left.left hF1.1 (by
      have := hF1.2
      have h6 := ht'.envLen; have h7 := hf.envLen
      simp only [Frame.Room, Frame.on, hbe, stackLimit, stackSize, List.length_nil] at this ⊢; omega)
    exact this
  · intro t' ht'
    have hn' : t'.env.length = n := by rw [ht'.envLen, ← hf.envLen, hn]
    have := q2 f t' base fuel ⟨s.scopes, s.globals, base + s.buffer.length + c1.length + 9 + c2.length, base + s.buffer.length + c1.length, base + start, s.scopes.flatten⟩
      (by rw [hsc3, g3.globals]; exact ht') hn' hl hbe hK4 hA2 (by rw [h2'.scopes, hsc3]) (by rw [g3.globals]) (by rw [hbl3]; simp; omega) (by
        intro _
        rw [hcp3]
        refine ⟨⟨by simp [hbl2, Nat.add_assoc], by simp [hbl2, hbl3]⟩, ⟨by simp, by simp [hbl3]; omega⟩, by rw [hsc3]; exact List.suffix_refl _, ?_⟩
        show s.scopes.flatten.length = n
        rw [← scopeLen_flatten, ← hn', ht'.envLen])
    rw [hbl3] at this
    convert this using 2; omega
  · intro t'
    refine step_jump hA3 ?_ ?_ ?_
    · push_cast; omega
    · omega
    · omega
  · rw [e3]; simp; omega

theorem while_spec (hP : P.NoEnd) {c : Expr} {st : Stmt} {s : CState} (ih : ∀ s, StmtSpec F P st s) : StmtSpec F P (.while_ c st) s := by
  intro hok hne hg n L d hF
  simp only [visitStmt, visitWhile] at hok ⊢
  simp only [Fits] at hF
  obtain ⟨hF1, hF2, hF3⟩ := hF
  by_cases hfa : c.falseyNode = true
  · rw [if_pos hfa] at hok ⊢
    simp only [Bool.false_eq_true, if_false] at hok ⊢
    obtain ⟨cc, ds, h1, h2, h3⟩ := ih s (by simpa using hok) hne hg n n d hF3
    have hv := validated_sext (h1.nil (by omega))
    refine ⟨[], [], hv, rfl, ?_⟩
    intro f t base fuel g hf hn hd hb hK hA e1 e2 e3 e4
    simp only [exec]
    cases fuel with
    | zero => exact ⟨0, f.vmS t _ [], by omega, rfl, rfl, rfl, rfl⟩
    | succ j =>
      obtain ⟨v, hv1, hv2⟩ := falseyNode_eval (F := F) (P := P) hfa t.look t.world
      simp only [loop, hv1, withVal, hv2]
      exact SSim.normal ⟨by simp [e3], by rw [e1, e2, hv.scopes]; exact hf⟩
  · rw [if_neg hfa] at hok ⊢
    obtain ⟨cc, h1, h2⟩ := whileTail_spec (F := F) (P := P) (start := s.buffer.length) hP ih hok hne hg (Nat.le_refl _) hF1 hF2 hF3
    refine ⟨cc, [], h1, rfl, ?_⟩
    intro f t base fuel g hf hn hd hb hK hA e1 e2 e3 e4
    simp only [exec]
    exact h2 f t base fuel _ g hf hn hd hb hK hA (e1.trans h1.scopes) e2 e3 (fun t' ht' => SSim.normal ⟨rfl, rfl, ht'⟩)

theorem for_spec (hP : P.NoEnd) {c : Expr} {st po : Stmt} {s : CState} (ih : ∀ s, StmtSpec F P st s) (ih2 : ∀ s, StmtSpec F P po s) :
    StmtSpec F P (.forLoop c st po) s := by
  intro hok hne hg n L d hF
  simp only [visitStmt, visitWhile] at hok ⊢
  simp only [Fits] at hF
  obtain ⟨hF1, ⟨hF2, hF3⟩, ⟨pst, hpst⟩, hF5⟩ := hF
  have hdec : po.declares = 0 := by rw [hpst]; rfl
  by_cases hfa : c.falseyNode = true
  · rw [if_pos hfa] at hok ⊢
    simp only [if_true] at hok ⊢
    have hok2 : (visitStmt po (s.validated (visitStmt st s))).ok = true := by simpa using hok
    obtain ⟨cc, ds, h1, h2, h3⟩ := ih s (by simpa using visitStmt_ok _ _ hok2) hne hg n n d hF3
    have hv := validated_sext (h1.nil (by omega))
    obtain ⟨cd, ds2, h4, h5, h6⟩ := ih2 _ hok2 hv.ne (hv.grow.poolOk hg) n L d hF5
    have hv2 := hv.trans (validated_sext (h4.nil (by omega)))
    refine ⟨[], [], hv2, rfl, ?_⟩
    intro f t base fuel g hf hn hd hb hK hA e1 e2 e3 e4
    simp only [exec]
    cases fuel with
    | zero => exact ⟨0, f.vmS t _ [], by omega, rfl, rfl, rfl, rfl⟩
    | succ j =>
      obtain ⟨v, hv1, hv2'⟩ := falseyNode_eval (F := F) (P := P) hfa t.look t.world
      simp only [loop, hv1, withVal, hv2']
      exact SSim.normal ⟨by simp [e3], by rw [e1, e2]; exact hf.congr (by rw [hv2.flatten]; simp)⟩
  · rw [if_neg hfa] at hok ⊢
    simp only [if_true] at hok ⊢
    generalize hs1 : (visitStmt po (s.jump .BR_8)).patch (s.buffer.length + 1) = s1 at hok ⊢
    have hokw : (whileTail c (visitStmt st) (s.jump .BR_8).buffer.length s1).ok = true := hok
    have hj := Ext.jump s .BR_8
    have hok1 : (visitStmt po (s.jump .BR_8)).ok = true := by
      have h : (visitStmt st _).ok = true := hok
      have h2 := visitStmt_ok _ _ h
      have h3 := visitExpr_ok c (s1.addCheckpoint (s.jump .BR_8).buffer.length) (by simpa using h2)
      rw [← hs1] at h3
      simpa using h3
    obtain ⟨c0, ds0, p1, p2, p3⟩ := ih2 _ hok1 (by rw [hj.scopes]; exact hne) (hj.grow.poolOk hg) n L d hF5
    have p1' := p1.nil (by omega)
    have hp := Grow.patch (c1 := [Opc.BR_8.byte]) (c2 := c0) (x := 0) (s := s) (s' := visitStmt po (s.jump .BR_8)) (by simpa using hj.grow.trans p1.grow)
      (i := s.buffer.length + 1) (by simp)
    rw [hs1] at hp
    have hx1 : SExt s s1 ([Opc.BR_8.byte] ++ bytes8 (BitVec.ofInt 64 c0.length) ++ c0) [] := by
      refine SExt.of hp ?_ ?_ hne
      · rw [← hs1]; exact p1.checkpoints.trans hj.checkpoints
      · rw [← hs1]; exact p1'.scopes.trans hj.scopes
    have hblj : (s.jump .BR_8).buffer.length = s.buffer.length + 9 := by rw [hj.buffer]; simp
    have hbl1 : s1.buffer.length = s.buffer.length + 9 + c0.length := by rw [hp.buffer]; simp; omega
    obtain ⟨cc, h1, h2⟩ := whileTail_spec (F := F) (P := P) (start := (s.jump .BR_8).buffer.length) hP ih hokw hx1.ne (hp.poolOk hg) (by rw [hblj, hbl1]; omega) hF1 hF2 hF3
    refine ⟨_, [] ++ [], hx1.trans h1, rfl, ?_⟩
    intro f t base fuel g hf hn hd hb hK hA e1 e2 e3 e4
    simp only [exec]
    have hcl : f.code.length < 2 ^ 63 := hf.codeLen
    have hlenc := hA.length_le'
    simp at hlenc
    have hbr : At f.code (base + s.buffer.length) (Opc.BR_8.byte :: bytes8 (BitVec.ofInt 64 c0.length)) := hA.left.left
    refine SSim.step' (m' := f.vmS t (base + s1.buffer.length) []) (step_jump hbr ?_ (by omega) (by omega)) ?_
    · rw [hbl1]; push_cast; omega
    refine h2 f t base fuel _ g (hf.congr (by rw [hx1.flatten]; simp) |> fun h => by rw [hp.globals]; exact h) hn hd hb hK (hA.right.cast (by rw [hbl1]; simp; omega))
      (e1.trans h1.scopes) (by rw [e2, hp.globals]) (by rw [e3, hbl1]; simp; omega) ?_
    intro t' ht'
    have ht1 : (f.on t').Ok s.scopes s.globals := by rw [hx1.scopes, hp.globals] at ht'; exact ht'
    have hK0 : (visitStmt po (s.jump .BR_8)).pool <+: f.K := by
      have h := h1.grow.prefix.trans hK
      rw [← hs1] at h; exact h
    have := p3 f t' base fuel { g with scopes := s.scopes, p := base + s1.buffer.length } (by rw [hj.scopes, hj.globals]; exact ht1)
      (by rw [ht1.envLen, ← hf.envLen, hn]) hd hb hK0 (hA.left.right.cast (by rw [hblj]; simp; omega)) (by rw [p1'.scopes, hj.scopes]) (by rw [hj.globals]; exact e2)
      (by rw [hblj, hbl1]; simp; omega) (by
        have := e4.ext (hj.sext hne)
        exact this)
    subst hpst
    refine SSim.only this (post_sig hF5 t').1 (post_sig hF5 t').2 ?_
    rintro t2 m ⟨rfl, h⟩
    refine ⟨rfl, rfl, ?_⟩
    rw [hx1.scopes, hp.globals, ← e2]; exact h

theorem forIter_spec (hP : P.NoEnd) {x : Name} {coll : Expr} {st : Stmt} {s : CState} (ih : ∀ s, StmtSpec F P st s) :
    StmtSpec F P (.forIter x coll st) s := by
  intro hok hne hg n L d hF
  simp only [visitStmt] at hok ⊢
  simp only [Fits, maxLocals, stackLimit, loopLimit] at hF
  obtain ⟨hF1, hF2, hF3, hF4, hF5, hF6⟩ := hF
  generalize hs0 : (((visitExpr coll s.enterScope).op .INITFOR).op .END) = s0 at hok ⊢
  generalize hs1 : s0.declVar x = s1 at hok ⊢
  generalize hs2 : (s1.addCheckpoint s1.buffer.length).op .ITER_1 = s2 at hok ⊢
  generalize hs3 : ((s2.addCheckpoint s2.buffer.length).jump .BRF_8) = s3 at hok ⊢
  simp only [CState.rmCheckpoints_ok, CState.exitScope_ok, CState.op_ok, CState.patch_ok, CState.branchBack_ok] at hok
  have hok3 := CState.storeVar_ok (visitStmt_ok _ _ hok)
  have hok2 : s2.ok = true := by rw [← hs3] at hok3; simpa using hok3
  have hok1 : s1.ok = true := by rw [← hs2] at hok2; simpa using hok2
  have hok0 : s0.ok = true := by rw [← hs1] at hok1; exact CState.declVar_ok hok1
  obtain ⟨cA, a1, a2⟩ := visitExpr_spec (F := F) (P := P) hP coll s.enterScope (by rw [← hs0] at hok0; simpa using hok0) hg
  have a3 : Ext s.enterScope s0 (cA ++ [Opc.INITFOR.byte] ++ [Opc.END.byte]) := by rw [← hs0]; exact (a1.trans (Ext.op _ _)).trans (Ext.op _ _)
  have hsc0 : s0.scopes = [] :: s.scopes := a3.scopes
  have b1 := declVar_spec s0 x (by rw [hsc0]; simp) (by simp [CState.containsCur, hsc0, Scope.get]) (by rw [hs1]; exact hok1)
  rw [hs1] at b1
  have hsl : scopeLen s0.scopes = scopeLen s.scopes := by rw [hsc0]; simp [scopeLen]
  rw [hsl] at b1
  have hsc1 : s1.scopes = [(x, BitVec.ofNat 64 (scopeLen s.scopes))] :: s.scopes := by
    obtain ⟨_, _, sc, scs, h1, h2⟩ := b1
    rw [hsc0] at h1; simp only [List.cons.injEq] at h1
    rw [h2, ← h1.1, ← h1.2]; simp
  have g1 : Grow s s1 (cA ++ [Opc.INITFOR.byte] ++ [Opc.END.byte]) := by
    have h : Grow s s0 _ := ⟨a3.buffer, a3.grow.pool, a3.globals, a3.ok⟩
    simpa using h.trans b1.grow
  have hj2 := Ext.op (s1.addCheckpoint s1.buffer.length) .ITER_1
  rw [hs2] at hj2
  have hj3 := Ext.jump (s2.addCheckpoint s2.buffer.length) .BRF_8
  rw [hs3] at hj3
  have g3 := (g1.trans hj2.grow.ofCheckpoint).trans hj3.grow.ofCheckpoint
  have hsc3 : s3.scopes = [(x, BitVec.ofNat 64 (scopeLen s.scopes))] :: s.scopes := by rw [hj3.scopes]; exact hj2.scopes.trans hsc1
  have hcp0 : s1.checkpoints = s.checkpoints := b1.checkpoints.trans a3.checkpoints
  have hcp3 : s3.checkpoints = s2.buffer.length :: s1.buffer.length :: s.checkpoints := by
    rw [hj3.checkpoints]
    show s2.buffer.length :: s2.checkpoints = _
    rw [hj2.checkpoints]
    show _ :: s1.buffer.length :: s1.checkpoints = _
    rw [hcp0]
  by_cases hsmall : scopeLen s.scopes < 2 ^ 63
  swap
  · -- impossible: the compiler rejects it
    exfalso
    rw [← hs1] at hok1
    simp only [CState.declVar, hsc0] at hok1
    split at hok1
    · simp at hok1
    · rename_i h
      simp [scopeLen, Scope.put, Scope.get] at h hsmall
      omega
  have hst : s3.storeVar x = (s3.op .LSTORE).emit (BitVec.ofNat 8 (scopeLen s.scopes)) := by
    have hget : scopeGet s3.scopes x = some (BitVec.ofNat 64 (scopeLen s.scopes)) := by rw [hsc3]; simp [scopeGet, Scope.get]
    have hnc : isConst (BitVec.ofNat 64 (scopeLen s.scopes)) = false := by
      rw [isConst_iff, BitVec.msb_eq_false_iff_two_mul_lt]; simp; omega
    simp [CState.storeVar, hget, hnc, setWidth_ofNat]
  rw [hst] at hok ⊢
  have hs4 : Ext s3 ((s3.op .LSTORE).emit (BitVec.ofNat 8 (scopeLen s.scopes))) [Opc.LSTORE.byte, BitVec.ofNat 8 (scopeLen s.scopes)] :=
    (Ext.op _ _).trans (Ext.emit _ _)
  generalize hs4e : (s3.op .LSTORE).emit (BitVec.ofNat 8 (scopeLen s.scopes)) = s4 at hok hs4 ⊢
  have g4 := g3.trans hs4.grow
  have hsc4 : s4.scopes = [(x, BitVec.ofNat 64 (scopeLen s.scopes))] :: s.scopes := hs4.scopes.trans hsc3
  have hcp4 : s4.checkpoints = s2.buffer.length :: s1.buffer.length :: s.checkpoints := hs4.checkpoints.trans hcp3
  obtain ⟨c2, ds, h2, h3, q2⟩ := ih s4 hok (by rw [hsc4]; simp) (g4.poolOk hg) (n + 1) (n + 1) (d + 1) hF6
  have h2' := h2.nil (by omega)
  have hb := Ext.branchBack (visitStmt st s4) s1.buffer.length
  have gall := (g4.trans h2.grow).trans hb.grow
  have hbl1 : s1.buffer.length = s.buffer.length + cA.length + 2 := by rw [g1.buffer]; simp; omega
  have hbl2 : s2.buffer.length = s.buffer.length + cA.length + 3 := by rw [hj2.buffer]; simp [CState.addCheckpoint, hbl1]
  have hbl4 : s4.buffer.length = s.buffer.length + cA.length + 14 := by rw [g4.buffer]; simp; omega
  have hbl5 : (visitStmt st s4).buffer.length = s.buffer.length + cA.length + 14 + c2.length := by rw [h2.grow.buffer]; simp [hbl4]
  generalize hdd : ((s1.buffer.length : Int) - ((visitStmt st s4).buffer.length : Int) - 9) = dd at hb gall
  have hp := Grow.patch (c1 := cA ++ [Opc.INITFOR.byte, Opc.END.byte, Opc.ITER_1.byte, Opc.BRF_8.byte])
    (c2 := Opc.LSTORE.byte :: BitVec.ofNat 8 (scopeLen s.scopes) :: (c2 ++ Opc.BR_8.byte :: bytes8 (BitVec.ofInt 64 dd))) (x := 0) (s := s)
    (s' := (visitStmt st s4).branchBack s1.buffer.length) (by simpa using gall) (i := s2.buffer.length + 1) (by simp [hbl2, Nat.add_assoc])
  have hpe := hp.op .ENDFOR
  generalize hs6 : (((visitStmt st s4).branchBack s1.buffer.length).patch (s2.buffer.length + 1)).op .ENDFOR = s6 at hpe ⊢
  have hsc6 : s6.scopes = [(x, BitVec.ofNat 64 (scopeLen s.scopes))] :: s.scopes := by
    rw [← hs6]; exact (hb.scopes.trans h2'.scopes).trans hsc4
  have hcp6 : s6.checkpoints = s2.buffer.length :: s1.buffer.length :: s.checkpoints := by
    rw [← hs6]; exact (hb.checkpoints.trans h2.checkpoints).trans hcp4
  have hex : s6.exitScope.rmCheckpoints = { s6 with scopes := s.scopes, buffer := s6.buffer ++ [Opc.POP.byte], checkpoints := s.checkpoints } := by
    simp [CState.exitScope, CState.rmCheckpoints, hsc6, hcp6]
  rw [hex]
  have hlen2 : (Opc.LSTORE.byte :: BitVec.ofNat 8 (scopeLen s.scopes) :: (c2 ++ Opc.BR_8.byte :: bytes8 (BitVec.ofInt 64 dd))).length = 2 + c2.length + 9 := by
    simp; omega
  rw [hlen2] at hpe
  refine ⟨cA ++ [Opc.INITFOR.byte, Opc.END.byte] ++ [Opc.ITER_1.byte] ++ (Opc.BRF_8.byte :: bytes8 (BitVec.ofInt 64 (2 + c2.length + 9 : Nat))) ++
      [Opc.LSTORE.byte, BitVec.ofNat 8 (scopeLen s.scopes)] ++ c2 ++ (Opc.BR_8.byte :: bytes8 (BitVec.ofInt 64 dd)) ++ [Opc.ENDFOR.byte, Opc.POP.byte], [],
    SExt.of ⟨by simp only; rw [hpe.buffer]; simp, hpe.pool, hpe.globals, hpe.ok⟩ rfl rfl hne, rfl, ?_⟩
  intro f t base fuel g hf hn hl hbe hK hA1 e1 e2 e3 e4
  have hK6 : s6.pool <+: f.K := hK
  have hK5 : (visitStmt st s4).pool <+: f.K := by
    rw [← hs6] at hK6; exact hb.pool.trans hK6
  have hKA : (visitExpr coll s.enterScope).pool <+: f.K := by
    have h1 : (visitExpr coll s.enterScope).pool <+: s0.pool := by
      rw [← hs0]; exact List.prefix_rfl
    exact h1.trans (b1.grow.prefix.trans (hj2.pool.trans (hj3.pool.trans (hs4.pool.trans (h2.grow.prefix.trans hK5)))))
  simp only [exec]
  have hcl : f.code.length < 2 ^ 63 := hf.codeLen
  have hp0 : base + s.buffer.length < f.code.length := by
    by_contra hc
    have h0 := hA1
    unfold At at h0
    rw [List.drop_eq_nil_of_le (by omega)] at h0
    have := h0.length_le; simp at this
  have hlenc := hA1.length_le (by omega)
  simp at hlenc
  refine SSim.expr a2 (hf.congr (by simp [CState.enterScope])) hKA hA1.left.left.left.left.left.left.left hF1 (by simp [hbe, hn]) ?_ hP
  intro w v _ _
  have hAi : At f.code (base + s.buffer.length + cA.length) [Opc.INITFOR.byte, Opc.END.byte] := hA1.left.left.left.left.left.left.right
  refine SSim.step' (m' := ({ f with loops := (0, v) :: f.loops } : Frame).vmS { t with world := w } (base + s.buffer.length + cA.length + 1) [])
    (step_initfor (c := [Opc.END.byte]) hAi (by simp [numLoopFrames, Frame.on]; omega)) ?_
  refine SSim.step' (m' := ({ f with loops := (0, v) :: f.loops } : Frame).vmS { t with world := w } (base + s.buffer.length + cA.length + 2) [.end_])
    (step_push (c := []) .END .end_ (by simp) hAi.tail (by simp [Frame.on, hbe, stackSize]; omega)) ?_
  have hn' : scopeLen s.scopes = n := by rw [← hf.envLen, hn]
  have hbr : At f.code (base + s.buffer.length + cA.length + 2 + 1) (Opc.BRF_8.byte :: bytes8 (BitVec.ofInt 64 (2 + c2.length + 9 : Nat))) :=
    hA1.left.left.left.left.right.cast (by simp; omega)
  refine loopIter_sem (f := f) (scs := s.scopes) (scs' := s4.scopes) (gs := s.globals) (x := x) (coll := v)
    (pstart := base + s.buffer.length + cA.length + 2) (pback := base + s.buffer.length + cA.length + 14 + c2.length) (k := 2 + c2.length + 9)
    (z := BitVec.ofNat 64 (scopeLen s.scopes)) hP (by rw [hsc4]; simp) rfl (by omega) hbe (hA1.left.left.left.left.left.right.cast (by simp; omega))
    hbr (by omega) (hA1.left.left.left.right.cast (by simp; omega)) ?_ ?_ (hA1.right.cast (by simp; omega)) e1 e2 (by rw [e3]; simp; omega)
    fuel (Nat.le_refl _) 0 { t with world := w } .end_ hf
  · intro i t' ht'
    have hn'' : t'.env.length = n + 1 := by rw [ht'.envLen, hsc4]; simp [scopeLen] at hn' ⊢; omega
    have := q2 { f with loops := (i, v) :: f.loops } t' base fuel
      ⟨s4.scopes, s.globals, base + s.buffer.length + cA.length + 14 + c2.length, base + s.buffer.length + cA.length + 2 + 1, base + s.buffer.length + cA.length + 2, s4.scopes.flatten⟩
      (by rw [g4.globals]; exact ht') hn'' (by simp [hl]) hbe hK5 (hA1.left.left.right.cast (by rw [hbl4]; simp; omega)) (by rw [h2'.scopes]) (by rw [g4.globals])
      (by rw [hbl4]; simp; omega) (by
        intro _
        rw [hcp4]
        refine ⟨⟨by simp [hbl2]; omega, by simp [hbl2, hbl4]⟩, ⟨by simp [hbl1]; omega, by simp [hbl1, hbl4]⟩, List.suffix_refl _, ?_⟩
        show s4.scopes.flatten.length = n + 1
        rw [← scopeLen_flatten, ← hn'', ht'.envLen])
    rw [hbl4] at this
    convert this using 2; omega
  · intro i t'
    refine step_jump (f := { f with loops := (i, v) :: f.loops }) (hA1.left.right.cast (by simp; omega)) ?_ ?_ ?_
    · push_cast; omega
    · omega
    · omega

mutual
/-- Compiled statements do what the statement means. -/
theorem visitStmt_spec (hP : P.NoEnd) : ∀ (st : Stmt) (s : CState), StmtSpec F P st s
  | .expr e, s => expr_spec hP e s
  | .post st, s => post_spec hP st s
  | .decl ls rs, s => decl_spec hP ls rs s
  | .letOne x e, s => letOne_spec hP x e s
  | .assign x e, s => assign_spec hP x e s
  | .set c k v, s => set_spec hP c k v s
  | .echo e, s => echo_spec hP e s
  | .assert e, s => assert_spec hP e s
  | .block ss, s => block_spec (visitStmts_spec hP ss _)
  | .ifThen c t, s => ifThen_spec hP (visitStmt_spec hP t)
  | .ifElse c t e, s => ifElse_spec hP (visitStmt_spec hP t) (visitStmt_spec hP e)
  | .while_ c body, s => while_spec hP (visitStmt_spec hP body)
  | .forLoop c body post, s => for_spec hP (visitStmt_spec hP body) (visitStmt_spec hP post)
  | .forIter x coll body, s => forIter_spec hP (visitStmt_spec hP body)
  | .brk, s => brk_spec s
  | .cont, s => cont_spec s
/-- The same for statements in sequence. -/
theorem visitStmts_spec (hP : P.NoEnd) : ∀ (ss : Stmts) (s : CState), StmtsSpec F P ss s
  | .nil, s => by
    intro hok hne hg n L d hF
    refine ⟨[], [], (Ext.refl s).sext hne, ?_⟩
    intro f t base fuel g hf hn hd hb hK hA e1 e2 e3 e4
    exact SSim.normal ⟨by simp [e3], by rw [e1, e2]; exact hf⟩
  | .cons st ss, s => by
    intro hok hne hg n L d hF
    simp only [visitStmts] at hok ⊢
    simp only [FitsAll] at hF
    obtain ⟨c1, d1, h1, h2, h3⟩ := visitStmt_spec hP st s (visitStmts_ok _ _ hok) hne hg n L d hF.1
    obtain ⟨c2, d2, h4, h5⟩ := visitStmts_spec hP ss _ hok h1.ne (h1.grow.poolOk hg) (n + st.declares) L d hF.2
    refine ⟨_, _, h1.trans h4, ?_⟩
    intro f t base fuel g hf hn hd hb hK hA e1 e2 e3 e4
    simp only [execAll]
    have hbl : (visitStmt st s).buffer.length = s.buffer.length + c1.length := by rw [h1.grow.buffer]; simp
    refine SSim.andThen (h3 f t base fuel { g with scopes := (visitStmt st s).scopes, p := base + s.buffer.length + c1.length } hf hn hd hb (h4.grow.prefix.trans hK) hA.left rfl e2 rfl e4) ?_ ?_ ?_
    · rintro t' m ⟨rfl, h⟩
      simp only [e2] at h
      have hn' : t'.env.length = n + st.declares := by
        rw [h.envLen, scopeLen_flatten, h1.flatten, List.length_append, ← scopeLen_flatten, ← hf.envLen, h2, hn]; omega
      have := h5 f t' base fuel g (by rw [h1.grow.globals]; exact h) hn' hd hb hK (hA.right.cast (by rw [hbl]; omega)) e1 (by rw [e2, h1.grow.globals])
        (by rw [e3, hbl]; simp; omega) (e4.ext h1)
      rw [hbl] at this
      convert this using 2
      show base + s.buffer.length + c1.length = _
      omega
    · exact fun t' m h => h
    · exact fun t' m h => h
end

end
end Yasl
