import Verif.Proofs.CompileStmt
set_option autoImplicit false
/-! # Compiled loops and programs -/
namespace Yasl
section
variable {W : Type} {F : FloatOps} {P : Prims W}

theorem Frame.Ok.envLen {f : Frame} {t : PState W} {scs : List Scope} {gs : Scope} (h : (f.on t).Ok scs gs) : t.env.length = scopeLen scs :=
  h.rep.length.symm

theorem PState.leave_self {t : PState W} {n : Nat} (h : t.env.length = n) : t.leave n = t := by
  simp [PState.leave, h]

/-- A conditional jump over code when the condition is falsey. -/
theorem step_brf {f : Frame} {t : PState W} {p k : Nat} {v : Val} {temps : List Val}
    (hA : At f.code p (Opc.BRF_8.byte :: bytes8 (BitVec.ofInt 64 k))) (hk : k < 2 ^ 63) :
    VM.step F P f.code f.K (f.vmS t p (v :: temps)) = .next (if v.falsey then f.vmS t (p + 9 + k) temps else f.vmS t (p + 9) temps) := by
  have := step_cond (F := F) (P := P) (K := f.K) (st := temps ++ (t.env.map Prod.snd ++ f.below)) (fp := f.fp) (loops := f.loops) (g := t.globals)
    (w := t.world) (out := t.out) BrTest.f v hA
  simp only [Frame.vmS, Frame.vm, Frame.on, List.cons_append]
  rw [this]
  split
  · rw [jumpBy_forward hk]
  · rfl

/-- A jump. -/
theorem step_jump {f : Frame} {t : PState W} {p q : Nat} {d : Int} {temps : List Val}
    (hA : At f.code p (Opc.BR_8.byte :: bytes8 (BitVec.ofInt 64 d))) (hd : (p : Int) + 9 + d = q) (h1 : -2 ^ 63 ≤ d) (h2 : d < 2 ^ 63) :
    VM.step F P f.code f.K (f.vmS t p temps) = .next (f.vmS t q temps) := by
  have := step_br (F := F) (P := P) (K := f.K) (st := temps ++ (t.env.map Prod.snd ++ f.below)) (fp := f.fp) (loops := f.loops) (g := t.globals)
    (w := t.world) (out := t.out) hA
  simp only [Frame.vmS, Frame.vm, Frame.on]
  rw [this, jumpBy_to (q := q) (by simpa using hd) h1 h2]

/-- `while` and `for`: the code of the condition at `pcond`, the conditional jump at `p1`, the jump back at the end of the body to `pstart`, from
where the machine executes `post` and comes to `pcond`. -/
theorem loop_sem {f : Frame} {scs : List Scope} {gs : Scope} {cond : PState W → PRes W Val} {body post : PState W → SRes W}
    {pcond p1 pback pstart k fuel : Nat} {g gb : Target}
    (hcond : ∀ t : PState W, (f.on t).Ok scs gs →
      Sim F P f.code f.K (f.vmS t pcond []) (cond t) (fun w v => f.vmS { t with world := w } p1 [v]))
    (hbrf : At f.code p1 (Opc.BRF_8.byte :: bytes8 (BitVec.ofInt 64 k))) (hk : k < 2 ^ 63)
    (hbody : ∀ t : PState W, (f.on t).Ok scs gs → SSim F P f.code f.K fuel (f.vmS t (p1 + 9) []) (body t) (gb.To f))
    (hgb : gb = ⟨scs, gs, pback, p1, pstart, scs.flatten⟩)
    (hback : ∀ t : PState W, VM.step F P f.code f.K (f.vmS t pback []) = .next (f.vmS t pstart []))
    (hpost : ∀ t : PState W, (f.on t).Ok scs gs →
      SSim F P f.code f.K fuel (f.vmS t pstart []) (post t) (fun sig t' m => sig = .normal ∧ m = f.vmS t' pcond [] ∧ (f.on t').Ok scs gs))
    (hg1 : g.scopes = scs) (hg2 : g.globals = gs) (hg3 : g.p = p1 + 9 + k) :
    ∀ j ≤ fuel, ∀ t : PState W, (f.on t).Ok scs gs → SSim F P f.code f.K j (f.vmS t pcond []) (loop cond body post j t) (g.To f) := by
  intro j
  induction j with
  | zero =>
    intro _ t ht
    exact ⟨0, f.vmS t pcond [], by omega, rfl, rfl, rfl, rfl⟩
  | succ j ih =>
    intro hj t ht
    simp only [loop]
    refine SSim.value (hcond t ht) rfl rfl ?_
    intro w v _
    refine SSim.step (n := j) (step_brf hbrf hk) ?_
    by_cases hv : v.falsey
    · rw [if_pos hv, if_pos hv]
      exact SSim.normal ⟨by rw [hg3], by rw [hg1, hg2]; exact ht⟩
    · rw [if_neg hv, if_neg hv]
      -- the next round
      have hnext : ∀ t' : PState W, (f.on t').Ok scs gs → SSim F P f.code f.K j (f.vmS t' pstart []) ((post (t'.leave t.env.length)).andThen (loop cond body post j)) (g.To f) := by
        intro t' ht'
        rw [PState.leave_self (by rw [ht'.envLen, ht.envLen])]
        refine SSim.andThen ((hpost t' ht').mono (by omega)) ?_ ?_ ?_
        · rintro t2 m ⟨_, rfl, h2⟩
          exact ih (by omega) t2 h2
        · rintro t2 m ⟨h, _⟩; simp at h
        · rintro t2 m ⟨h, _⟩; simp at h
      have hbody' := (hbody { t with world := w } ht).mono (show j ≤ fuel by omega)
      rw [hgb] at hbody'
      refine SSim.bind (k := fun r => match r with
        | (s', .brk) => (s'.leave t.env.length, .normal)
        | (s', .normal) | (s', .cont) => (post (s'.leave t.env.length)).andThen (loop cond body post j)
        | r => r) hbody' (fun _ _ => rfl) (fun _ => rfl) ?_ ?_ ?_
      · rintro t' m ⟨rfl, h2⟩
        exact SSim.step' (hback t') (hnext t' h2)
      · rintro t' m ⟨rfl, h2⟩
        have h3 : (f.on t').Ok scs gs := h2.congr (by simp)
        simp only
        rw [PState.leave_self (by rw [h3.envLen, ht.envLen])]
        refine SSim.step' (step_brf hbrf hk) ?_
        rw [if_pos (by rfl)]
        exact SSim.normal ⟨by rw [hg3], by rw [hg1, hg2]; exact h3⟩
      · rintro t' m ⟨rfl, h2⟩
        exact hnext t' (h2.congr (by simp))

theorem EnvRepL.cons {x : Name} {z : BitVec 64} {sc : Scope} {env : LEnv} (h : EnvRepL ((x, z) :: sc) env) :
    ∃ v env', env = (x, v) :: env' ∧ EnvRepL sc env' := by
  cases env with
  | nil => simp [EnvRepL] at h
  | cons q env' => obtain ⟨y, v⟩ := q; obtain ⟨rfl, _, h⟩ := h; exact ⟨v, env', rfl, h⟩

/-- Leaving the scope of one variable. -/
theorem Frame.Ok.undeclare {f : Frame} {t : PState W} {scs scs' : List Scope} {gs : Scope} {x : Name} {z : BitVec 64}
    (h : (f.on t).Ok scs' gs) (hs : scs'.flatten = (x, z) :: scs.flatten) :
    ∃ v env, t.env = (x, v) :: env ∧ (f.on { t with env := env }).Ok scs gs := by
  have hr := h.rep
  unfold EnvRep at hr
  rw [hs] at hr
  obtain ⟨v, env, h1, h2⟩ := hr.cons
  simp only [Frame.on] at h1
  refine ⟨v, env, h1, ⟨h2, h.fpEq, ?_, h.codeLen, h.KLen, h.defined, h.gEnd, ?_⟩⟩
  · have := h.small; simp only [Frame.on, h1, List.length_cons] at this ⊢; omega
  · intro q hq; exact h.envEnd q (by simp only [Frame.on, h1]; simp only [Frame.on] at hq; simp [hq])

/-- `for x <- coll`: `ITER_1` at `pstart`, the conditional jump, the store at `pstart + 10`, the body at `pstart + 12`; `ENDFOR`, `POP` at the end. -/
theorem loopIter_sem {f : Frame} {scs scs' : List Scope} {gs : Scope} {x : Name} {coll : Val} {body : PState W → SRes W}
    {pstart pback k fuel : Nat} {z : BitVec 64} {g : Target} (hP : P.NoEnd)
    (hs : scs'.flatten = (x, z) :: scs.flatten) (hz : z = BitVec.ofNat 64 (scopeLen scs)) (hlen : scopeLen scs + 1 ≤ 128) (hbelow : f.below = [])
    (hiter : At f.code pstart [Opc.ITER_1.byte])
    (hbrf : At f.code (pstart + 1) (Opc.BRF_8.byte :: bytes8 (BitVec.ofInt 64 k))) (hk : k < 2 ^ 63)
    (hstore : At f.code (pstart + 10) [Opc.LSTORE.byte, BitVec.ofNat 8 (scopeLen scs)])
    (hbody : ∀ (i : Nat) (t : PState W), (({ f with loops := (i, coll) :: f.loops } : Frame).on t).Ok scs' gs →
      SSim F P f.code f.K fuel (({ f with loops := (i, coll) :: f.loops } : Frame).vmS t (pstart + 12) []) (body t)
        ((⟨scs', gs, pback, pstart + 1, pstart, scs'.flatten⟩ : Target).To { f with loops := (i, coll) :: f.loops }))
    (hback : ∀ (i : Nat) (t : PState W), VM.step F P f.code f.K (({ f with loops := (i, coll) :: f.loops } : Frame).vmS t pback []) =
      .next (({ f with loops := (i, coll) :: f.loops } : Frame).vmS t pstart []))
    (hend : At f.code (pstart + 10 + k) [Opc.ENDFOR.byte, Opc.POP.byte])
    (hg1 : g.scopes = scs) (hg2 : g.globals = gs) (hg3 : g.p = pstart + 10 + k + 2) :
    ∀ j ≤ fuel, ∀ (i : Nat) (t : PState W) (u : Val), (f.on t).Ok scs gs →
      SSim F P f.code f.K j (({ f with loops := (i, coll) :: f.loops } : Frame).vmS t pstart [u]) (loopIter P x coll body j i t) (g.To f) := by
  intro j
  induction j with
  | zero =>
    intro _ i t u ht
    exact ⟨0, _, by omega, rfl, rfl, rfl, rfl⟩
  | succ j ih =>
    intro hj i t u ht
    have hlt : t.env.length = scopeLen scs := ht.envLen
    have hfp := ht.fpEq
    simp only [Frame.on, hbelow] at hfp
    -- the end of the loop
    have hfin : ∀ (i : Nat) (t' : PState W) (u : Val) (n : Nat), (f.on t').Ok scs gs →
        SSim F P f.code f.K n (({ f with loops := (i, coll) :: f.loops } : Frame).vmS t' (pstart + 10 + k) [u]) (t', .normal) (g.To f) := by
      intro i t' u n ht'
      refine SSim.step' (m' := f.vmS t' (pstart + 10 + k + 1) [u]) (step_endfor (c := [Opc.POP.byte]) hend) ?_
      refine SSim.step' (m' := f.vmS t' (pstart + 10 + k + 2) []) (step_pop (c := []) u hend.tail) ?_
      exact SSim.normal ⟨by rw [hg3], by rw [hg1, hg2]; exact ht'⟩
    simp only [loopIter]
    have hst := step_iter (F := F) (P := P) (K := f.K) (fp := f.fp) (loops := f.loops) (g := t.globals) (w := t.world) (out := t.out) (i := i) (v := coll)
      (st := [u] ++ (t.env.map Prod.snd ++ f.below)) (c := []) hiter (by simp [hbelow, stackSize]; omega)
    rcases hres : P.next t.world coll i with ⟨w, e | _ | ⟨v, i'⟩⟩
    · rw [hres] at hst
      exact SSim.err hst rfl rfl rfl
    · rw [hres] at hst
      refine SSim.step' (m' := ({ f with loops := (i, coll) :: f.loops } : Frame).vmS { t with world := w } (pstart + 1) [.bool false, u]) hst ?_
      refine SSim.step' (step_brf (f := { f with loops := (i, coll) :: f.loops }) hbrf hk) ?_
      rw [if_pos (by rfl)]
      refine (hfin i { t with world := w } u (j + 1) ht)
    · rw [hres] at hst
      have hv : v ≠ .end_ := hP.next _ _ _ _ _ _ hres
      refine SSim.step (n := j) (m' := ({ f with loops := (i', coll) :: f.loops } : Frame).vmS { t with world := w } (pstart + 1) [.bool true, v, u]) hst ?_
      refine SSim.step' (step_brf (f := { f with loops := (i', coll) :: f.loops }) hbrf hk) ?_
      rw [if_neg (by decide)]
      refine SSim.step' (m' := ({ f with loops := (i', coll) :: f.loops } : Frame).vmS { t with world := w, env := (x, v) :: t.env } (pstart + 12) []) ?_ ?_
      · have := step_lstore (F := F) (P := P) (K := f.K) (fp := f.fp) (loops := (i', coll) :: f.loops) (g := t.globals) (w := w) (out := t.out) (v := v)
          (st := [u] ++ (t.env.map Prod.snd ++ f.below)) (j := 0) (i := scopeLen scs) (by omega) hstore (by simp [hbelow] at hfp ⊢; omega) (by simp at hfp; omega)
        exact this
      · have hok : (({ f with loops := (i', coll) :: f.loops } : Frame).on ({ t with world := w, env := (x, v) :: t.env } : PState W)).Ok scs' gs := by
          have := Frame.Ok.declare (f := { f with loops := (i', coll) :: f.loops }) (t := { t with world := w }) (x := x) (v := v) (z := z) (scs := scs) (scs' := scs') (gs := gs)
            ⟨ht.rep, ht.fpEq, ht.small, ht.codeLen, ht.KLen, ht.defined, ht.gEnd, ht.envEnd⟩ (by rw [hz]; exact getIndex_ofNat (by omega)) hs hv (by simp; omega)
          exact this
        have hleave : ∀ (t' : PState W) (v' : Val) (env : LEnv), t'.env = (x, v') :: env → env.length = t.env.length → t'.leave t.env.length = { t' with env := env } := by
          intro t' v' env h1 h2
          simp [PState.leave, h1, h2]
        refine SSim.bind (k := fun r => match r with
          | (s', .brk) => (s'.leave t.env.length, .normal)
          | (s', .normal) | (s', .cont) => loopIter P x coll body j i' (s'.leave t.env.length)
          | r => r) ((hbody i' _ hok).mono (show j ≤ fuel by omega)) (fun _ _ => rfl) (fun _ => rfl) ?_ ?_ ?_
        · rintro t' m ⟨rfl, h2⟩
          obtain ⟨v', env, h3, h4⟩ := h2.undeclare hs
          have h5 : (f.on { t' with env := env }).Ok scs gs := ⟨h4.rep, h4.fpEq, h4.small, h4.codeLen, h4.KLen, h4.defined, h4.gEnd, h4.envEnd⟩
          simp only
          rw [hleave t' v' env h3 (by rw [hlt]; exact h5.envLen)]
          refine SSim.step' (hback i' t') ?_
          have := ih (by omega) i' { t' with env := env } v' h5
          simpa [Frame.vmS, Frame.vm, Frame.on, h3] using this
        · rintro t' m ⟨rfl, h2⟩
          obtain ⟨v', env, h3, h4⟩ := h2.undeclare (scs := scs) (x := x) (z := z) (by simpa using hs)
          have h5 : (f.on { t' with env := env }).Ok scs gs := ⟨h4.rep, h4.fpEq, h4.small, h4.codeLen, h4.KLen, h4.defined, h4.gEnd, h4.envEnd⟩
          simp only
          rw [hleave t' v' env h3 (by rw [hlt]; exact h5.envLen)]
          refine SSim.step' (step_brf (f := { f with loops := (i', coll) :: f.loops }) hbrf hk) ?_
          rw [if_pos (by rfl)]
          have := hfin i' { t' with env := env } v' j h5
          simpa [Frame.vmS, Frame.vm, Frame.on, h3] using this
        · rintro t' m ⟨rfl, h2⟩
          obtain ⟨v', env, h3, h4⟩ := h2.undeclare (scs := scs) (x := x) (z := z) (by simpa using hs)
          have h5 : (f.on { t' with env := env }).Ok scs gs := ⟨h4.rep, h4.fpEq, h4.small, h4.codeLen, h4.KLen, h4.defined, h4.gEnd, h4.envEnd⟩
          simp only
          rw [hleave t' v' env h3 (by rw [hlt]; exact h5.envLen)]
          have := ih (by omega) i' { t' with env := env } v' h5
          simpa [Frame.vmS, Frame.vm, Frame.on, h3] using this

/-! ## Errors stay -/

@[simp] theorem CState.branchBack_ok (s : CState) (i : Nat) : (s.branchBack i).ok = s.ok := rfl
@[simp] theorem CState.enterScope_ok (s : CState) : s.enterScope.ok = s.ok := rfl
@[simp] theorem CState.exitScope_ok (s : CState) : s.exitScope.ok = s.ok := by unfold CState.exitScope; split <;> rfl
@[simp] theorem CState.addCheckpoint_ok (s : CState) (i : Nat) : (s.addCheckpoint i).ok = s.ok := rfl
@[simp] theorem CState.rmCheckpoints_ok (s : CState) : s.rmCheckpoints.ok = s.ok := rfl
@[simp] theorem CState.validated_ok (s s' : CState) : (s.validated s').ok = s'.ok := rfl

theorem visitWhile_ok {c : Expr} {body post : CState → CState} {hp : Bool} {s : CState} (hb : ∀ s, (body s).ok = true → s.ok = true)
    (hq : ∀ s, (post s).ok = true → s.ok = true) (h : (visitWhile c body post hp s).ok = true) : s.ok = true := by
  unfold visitWhile at h
  split at h
  · cases hp
    · exact hb _ (by simpa using h)
    · have h2 := hq _ (show (post (s.validated (body s))).ok = true by simpa using h)
      exact hb _ (by simpa using h2)
  · simp only [CState.rmCheckpoints_ok, CState.patch_ok, CState.branchBack_ok] at h
    have h2 := visitExpr_ok c _ (by simpa using hb _ h)
    cases hp
    · simpa using h2
    · have h3 := hq (s.jump .BR_8) (by simpa using h2)
      simpa using h3

mutual
theorem visitStmt_ok : ∀ (st : Stmt) (s : CState), (visitStmt st s).ok = true → s.ok = true
  | .expr e, s, h => by
    simp only [visitStmt] at h
    split at h
    · exact h
    · split at h
      · exact visitExpr_ok e s (by simpa using h)
      · exact visitExpr_ok e s (by simpa using h)
  | .post st, s, h => by
    have hp : (visitStmt (.post st) s).ok = (visitStmt st s).ok := by cases st <;> simp only [visitStmt, CState.op_ok]
    exact visitStmt_ok st s (by rw [← hp]; exact h)
  | .decl ls rs, s, h => visitExprs_ok rs s (visitLVals_ok ls _ (by simpa only [visitStmt] using h))
  | .letOne x e, s, h => by
    simp only [visitStmt] at h
    split at h
    · simp at h
    · split at h
      · exact visitExpr_ok e s (CState.declVar_ok h)
      · exact visitExpr_ok e s (CState.declVar_ok (CState.storeVar_ok h))
  | .assign x e, s, h => by
    simp only [visitStmt] at h
    split at h
    · simp at h
    · exact visitExpr_ok e s (CState.storeVar_ok h)
  | .set c k v, s, h => visitExpr_ok c _ (visitExpr_ok k _ (visitExpr_ok v _ (by simpa [visitStmt] using h)))
  | .echo e, s, h => visitExpr_ok e s (by simpa [visitStmt] using h)
  | .assert e, s, h => visitExpr_ok e s (by simpa [visitStmt] using h)
  | .block ss, s, h => visitStmts_ok ss s.enterScope (by simpa [visitStmt] using h)
  | .ifThen c t, s, h => by
    simp only [visitStmt] at h
    split at h
    · exact visitStmt_ok t s h
    · split at h
      · exact visitStmt_ok t s (by simpa using h)
      · exact visitExpr_ok c s (by simpa using visitStmt_ok t ((visitExpr c s).jump .BRF_8) (by simpa using h))
  | .ifElse c t e, s, h => by
    simp only [visitStmt] at h
    split at h
    · exact visitStmt_ok t s (visitStmt_ok e _ (by simpa using h))
    · split at h
      · exact visitStmt_ok t s (by simpa using visitStmt_ok e _ h)
      · have h2 := visitStmt_ok e _ (by simpa using h)
        have h3 := visitStmt_ok t _ (by simpa using h2)
        exact visitExpr_ok c s (by simpa using h3)
  | .while_ c body, s, h => visitWhile_ok (visitStmt_ok body) (post := id) (fun _ h => h) (by simpa only [visitStmt] using h)
  | .forLoop c body post, s, h => visitWhile_ok (visitStmt_ok body) (visitStmt_ok post) (by simpa only [visitStmt] using h)
  | .forIter x coll body, s, h => by
    simp only [visitStmt, CState.rmCheckpoints_ok, CState.exitScope_ok, CState.op_ok, CState.patch_ok, CState.branchBack_ok] at h
    have h2 := CState.storeVar_ok (visitStmt_ok body _ h)
    simp only [CState.jump_ok, CState.addCheckpoint_ok, CState.op_ok] at h2
    have h3 := CState.declVar_ok h2
    exact visitExpr_ok coll s.enterScope (by simpa using h3)
  | .brk, s, h => by
    simp only [visitStmt] at h
    split at h
    · simp at h
    · simpa using h
  | .cont, s, h => by
    simp only [visitStmt] at h
    split at h
    · simp at h
    · simpa using h
theorem visitStmts_ok : ∀ (ss : Stmts) (s : CState), (visitStmts ss s).ok = true → s.ok = true
  | .nil, s, h => by simpa [visitStmts] using h
  | .cons st ss, s, h => visitStmt_ok st s (visitStmts_ok ss _ (by simpa [visitStmts] using h))
end

/-! ## Statements -/

variable (F P)

/-- Where the innermost loop goes on, in terms of the checkpoints. -/
def LoopAt (s : CState) (L base : Nat) (g : Target) : Prop :=
  s.checkpoints ≠ [] → (g.pb = base + s.checkpoints.getD 0 0 ∧ s.checkpoints.getD 0 0 ≤ s.buffer.length) ∧
    (g.pc = base + s.checkpoints.getD 1 0 ∧ s.checkpoints.getD 1 0 ≤ s.buffer.length) ∧ g.loop <:+ s.scopes.flatten ∧ g.loop.length = L

/-- The code `c` between `s` and `s'` does what `run` says. -/
def StmtSem (s s' : CState) (c : List Byte) (n L d : Nat) (run : Nat → PState W → SRes W) : Prop :=
  ∀ (f : Frame) (t : PState W) (base fuel : Nat) (g : Target), (f.on t).Ok s.scopes s.globals → t.env.length = n → f.loops.length = d →
    f.below = [] → s'.pool <+: f.K → At f.code (base + s.buffer.length) c → g.scopes = s'.scopes → g.globals = s.globals →
    g.p = base + s.buffer.length + c.length → LoopAt s L base g →
    SSim F P f.code f.K fuel (f.vmS t (base + s.buffer.length) []) (run fuel t) (g.To f)

def StmtSpec (st : Stmt) (s : CState) : Prop :=
  (visitStmt st s).ok = true → s.scopes ≠ [] → PoolOk s.globals s.pool → ∀ n L d, Fits st n L d →
    ∃ c ds, SExt s (visitStmt st s) c ds ∧ ds.length = st.declares ∧ StmtSem F P s (visitStmt st s) c n L d (fun fuel => exec F P fuel st)

variable {F P}

theorem validated_sext {s s' : CState} {c : List Byte} (h : SExt s s' c []) : SExt s (s.validated s') [] [] := by
  refine ⟨⟨?_, h.grow.pool, h.grow.globals, h.grow.ok⟩, h.checkpoints, h.2.2⟩
  simp [CState.validated, h.grow.buffer]

theorem LoopAt.ext {s s' : CState} {c : List Byte} {ds : Scope} {L base : Nat} {g : Target} (h : LoopAt s L base g) (hs : SExt s s' c ds) :
    LoopAt s' L base g := by
  intro hc
  rw [hs.checkpoints] at hc ⊢
  obtain ⟨⟨h1, h2⟩, ⟨h3, h4⟩, h5, h6⟩ := h hc
  have hb : s.buffer.length ≤ s'.buffer.length := by rw [hs.grow.buffer]; simp
  refine ⟨⟨h1, by omega⟩, ⟨h3, by omega⟩, ?_, h6⟩
  rw [hs.flatten]
  exact h5.trans (List.suffix_append _ _)

theorem expr_spec (hP : P.NoEnd) (e : Expr) (s : CState) : StmtSpec F P (.expr e) s := by
  intro hok hne hg n L d hF
  simp only [visitStmt] at hok ⊢
  simp only [Fits] at hF
  split at hok
  · rename_i hl
    rw [if_pos hl]
    refine ⟨[], [], (Ext.refl s).sext hne, rfl, ?_⟩
    intro f t base fuel g hf hn hd hb hK hA h1 h2 h3 h4
    have : exec F P fuel (.expr e) t = (t, .normal) := by
      cases e <;> simp [Expr.isLiteral] at hl <;> simp [exec, eval, withVal]
    simp only [this]
    exact SSim.normal ⟨by simp [h3], by rw [h1, h2]; exact hf⟩
  · rename_i hl
    rw [if_neg hl]
    split at hok
    · rename_i hv
      rw [if_pos hv]
      obtain ⟨c, hc1, hc2⟩ := visitExpr_spec (F := F) (P := P) hP e s (by simpa using hok) hg
      refine ⟨[], [], validated_sext (hc1.sext hne), rfl, ?_⟩
      intro f t base fuel g hf hn hd hb hK hA h1 h2 h3 h4
      have hs : (s.validated (visitExpr e s)).scopes = s.scopes := hc1.scopes
      cases e with
      | var x =>
        have hx : t.look x ≠ none := by
          simp only [visitExpr, CState.validated_ok, CState.loadVar] at hok
          unfold PState.look
          split at hok
          · rename_i z hz
            obtain ⟨_, _, u, _, _, _, _, h, _⟩ := hf.slot hz
            simp only [Frame.on] at h
            simp [h]
          · rename_i hz
            split at hok
            · rename_i hgx
              split
              · simp
              · exact hf.defined x hgx
            · simp at hok
        obtain ⟨v, hv⟩ := Option.ne_none_iff_exists'.1 hx
        have : exec F P fuel (.expr (.var x)) t = (t, .normal) := by simp [exec, eval, hv, withVal]
        simp only [this]
        exact SSim.normal ⟨by simp [h3], by rw [h1, h2, hs]; exact hf⟩
      | _ => simp [Expr.isVar] at hv
    · rename_i hv
      rw [if_neg hv]
      obtain ⟨c, hc1, hc2⟩ := visitExpr_spec (F := F) (P := P) hP e s (by simpa using hok) hg
      refine ⟨_, [], (hc1.trans (Ext.op _ .POP)).sext hne, rfl, ?_⟩
      intro f t base fuel g hf hn hd hb hK hA h1 h2 h3 h4
      simp only [exec]
      refine SSim.expr hc2 hf hK hA.left hF (by simp [hb, hn]) ?_ hP
      intro w v _ _
      refine SSim.step' (m' := f.vmS { t with world := w } (base + s.buffer.length + c.length + 1) []) (step_pop (c := []) v hA.right) ?_
      exact SSim.normal ⟨by rw [h3]; simp [Nat.add_assoc], by rw [h1, h2]; exact (hf.world w).congr (by rw [(Ext.op (visitExpr e s) .POP).scopes, hc1.scopes])⟩

theorem assign_spec (hP : P.NoEnd) (x : Name) (e : Expr) (s : CState) : StmtSpec F P (.assign x e) s := by
  intro hok hne hg n L d hF
  simp only [visitStmt] at hok ⊢
  split at hok
  · simp at hok
  rename_i hx
  rw [if_neg hx]
  simp only [Fits] at hF
  obtain ⟨c1, h1, h2⟩ := visitExpr_spec (F := F) (P := P) hP e s (CState.storeVar_ok hok) hg
  obtain ⟨c2, h3, h4⟩ := storeVar_spec (F := F) (P := P) _ x hok (h1.grow.poolOk hg)
  refine ⟨_, [], (h1.trans h3).sext hne, rfl, ?_⟩
  intro f t base fuel g hf hn hd hb hK hA e1 e2 e3 e4
  simp only [exec]
  refine SSim.expr h2 hf (h3.pool.trans hK) hA.left hF (by simp [hb, hn]) ?_ hP
  intro w v _ hv
  obtain ⟨h5, h6⟩ := h4 f { t with world := w } _ [] v (by rw [h1.scopes, h1.globals]; exact hf) (h3.pool.trans hK) hA.right hv
  refine SSim.step' h5 (SSim.normal ⟨by rw [e3]; simp [Nat.add_assoc], ?_⟩)
  rw [e1, e2, h3.scopes, ← h1.globals]; exact h6

theorem set_spec (hP : P.NoEnd) (a k v : Expr) (s : CState) : StmtSpec F P (.set a k v) s := by
  intro hok hne hg n L d hF
  simp only [visitStmt] at hok ⊢
  simp only [Fits] at hF
  have hok3 : (visitExpr v (visitExpr k (visitExpr a s))).ok = true := by simpa using hok
  have hok2 := visitExpr_ok _ _ hok3
  obtain ⟨c1, h1, s1⟩ := visitExpr_spec (F := F) (P := P) hP a s (visitExpr_ok _ _ hok2) hg
  obtain ⟨c2, h2, s2⟩ := visitExpr_spec (F := F) (P := P) hP k _ hok2 (h1.grow.poolOk hg)
  obtain ⟨c3, h3, s3⟩ := visitExpr_spec (F := F) (P := P) hP v _ hok3 ((h1.trans h2).grow.poolOk hg)
  rw [h2.scopes, h2.globals, h1.scopes, h1.globals] at s3
  rw [h1.scopes, h1.globals] at s2
  refine ⟨_, [], (((h1.trans h2).trans h3).trans (Ext.op _ .SET)).sext hne, rfl, ?_⟩
  intro f t base fuel g hf hn hd hb hK hA e1 e2 e3 e4
  simp only [exec]
  refine SSim.expr s1 hf (h2.pool.trans (h3.pool.trans hK)) hA.left.left.left hF.1 (by simp [hb, hn]) ?_ hP
  intro w1 x1 _ _
  refine SSim.expr (t := { t with world := w1 }) s2 hf (h3.pool.trans hK) hA.left.left.right hF.2.1 (by simp [hb, hn]; omega) ?_ hP
  intro w2 x2 _ _
  refine SSim.expr (t := { t with world := w2 }) s3 hf hK (hA.left.right.cast (by simp [Nat.add_assoc])) hF.2.2 (by simp [hb, hn]; omega) ?_ hP
  intro w3 x3 _ _
  have hset := step_set (F := F) (P := P) (K := f.K) (fp := f.fp) (loops := f.loops) (g := t.globals) (w := w3) (out := t.out) (a := x1) (k := x2) (v := x3)
    (st := t.env.map Prod.snd ++ f.below) (hA.right.cast (q := base + s.buffer.length + c1.length + c2.length + c3.length) (by simp [Nat.add_assoc]))
  simp only
  rcases hres : P.set w3 x1 x2 x3 with ⟨w4, e | u⟩
  · rw [hres] at hset
    exact SSim.err hset rfl rfl rfl
  · rw [hres] at hset
    refine SSim.step' hset (SSim.normal ⟨?_, ?_⟩)
    · rw [e3]; simp [Frame.vmS, Frame.vm, Frame.on]; omega
    · rw [e1, e2]; exact (hf.world w4).congr (by rw [(((h1.trans h2).trans h3).trans (Ext.op _ .SET)).scopes])

theorem echo_spec (hP : P.NoEnd) (e : Expr) (s : CState) : StmtSpec F P (.echo e) s := by
  intro hok hne hg n L d hF
  simp only [visitStmt] at hok ⊢
  simp only [Fits] at hF
  obtain ⟨c1, h1, s1⟩ := visitExpr_spec (F := F) (P := P) hP e s (by simpa using hok) hg
  have hx := (h1.trans (Ext.op _ .ECHO)).trans (Ext.emit _ (BitVec.ofNat 8 (scopeLen (visitExpr e s).scopes)))
  refine ⟨_, [], hx.sext hne, rfl, ?_⟩
  intro f t base fuel g hf hn hd hb hK hA e1 e2 e3 e4
  simp only [exec]
  refine SSim.expr s1 hf hK hA.left.left hF (by simp [hb, hn]) ?_ hP
  intro w1 x1 _ _
  rw [List.append_assoc] at hA
  have hst := step_echo (F := F) (P := P) (K := f.K) (fp := f.fp) (loops := f.loops) (g := t.globals) (w := w1) (out := t.out) (v := x1) (c := [])
    (st := t.env.map Prod.snd ++ f.below) hA.right
  simp only
  rcases hres : P.tostr w1 x1 with ⟨w4, e | u⟩
  · rw [hres] at hst
    exact SSim.err hst rfl rfl rfl
  · rw [hres] at hst
    refine SSim.step' hst (SSim.normal ⟨?_, ?_⟩)
    · rw [e3]; simp [Frame.vmS, Frame.vm, Frame.on]; omega
    · rw [e1, e2, hx.scopes]
      exact ⟨hf.rep, hf.fpEq, hf.small, hf.codeLen, hf.KLen, hf.defined, hf.gEnd, hf.envEnd⟩

theorem assert_spec (hP : P.NoEnd) (e : Expr) (s : CState) : StmtSpec F P (.assert e) s := by
  intro hok hne hg n L d hF
  simp only [visitStmt] at hok ⊢
  simp only [Fits] at hF
  obtain ⟨c1, h1, s1⟩ := visitExpr_spec (F := F) (P := P) hP e s (by simpa using hok) hg
  have hx := h1.trans (Ext.op _ .ASS)
  refine ⟨_, [], hx.sext hne, rfl, ?_⟩
  intro f t base fuel g hf hn hd hb hK hA e1 e2 e3 e4
  simp only [exec]
  refine SSim.expr s1 hf hK hA.left hF (by simp [hb, hn]) ?_ hP
  intro w1 x1 _ _
  have hst := step_assert (F := F) (P := P) (K := f.K) (fp := f.fp) (loops := f.loops) (g := t.globals) (w := w1) (out := t.out) (v := x1) (c := [])
    (st := t.env.map Prod.snd ++ f.below) hA.right
  by_cases hv : x1.falsey
  · rw [if_pos hv] at hst ⊢
    simp only
    rcases hres : P.tostr w1 x1 with ⟨w4, e | u⟩
    · rw [hres] at hst
      exact SSim.err hst rfl rfl rfl
    · rw [hres] at hst
      exact SSim.err hst rfl rfl rfl
  · rw [if_neg hv] at hst ⊢
    refine SSim.step' hst (SSim.normal ⟨?_, ?_⟩)
    · rw [e3]; simp [Frame.vmS, Frame.vm, Frame.on]; omega
    · rw [e1, e2, hx.scopes]; exact hf.world w1

theorem decl_spec (hP : P.NoEnd) (ls : List LVal) (rs : Exprs) (s : CState) : StmtSpec F P (.decl ls rs) s := by
  intro hok hne hg n L d hF
  simp only [visitStmt] at hok ⊢
  simp only [Fits] at hF
  obtain ⟨hF1, hF2, hF3, hF4⟩ := hF
  obtain ⟨c1, h1, s1⟩ := visitExprs_spec (F := F) (P := P) hP rs s (visitLVals_ok _ _ hok) hg
  obtain ⟨c2, ds, h2, h3, h4⟩ := visitLVals_spec (F := F) (P := P) hP ls _ hok (by rw [h1.scopes]; exact hne) (h1.grow.poolOk hg)
  refine ⟨_, _, (h1.sext hne).trans h2, by simpa [Stmt.declares] using h3, ?_⟩
  intro f t base fuel g hf hn hd hb hK hA e1 e2 e3 e4
  simp only [exec]
  have := s1 (f.on t) (base + s.buffer.length) [] t.world hf (h2.grow.prefix.trans hK) hA.left hF2
    (by simp only [Frame.Room, Frame.on, hb, stackLimit, stackSize, List.length_nil] at hF3 ⊢; omega)
  refine SSim.value this rfl rfl ?_
  intro w vs hvs
  have hlen : vs.length = rs.length := by
    have : ∀ (es : Exprs) (w w' : W) (vs : List Val), evalAll F P (f.on t).look es w = (w', .ok vs) → vs.length = es.length := by
      intro es
      induction es using Exprs.rec (motive_1 := fun _ => True) with
      | nil => intro w w' vs h; simp [evalAll] at h; simp [h.2, Exprs.length]
      | cons e es _ ih =>
        intro w w' vs h
        obtain ⟨w1, u, h1, h2⟩ := PRes.bind_eq_ok (by simpa only [evalAll] using h)
        obtain ⟨w2, us, h3, h4⟩ := PRes.bind_eq_ok h2
        simp only [Prod.mk.injEq, Except.ok.injEq] at h4
        rw [← h4.2]
        simp [Exprs.length, ih _ _ _ h3]
      | _ => trivial
    exact this rs _ _ _ hvs
  have := h4 f { t with world := w } (base + s.buffer.length + c1.length) vs fuel g (by rw [h1.scopes, h1.globals]; exact hf) hb hK hA.right
    (evalAll_noEnd hP hf.look_noEnd rs _ _ _ hvs) (by omega) (by rw [hlen]; simpa [hn] using hF4) e1 (by rw [e2, h1.globals]) (by rw [e3]; simp [Nat.add_assoc])
  simpa [Frame.vmS, Frame.vm, Frame.on] using this

theorem letOne_spec (hP : P.NoEnd) (x : Name) (e : Expr) (s : CState) : StmtSpec F P (.letOne x e) s := by
  intro hok hne hg n L d hF
  simp only [visitStmt] at hok ⊢
  simp only [Fits, maxLocals] at hF
  split at hok
  · simp at hok
  rename_i hx
  rw [if_neg hx]
  have hok1 : ((visitExpr e s).declVar x).ok = true := by
    split at hok
    · exact hok
    · exact CState.storeVar_ok hok
  obtain ⟨c1, h1, s1⟩ := visitExpr_spec (F := F) (P := P) hP e s (CState.declVar_ok hok1) hg
  have hcur : (visitExpr e s).containsCur x = false := by
    have : (visitExpr e s).containsCur x = s.containsCur x := by simp [CState.containsCur, h1.scopes, h1.globals]
    rw [this]; simpa using hx
  have h0 := declVar_spec (visitExpr e s) x (by rw [h1.scopes]; exact hne) hcur hok1
  have hsome : (scopeGet ((visitExpr e s).declVar x).scopes x).isSome := by
    rw [scopeGet_flatten, h0.flatten]; simp [Scope.get]
  rw [if_pos hsome]
  refine ⟨_, _, (h1.sext hne).trans h0, by simp [Stmt.declares], ?_⟩
  intro f t base fuel g hf hn hd hb hK hA e1 e2 e3 e4
  simp only [exec]
  refine SSim.expr s1 hf (h0.grow.prefix.trans hK) hA.left hF.1 (by simp [hb, hn]) ?_ hP
  intro w v _ hv
  refine SSim.normal ⟨?_, ?_⟩
  · rw [e3]; simp [Frame.vmS, Frame.vm, Frame.on]
  · rw [e1, e2]
    have hl := hf.envLen
    exact Frame.Ok.declare (scs := s.scopes) (hf.world w) (z := BitVec.ofNat 64 (scopeLen (visitExpr e s).scopes))
      (by rw [h1.scopes]; exact getIndex_ofNat (by omega)) (by rw [h0.flatten, h1.scopes]; rfl) hv (by rw [← hn] at hF; exact hF.2)

end
end Yasl
