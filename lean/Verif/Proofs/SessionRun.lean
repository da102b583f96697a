import Verif.Proofs.Session
set_option autoImplicit false
/-! # Texts at the prompt do what they mean -/
namespace Yasl

section
variable {W : Type} {F : FloatOps} {P : Prims W}

theorem evalAll_count {look : Name → Option Val} : ∀ (es : Exprs) (w w' : W) (vs : List Val), evalAll F P look es w = (w', .ok vs) → vs.length = es.length := by
  intro es
  induction es using Exprs.rec (motive_1 := fun _ => True) with
  | nil => intro w w' vs h; simp [evalAll] at h; simp [h.2, Exprs.length]
  | cons e es _ ih =>
    intro w w' vs h
    obtain ⟨w1, u, h1, h2⟩ := PRes.bind_eq_ok (by simpa only [evalAll] using h)
    obtain ⟨w2, us, h3, h4⟩ := PRes.bind_eq_ok h2
    simp only [Prod.mk.injEq, Except.ok.injEq] at h4
    rw [← h4.2]
    simp [Exprs.length, ih _ _ _ h3]
  | _ => trivial

/-- What a piece of code at the prompt does: outside of blocks before and after. -/
structure PSpec (s s' : CState) (c : List Byte) : Prop where
  buffer : s'.buffer = s.buffer ++ c
  pool : s.pool <+: s'.pool
  scopes : s'.scopes = []
  checkpoints : s'.checkpoints = s.checkpoints
  poolOk : PoolOk s'.globals s'.pool

/-- Where a piece of code at the prompt ends. -/
def AtPrompt (f : Frame) (gs : Scope) (p : Nat) (sig : Sig) (t : PState W) (m : VM W) : Prop :=
  sig = .normal ∧ m = f.vmS t p [] ∧ t.env = [] ∧ (f.on t).Ok [[]] gs

theorem Frame.Ok.global {f : Frame} {t : PState W} {gs gs' : Scope} {x : Name} {v : Val} (h : (f.on t).Ok [[]] gs) (hv : v ≠ .end_)
    (hg : ∀ y, gs'.get y ≠ none → y = x ∨ gs.get y ≠ none) :
    (f.on { t with globals := fun y => if y = x then some v else t.globals y }).Ok [[]] gs' := by
  refine ⟨h.rep, h.fpEq, h.small, h.codeLen, h.KLen, ?_, ?_, h.envEnd⟩
  · intro y hy
    simp only [Frame.on]
    split
    · simp
    · rename_i hne
      rcases hg y hy with rfl | h'
      · exact absurd rfl hne
      · exact h.defined y h'
  · intro y u hu
    simp only [Frame.on] at hu
    split at hu
    · simp at hu; rw [← hu]; exact hv
    · exact h.gEnd y u hu

theorem storeVar_pool (s : CState) (x : Name) : (s.storeVar x).pool = s.pool := by
  unfold CState.storeVar
  split
  · split <;> rfl
  · split
    · split <;> rfl
    · rfl

theorem makeConst_global (s : CState) (x : Name) : (s.makeConst x).ok = s.ok ∧ (s.makeConst x).buffer = s.buffer ∧ (s.makeConst x).pool = s.pool ∧
    (s.scopes = [] → (s.makeConst x).scopes = []) ∧ (s.makeConst x).checkpoints = s.checkpoints ∧
    (s.scopes = [] → ∀ y, (s.makeConst x).globals.get y ≠ none → s.globals.get y ≠ none) := by
  unfold CState.makeConst
  cases hs : s.scopes with
  | cons sc scs => exact ⟨rfl, rfl, rfl, fun h => (by cases h), rfl, fun h => (by cases h)⟩
  | nil =>
    cases hx : s.globals.get x with
    | none => exact ⟨rfl, rfl, rfl, fun _ => hs, rfl, fun _ y h => h⟩
    | some v =>
      refine ⟨rfl, rfl, rfl, fun _ => rfl, rfl, fun _ y h => ?_⟩
      rcases Scope.get_put_ne h with rfl | h
      · rw [hx]; simp
      · exact h

/-- A new global variable with the value at the bottom of the stack. -/
theorem declGlobal_spec (s : CState) (x : Name) (hs : s.scopes = []) (hg : PoolOk s.globals s.pool)
    (hok : ((((s.declVar x).op .MOVEUP_FP).emit 0).storeVar x).ok = true) :
    ∃ c, PSpec s ((((s.declVar x).op .MOVEUP_FP).emit 0).storeVar x) c ∧
      (∀ y, ((((s.declVar x).op .MOVEUP_FP).emit 0).storeVar x).globals.get y ≠ none → y = x ∨ s.globals.get y ≠ none) ∧
      ∀ (f : Frame) (t : PState W) (p n : Nat) (v : Val) (vs : List Val) (r : SRes W) (T : Sig → PState W → VM W → Prop), (f.on t).Ok [[]] s.globals → t.env = [] →
        f.below = [] → (s.declVar x).pool <+: f.K → At f.code p c → v ≠ .end_ →
        SSim F P f.code f.K n (f.vmS { t with globals := fun y => if y = x then some v else t.globals y } (p + c.length) vs.reverse) r T →
        SSim F P f.code f.K n (f.vmS t p (v :: vs).reverse) r T := by
  have hi := intern_spec s (.str x)
  have hd : s.declVar x = { (s.intern (.str x)).2 with globals := (s.intern (.str x)).2.globals.put x (BitVec.ofNat 64 (s.intern (.str x)).2.globals.length) } := by
    unfold CState.declVar; rw [hs]
  have hm : Val.str x ∈ (s.intern (.str x)).2.pool := List.mem_of_getElem? hi.2
  have hgl : ∀ y, (s.declVar x).globals.get y ≠ none → y = x ∨ s.globals.get y ≠ none := by
    intro y hy
    rw [hd] at hy
    rcases Scope.get_put_ne hy with h | h
    · exact .inl h
    · right; rw [← hi.1.globals]; exact h
  have hpool : (s.declVar x).pool = (s.intern (.str x)).2.pool := by rw [hd]
  have hpo : PoolOk (s.declVar x).globals (s.declVar x).pool := by
    intro y hy
    rw [hpool]
    rcases hgl y hy with rfl | h
    · exact hm
    · exact hi.1.pool.subset (hg y h)
  have hsc : (s.declVar x).scopes = [] := by rw [hd]; show (s.intern (.str x)).2.scopes = []; rw [hi.1.scopes, hs]
  obtain ⟨i, hi1, hi2⟩ := nameIndex_spec (s := ((s.declVar x).op .MOVEUP_FP).emit 0) (x := x) (by show Val.str x ∈ (s.declVar x).pool; rw [hpool]; exact hm)
  have hst : (((s.declVar x).op .MOVEUP_FP).emit 0).storeVar x = ((((s.declVar x).op .MOVEUP_FP).emit 0).op .GSTORE_8).int (BitVec.ofNat 64 i) := by
    unfold CState.storeVar at hok ⊢
    rw [show (((s.declVar x).op .MOVEUP_FP).emit 0).scopes = [] from hsc] at hok ⊢
    simp only [scopeGet] at hok ⊢
    cases hx : (((s.declVar x).op .MOVEUP_FP).emit 0).globals.get x with
    | none => rw [hx] at hok; simp at hok
    | some z =>
      rw [hx] at hok
      simp only at hok ⊢
      split at hok
      · simp at hok
      rename_i hc
      rw [if_neg hc, hi1]
  rw [hst]
  refine ⟨[Opc.MOVEUP_FP.byte, 0] ++ (Opc.GSTORE_8.byte :: bytes8 (BitVec.ofNat 64 i)), ⟨?_, ?_, hsc, ?_, hpo⟩, hgl, ?_⟩
  · simp only [CState.op, CState.emit, CState.int, hd]
    simp [hi.1.grow.buffer]
  · show s.pool <+: (s.declVar x).pool; rw [hpool]; exact hi.1.pool
  · show (s.declVar x).checkpoints = _; rw [hd]; exact hi.1.checkpoints
  · intro f t p n v vs r T hf ht hb hK hA hv hk
    have hfp := hf.fpEq
    have hst1 : (f.vmS t p (v :: vs).reverse : VM W) = ⟨p, vs.reverse ++ [v], f.fp, f.loops, t.globals, t.world, t.out⟩ := by
      simp [Frame.vmS, Frame.vm, Frame.on, ht, hb]
    rw [hst1]
    refine SSim.step' (step_moveup (i := 0) (j := vs.length) (v := v) (by omega) hA.left (by simp [Frame.on, hb] at hfp ⊢; omega)
      (by simp [Frame.on, hb] at hfp; omega) (by rw [List.getElem?_append_right (by simp)]; simp)) ?_
    have he : (vs.reverse ++ [v]).eraseIdx vs.length = vs.reverse := by
      rw [List.eraseIdx_append_of_length_le (by simp)]; simp
    rw [he]
    have hKi : f.K[i]? = some (.str x) := prefix_get hK hi2
    refine SSim.step' (step_gstore (i := i) (x := x) (by have := get_lt hKi; have := hf.KLen; simp only [Frame.on] at this; omega) hA.right hKi) ?_
    have hst2 : (f.vmS { t with globals := fun y => if y = x then some v else t.globals y }
        (p + ([Opc.MOVEUP_FP.byte, 0] ++ (Opc.GSTORE_8.byte :: bytes8 (BitVec.ofNat 64 i))).length) vs.reverse : VM W) =
        ⟨p + 2 + 9, vs.reverse, f.fp, f.loops, fun y => if y = x then some v else t.globals y, t.world, t.out⟩ := by
      simp [Frame.vmS, Frame.vm, Frame.on, ht, hb]
    rw [hst2] at hk
    exact hk

theorem bindGlobals_spec : ∀ (ls : List LVal) (xs : List Name) (s : CState), declared ls = some xs → (visitLVals ls s).ok = true → s.scopes = [] → PoolOk s.globals s.pool →
    ∃ c, PSpec s (visitLVals ls s) c ∧
      ∀ (f : Frame) (t : PState W) (p n : Nat) (vs : List Val), (f.on t).Ok [[]] s.globals → t.env = [] → f.below = [] →
        (visitLVals ls s).pool <+: f.K → At f.code p c → (∀ v ∈ vs, v ≠ .end_) → vs.length = xs.length →
        SSim F P f.code f.K n (f.vmS t p vs.reverse) (bindGlobals xs vs t, .normal) (AtPrompt f (visitLVals ls s).globals (p + c.length))
  | [], xs, s, hd, hok, hs, hg => by
    simp only [declared, Option.some.injEq] at hd
    subst hd
    refine ⟨[], ⟨by simp [visitLVals], List.prefix_rfl, hs, rfl, hg⟩, ?_⟩
    intro f t p n vs hf ht hb hK hA hvs hl
    have : vs = [] := by simpa using hl
    subst this
    exact SSim.normal ⟨rfl, by simp [bindGlobals], ht, hf⟩
  | .let_ x :: ls, xs, s, hd, hok, hs, hg => by
    simp only [declared, Option.map_eq_some_iff] at hd
    obtain ⟨ys, hd, rfl⟩ := hd
    simp only [visitLVals] at hok ⊢
    split at hok
    · simp at hok
    rename_i hx
    rw [if_neg hx]
    have hsc : (s.declVar x).scopes = [] := by
      unfold CState.declVar; rw [hs]; show (s.intern (.str x)).2.scopes = []; rw [(intern_spec s (.str x)).1.scopes, hs]
    rw [if_pos hsc] at hok ⊢
    obtain ⟨c1, h1, hgl, hsim⟩ := declGlobal_spec (F := F) (P := P) s x hs hg (visitLVals_ok ls _ hok)
    obtain ⟨c2, h2, hsim2⟩ := bindGlobals_spec ls ys _ hd hok h1.scopes h1.poolOk
    refine ⟨c1 ++ c2, ⟨by rw [h2.buffer, h1.buffer, List.append_assoc], h1.pool.trans h2.pool, h2.scopes, h2.checkpoints.trans h1.checkpoints, h2.poolOk⟩, ?_⟩
    intro f t p n vs hf ht hb hK hA hvs hl
    cases vs with
    | nil => simp at hl
    | cons v vs =>
      simp only [bindGlobals]
      refine hsim f t p n v vs _ _ hf ht hb (List.IsPrefix.trans ?_ (h2.pool.trans hK)) hA.left (hvs v (by simp)) ?_
      · rw [(show (((((s.declVar x).op .MOVEUP_FP).emit 0).storeVar x)).pool = (s.declVar x).pool from storeVar_pool _ _)]; exact List.prefix_rfl
      · have := hsim2 f { t with globals := fun y => if y = x then some v else t.globals y } (p + c1.length) n vs (hf.global (hvs v (by simp)) hgl) ht hb hK hA.right
          (fun u hu => hvs u (by simp [hu])) (by simpa using hl)
        simpa [Nat.add_assoc] using this
  | .const_ x :: ls, xs, s, hd, hok, hs, hg => by
    simp only [declared, Option.map_eq_some_iff] at hd
    obtain ⟨ys, hd, rfl⟩ := hd
    simp only [visitLVals] at hok ⊢
    split at hok
    · simp at hok
    rename_i hx
    rw [if_neg hx]
    have hsc : (s.declVar x).scopes = [] := by
      unfold CState.declVar; rw [hs]; show (s.intern (.str x)).2.scopes = []; rw [(intern_spec s (.str x)).1.scopes, hs]
    rw [if_pos hsc] at hok ⊢
    have hmk := makeConst_global ((((s.declVar x).op .MOVEUP_FP).emit 0).storeVar x) x
    obtain ⟨c1, h1, hgl, hsim⟩ := declGlobal_spec (F := F) (P := P) s x hs hg (hmk.1 ▸ visitLVals_ok ls _ hok)
    obtain ⟨hm1, hm2, hm3, hm4, hm5, hm6⟩ := hmk
    replace hm4 := hm4 h1.scopes
    replace hm6 := hm6 h1.scopes
    obtain ⟨c2, h2, hsim2⟩ := bindGlobals_spec ls ys _ hd hok hm4 (by
      intro y hy
      rw [hm3]
      exact h1.poolOk y (hm6 y hy))
    refine ⟨c1 ++ c2, ⟨by rw [h2.buffer, hm2, h1.buffer, List.append_assoc], h1.pool.trans (hm3 ▸ h2.pool), h2.scopes, h2.checkpoints.trans (hm5.trans h1.checkpoints), h2.poolOk⟩, ?_⟩
    intro f t p n vs hf ht hb hK hA hvs hl
    cases vs with
    | nil => simp at hl
    | cons v vs =>
      simp only [bindGlobals]
      refine hsim f t p n v vs _ _ hf ht hb (List.IsPrefix.trans ?_ (h2.pool.trans hK)) hA.left (hvs v (by simp)) ?_
      · rw [hm3, (show (((((s.declVar x).op .MOVEUP_FP).emit 0).storeVar x)).pool = (s.declVar x).pool from storeVar_pool _ _)]; exact List.prefix_rfl
      · have := hsim2 f { t with globals := fun y => if y = x then some v else t.globals y } (p + c1.length) n vs
          (hf.global (hvs v (by simp)) (fun y hy => hgl y (hm6 y hy))) ht hb hK hA.right
          (fun u hu => hvs u (by simp [hu])) (by simpa using hl)
        simpa [Nat.add_assoc] using this
  | .assign x :: ls, xs, s, hd, hok, hs, hg => by simp [declared] at hd
  | .set c k :: ls, xs, s, hd, hok, hs, hg => by simp [declared] at hd

/-- A statement outside of blocks at the prompt. -/
theorem promptStmt_spec (hP : P.NoEnd) (st : Stmt) (s : CState) (hok : (visitStmt st s).ok = true) (hs : s.scopes = []) (hb : s.buffer = []) (hc : s.checkpoints = [])
    (hg : PoolOk s.globals s.pool) (hF : FitsPrompt st) :
    ∃ c, PSpec s (visitStmt st s) c ∧
      ∀ (f : Frame) (t : PState W) (base fuel : Nat), (f.on t).Ok [[]] s.globals → t.env = [] → f.loops = [] → f.below = [] →
        (visitStmt st s).pool <+: f.K → At f.code base c →
        SSim F P f.code f.K fuel (f.vmS t base []) (execPrompt F P fuel st t) (AtPrompt f (visitStmt st s).globals (base + c.length)) := by
  have plain : Fits st 0 0 0 ∧ st.declares = 0 → ∃ c, PSpec s (visitStmt st s) c ∧
      ∀ (f : Frame) (t : PState W) (base fuel : Nat), (f.on t).Ok [[]] s.globals → t.env = [] → f.loops = [] → f.below = [] →
        (visitStmt st s).pool <+: f.K → At f.code base c →
        SSim F P f.code f.K fuel (f.vmS t base []) (exec F P fuel st t) (AtPrompt f (visitStmt st s).globals (base + c.length)) := by
    rintro ⟨hF, hd⟩
    have hu := visitStmt_under st s 0 0 0 hF (.inr hd)
    have hsc : (visitStmt st s).scopes = [] := by have := hu.2; rw [hs] at this; exact List.length_eq_zero_iff.1 this
    obtain ⟨c, ds, h1, h2, h3⟩ := visitStmt_spec (F := F) (P := P) hP st s.under (by rw [hu.1]; exact hok) (by simp [CState.under]) hg 0 0 0 hF
    rw [hu.1] at h1
    have hds : (visitStmt st s).under.scopes = [[]] := by simp [CState.under, hsc]
    refine ⟨c, ⟨h1.grow.buffer, h1.grow.prefix, hsc, h1.checkpoints, h1.grow.poolOk hg⟩, ?_⟩
    intro f t base fuel hf ht hl hbe hK hA
    have hs' : ∀ pb pc, SSim F P f.code f.K fuel (f.vmS t base []) (exec F P fuel st t)
        ((⟨[[]], s.globals, base + c.length, pb, pc, []⟩ : Target).To f) := by
      intro pb pc
      have := h3 f t base fuel ⟨[[]], s.globals, base + c.length, pb, pc, []⟩ (by simpa [CState.under, hs] using hf) (by simp [ht]) (by simp [hl]) hbe
        (by rw [hu.1]; exact hK) (by simpa [CState.under, hb] using hA) (by rw [hu.1]; exact hds.symm) rfl (by simp [CState.under, hb])
        (by intro h; exact absurd hc h)
      simpa [CState.under, hb] using this
    have hnj := SSim.noJump hs'
    have h6 := hs' 0 0
    rcases hr : exec F P fuel st t with ⟨t', sig⟩
    rw [hr] at h6 hnj
    cases sig with
    | normal =>
      obtain ⟨k, m', hk, rfl, hf'⟩ := h6
      have he : t'.env = [] := by
        have := hf'.envLen
        simpa [Frame.on, scopeLen] using this
      exact ⟨k, _, hk, rfl, rfl, he, by rw [show (visitStmt st s).globals = s.globals from h1.grow.globals]; exact hf'⟩
    | brk => exact absurd rfl hnj.1
    | cont => exact absurd rfl hnj.2
    | err e => exact h6
    | timeout => exact h6
  cases st with
  | decl ls rs =>
    simp only [FitsPrompt] at hF
    cases hd : declared ls with
    | none =>
      rw [hd] at hF
      simp only [execPrompt, hd]
      exact plain hF
    | some xs =>
      rw [hd] at hF
      simp only [execPrompt, hd]
      simp only at hF
      simp only [visitStmt] at hok ⊢
      obtain ⟨c1, h1, s1⟩ := visitExprs_spec (F := F) (P := P) hP rs s (visitLVals_ok _ _ hok) hg
      obtain ⟨c2, h2, h4⟩ := bindGlobals_spec (F := F) (P := P) ls xs _ hd hok (h1.scopes.trans hs) (h1.grow.poolOk hg)
      refine ⟨c1 ++ c2, ⟨by rw [h2.buffer, h1.buffer, List.append_assoc], h1.pool.trans h2.pool, h2.scopes, h2.checkpoints.trans h1.checkpoints, h2.poolOk⟩, ?_⟩
      intro f t base fuel hf ht hl hbe hK hA
      have hf0 : (f.on t).Ok s.scopes s.globals := hf.congr (by simp [hs])
      have := s1 (f.on t) base [] t.world hf0 (h2.pool.trans hK) hA.left hF.2.1
        (by have := hF.2.2; simp only [Frame.Room, Frame.on, hbe, ht, stackLimit, stackSize, List.length_nil] at this ⊢; omega)
      refine SSim.value this rfl rfl ?_
      intro w vs hvs
      have hlen := evalAll_count rs _ _ _ hvs
      have := h4 f { t with world := w } (base + c1.length) fuel vs (by rw [h1.globals]; exact hf) ht hbe hK hA.right
        (evalAll_noEnd hP hf.look_noEnd rs _ _ _ hvs) (by rw [hlen, hF.1])
      simpa [Frame.vmS, Frame.vm, Frame.on, Nat.add_assoc] using this
  | _ => exact plain hF

variable (F P) in
/-- The statements of a line, without the printing of the last one. -/
def execPrompts (fuel : Nat) : Stmts → PState W → SRes W
  | .nil, s => (s, .normal)
  | .cons st ss, s => (execPrompt F P fuel st s).andThen (execPrompts fuel ss)

theorem andThen_normal (r : SRes W) : r.andThen (fun s => (s, .normal)) = r := by
  obtain ⟨t, sig⟩ := r
  cases sig <;> rfl

theorem execLine_echo (fuel : Nat) : ∀ (ss : Stmts) (s : PState W), execLine F P fuel ss s = execPrompts F P fuel ss.echoLast s
  | .nil, s => rfl
  | .cons (.expr e) .nil, s => by
    rw [execLine, Stmts.echoLast, execPrompts, show execPrompts F P fuel .nil = fun s => (s, .normal) from rfl, andThen_normal]
    rfl
  | .cons st .nil, s => by
    cases st <;> first | (rw [execLine, Stmts.echoLast, execPrompts] <;> first | rfl | (intro _ h; cases h) | (intro _ h _; cases h)) | skip
    rw [execLine, Stmts.echoLast, execPrompts, show execPrompts F P fuel .nil = fun s => (s, .normal) from rfl, andThen_normal]
    rfl
  | .cons st (.cons st2 ss), s => by
    have h1 : execLine F P fuel (.cons st (.cons st2 ss)) s = (execPrompt F P fuel st s).andThen (execLine F P fuel (.cons st2 ss)) := by
      rw [execLine]; intro _ _ h; cases h
    have h2 : (Stmts.cons st (.cons st2 ss)).echoLast = .cons st (Stmts.cons st2 ss).echoLast := by
      rw [Stmts.echoLast]; intro _ _ h; cases h
    rw [h1, h2, execPrompts, show execLine F P fuel (.cons st2 ss) = execPrompts F P fuel (Stmts.cons st2 ss).echoLast from
      funext fun s => execLine_echo fuel (.cons st2 ss) s]

theorem fitsLine_echo : ∀ (ss : Stmts), FitsLine ss → FitsLine ss.echoLast
  | .nil, h => h
  | .cons (.expr e) .nil, h => by
    simp only [Stmts.echoLast, FitsLine, FitsPrompt, Fits, Stmt.declares] at h ⊢
    exact h
  | .cons st .nil, h => by
    cases st <;> first | (rw [Stmts.echoLast] <;> first | exact h | (intro _ h; cases h) | (intro _ h _; cases h)) | skip
  | .cons st (.cons st2 ss), h => by
    have h2 : (Stmts.cons st (.cons st2 ss)).echoLast = .cons st (Stmts.cons st2 ss).echoLast := by
      rw [Stmts.echoLast]; intro _ _ h; cases h
    rw [h2]
    exact ⟨h.1, fitsLine_echo _ h.2⟩

/-- A line. -/
theorem promptAll_spec (hP : P.NoEnd) : ∀ (ss : Stmts) (s : CState) (code : List Byte), (compileAll ss s code).1.ok = true → s.scopes = [] → s.buffer = [] →
    s.checkpoints = [] → PoolOk s.globals s.pool → FitsLine ss →
    (s.pool <+: (compileAll ss s code).1.pool ∧ (compileAll ss s code).1.scopes = [] ∧ (compileAll ss s code).1.checkpoints = [] ∧
      PoolOk (compileAll ss s code).1.globals (compileAll ss s code).1.pool) ∧ ∃ c, (compileAll ss s code).2 = code ++ c ∧
      ∀ (f : Frame) (t : PState W) (base fuel : Nat), (f.on t).Ok [[]] s.globals → t.env = [] → f.loops = [] → f.below = [] →
        (compileAll ss s code).1.pool <+: f.K → At f.code base c →
        SSim F P f.code f.K fuel (f.vmS t base []) (execPrompts F P fuel ss t) (AtPrompt f (compileAll ss s code).1.globals (base + c.length))
  | .nil, s, code, hok, hs, hb, hc, hg, hF => by
    refine ⟨⟨List.prefix_rfl, hs, hc, hg⟩, [], by simp [compileAll], ?_⟩
    intro f t base fuel hf ht hl hbe hK hA
    exact SSim.normal ⟨rfl, by simp, ht, hf⟩
  | .cons st ss, s, code, hok, hs, hb, hc, hg, hF => by
    simp only [compileAll] at hok ⊢
    have hok1 := compileAll_ok ss _ _ hok
    obtain ⟨c1, h1, h3⟩ := promptStmt_spec (F := F) (P := P) hP st s hok1 hs hb hc hg hF.1
    have hbuf : (visitStmt st s).buffer = c1 := by rw [h1.buffer, hb]; rfl
    obtain ⟨⟨hpre, hrest⟩, c2, h4, h5⟩ := promptAll_spec hP ss { visitStmt st s with buffer := [] } (code ++ (visitStmt st s).buffer) hok h1.scopes rfl
      (h1.checkpoints.trans hc) h1.poolOk hF.2
    refine ⟨⟨h1.pool.trans hpre, hrest⟩, c1 ++ c2, by rw [h4, hbuf, List.append_assoc], ?_⟩
    intro f t base fuel hf ht hl hbe hK hA
    simp only [execPrompts]
    refine SSim.andThen (h3 f t base fuel hf ht hl hbe (hpre.trans hK) hA.left) ?_ (fun t m h => by cases h.1) (fun t m h => by cases h.1)
    rintro t' m ⟨-, rfl, he, hf'⟩
    have := h5 f t' (base + c1.length) fuel hf' he hl hbe hK hA.right
    simpa [Nat.add_assoc] using this

/-- A file, with the state of the compiler at its end. -/
theorem fileAll_spec (hP : P.NoEnd) : ∀ (ss : Stmts) (s : CState) (code : List Byte), (compileAll ss s code).1.ok = true → s.scopes ≠ [] →
    s.buffer = [] → s.checkpoints = [] → PoolOk s.globals s.pool → ∀ n, FitsAll ss n 0 0 →
    (s.pool <+: (compileAll ss s code).1.pool ∧ (compileAll ss s code).1.scopes.length = s.scopes.length ∧ (compileAll ss s code).1.checkpoints = [] ∧
      (compileAll ss s code).1.globals = s.globals ∧ (Quiet ss → scopeLen (compileAll ss s code).1.scopes = scopeLen s.scopes)) ∧ ∃ c, (compileAll ss s code).2 = code ++ c ∧
      ∀ (f : Frame) (t : PState W) (base fuel : Nat), (f.on t).Ok s.scopes s.globals → t.env.length = n → f.loops = [] → f.below = [] →
        (compileAll ss s code).1.pool <+: f.K → At f.code base c →
        SSim F P f.code f.K fuel (f.vmS t base []) (execAll F P fuel ss t)
          (fun sig t' m => sig = .normal ∧ m = f.vmS t' (base + c.length) [] ∧ (f.on t').Ok (compileAll ss s code).1.scopes s.globals)
  | .nil, s, code, hok, hne, hb, hc, hg, n, hF => by
    refine ⟨⟨List.prefix_rfl, rfl, hc, rfl, fun _ => rfl⟩, [], by simp [compileAll], ?_⟩
    intro f t base fuel hf hn hl hbe hK hA
    exact SSim.normal ⟨rfl, by simp, hf⟩
  | .cons st ss, s, code, hok, hne, hb, hc, hg, n, hF => by
    simp only [compileAll] at hok ⊢
    simp only [FitsAll] at hF
    have hok1 := compileAll_ok ss _ _ hok
    obtain ⟨c1, d1, h1, h2, h3⟩ := visitStmt_spec (F := F) (P := P) hP st s hok1 hne hg n 0 0 hF.1
    have hbuf : (visitStmt st s).buffer = c1 := by rw [h1.grow.buffer, hb]; rfl
    have hlen1 : (visitStmt st s).scopes.length = s.scopes.length := by
      obtain ⟨_, _, sc, scs, e1, e2⟩ := h1
      rw [e1, e2]; rfl
    obtain ⟨⟨hpre, hlen, hch, hgl, hqu⟩, c2, h4, h5⟩ := fileAll_spec hP ss { visitStmt st s with buffer := [] } (code ++ (visitStmt st s).buffer) hok h1.ne rfl
      (h1.checkpoints.trans hc) (h1.grow.poolOk hg) (n + st.declares) hF.2
    refine ⟨⟨h1.grow.prefix.trans hpre, hlen.trans hlen1, hch, hgl.trans h1.grow.globals, fun hq => (hqu hq.2).trans ?_⟩, c1 ++ c2, by rw [h4, hbuf, List.append_assoc], ?_⟩
    · have : d1 = [] := List.length_eq_zero_iff.1 (h2.trans hq.1.2)
      show scopeLen (visitStmt st s).scopes = _
      rw [scopeLen_flatten, h1.flatten, this, scopeLen_flatten]; rfl
    intro f t base fuel hf hn hl hbe hK hA
    simp only [execAll]
    have hs : ∀ pb pc, SSim F P f.code f.K fuel (f.vmS t base []) (exec F P fuel st t)
        ((⟨(visitStmt st s).scopes, s.globals, base + c1.length, pb, pc, []⟩ : Target).To f) := by
      intro pb pc
      have := h3 f t base fuel ⟨(visitStmt st s).scopes, s.globals, base + c1.length, pb, pc, []⟩ hf hn (by simp [hl]) hbe (hpre.trans hK)
        (by rw [hb]; exact hA.left) rfl rfl (by simp [hb]) (by intro h; exact absurd hc h)
      simpa [hb] using this
    have hnj := SSim.noJump hs
    have h6 := hs 0 0
    rcases hr : exec F P fuel st t with ⟨t', sig⟩
    rw [hr] at h6 hnj
    cases sig with
    | normal =>
      simp only [SRes.andThen]
      obtain ⟨k, m', hk, rfl, hf'⟩ := h6
      refine SSim.run hk ?_
      have hn' : t'.env.length = n + st.declares := by
        have := hf'.envLen
        simp only [Frame.on] at this
        rw [this, scopeLen_flatten, h1.flatten, List.length_append, ← scopeLen_flatten, ← hf.envLen, h2]; omega
      have := h5 f t' (base + c1.length) fuel (by simp only [h1.grow.globals]; exact hf') hn' hl hbe hK hA.right
      refine SSim.conseq this ?_
      rintro sig t2 m ⟨q1, q2, q3⟩
      exact ⟨q1, by rw [List.length_append, ← Nat.add_assoc]; exact q2, by rw [← h1.grow.globals]; exact q3⟩
    | brk => exact absurd rfl hnj.1
    | cont => exact absurd rfl hnj.2
    | err e => exact h6
    | timeout => exact h6

/-! ## Loading -/

/-- What `return_bytes` makes can be loaded. -/
theorem reload_spec (r : CState) (hh : r.HOk) (c lines image : List Byte) (hi : returnBytes r.header c lines r.pool.length = image) (hlen : image.length < 2 ^ 63) (m : VM W) :
    ∃ p, m.reload image = some ({ m with pc := p }, r.pool) ∧ At image p c ∧ At image (p + c.length) (Opc.HALT.byte :: lines) ∧ r.pool.length < 2 ^ 63 := by
  rw [returnBytes, hh.1] at hi
  generalize hhd : r.pool.flatMap headerEntry = hd at hi
  have hlen' : image.length = hd.length + 24 + c.length + 1 + lines.length := by rw [← hi]; simp; omega
  have hpl : r.pool.length ≤ hd.length := by rw [← hhd]; exact pool_le_header _ hh.2
  have hi1 : image = bytes8 (BitVec.ofNat 64 (hd.length + 24)) ++ (bytes8 (BitVec.ofNat 64 (c.length + (hd.length + 24) + 1)) ++
    (bytes8 (BitVec.ofNat 64 r.pool.length) ++ (hd ++ (c ++ ([Opc.HALT.byte] ++ lines))))) := by rw [← hi]; simp
  have hd16 : image.drop 16 = bytes8 (BitVec.ofNat 64 r.pool.length) ++ (hd ++ (c ++ ([Opc.HALT.byte] ++ lines))) := by
    rw [hi1, ← List.append_assoc, List.drop_left' (by simp)]
  have hd24 : image.drop 24 = hd ++ (c ++ ([Opc.HALT.byte] ++ lines)) := by
    rw [show 24 = 16 + 8 from rfl, ← List.drop_drop, hd16, List.drop_left' (by simp)]
  have hdc : image.drop (hd.length + 24) = c ++ ([Opc.HALT.byte] ++ lines) := by
    rw [Nat.add_comm, ← List.drop_drop, hd24, List.drop_left' (by simp)]
  refine ⟨hd.length + 24, ?_, ?_, ?_, by omega⟩
  · have h1 : readInt8 image = some (BitVec.ofNat 64 (hd.length + 24)) := by rw [hi1]; exact C19_int_roundtrip _ _
    have h2 : readInt8 (image.drop 16) = some (BitVec.ofNat 64 r.pool.length) := by rw [hd16]; exact C19_int_roundtrip _ _
    have h3 : (BitVec.ofNat 64 (hd.length + 24)).toNat = hd.length + 24 := by rw [BitVec.toNat_ofNat]; omega
    have h4 : (BitVec.ofNat 64 r.pool.length).toNat = r.pool.length := by rw [BitVec.toNat_ofNat]; omega
    simp only [VM.reload, h1, h2, h3, h4]
    rw [hd24, ← hhd, readConstants_pool _ hh.2 _ (by rw [hhd]; omega)]
    rfl
  · unfold At; rw [hdc]; exact List.prefix_append _ _
  · unfold At; rw [← List.drop_drop, hdc, List.drop_left' rfl]; exact List.prefix_rfl

/-- A state between two texts. -/
structure Session.Clean (s : Session W) : Prop where
  scopes : s.comp.scopes = []
  checkpoints : s.comp.checkpoints = []
  poolOk : PoolOk s.comp.globals s.comp.pool
  hok : s.comp.HOk
  stack : s.vm.stack = []
  fp : s.vm.fp = -1
  loops : s.vm.loops = []
  defined : ∀ x, s.comp.globals.get x ≠ none → s.vm.globals x ≠ none
  gEnd : ∀ x v, s.vm.globals x = some v → v ≠ .end_

/-- The state of the program between two texts. -/
def Session.state (s : Session W) : PState W := ⟨[], s.vm.globals, s.vm.world, s.vm.out⟩

theorem exitScope_ends (s : CState) : s.exitScope.scopes = s.scopes.tail ∧ s.exitScope.checkpoints = s.checkpoints ∧ s.exitScope.globals = s.globals ∧ s.exitScope.pool = s.pool := by
  unfold CState.exitScope
  split
  · rename_i h; rw [h]; exact ⟨rfl, rfl, rfl, rfl⟩
  · rename_i h; simp [h]

/-- One text. -/
theorem give_spec (hP : P.NoEnd) (s : Session W) (hs : s.Clean) (g : Given) (hbad : g.bad = false) (hF : FitsEntry g.how g.stmts) (c : CState) (image : List Byte)
    (hb : g.build s.comp = (c, some image)) (hlen : image.length < 2 ^ 63) (fuel : Nat) :
    match execEntry F P fuel g.how g.stmts s.state with
    | (t, .normal) => ∃ k s', s.give F P g k = (s', .stopped .halt) ∧ s'.vm.out = t.out ∧ s'.vm.globals = t.globals ∧ s'.vm.world = t.world ∧
        s'.vm.stack = t.env.map Prod.snd ∧ (t.env = [] → s'.Clean) ∧ s'.comp = c ∧ (g.how = .prompt ∨ Quiet g.stmts → t.env = [])
    | (t, .err e) => ∃ k s', s.give F P g k = (s', .stopped e) ∧ s'.vm.out = t.out ∧ s'.vm.globals = t.globals ∧ s'.vm.world = t.world
    | (_, .timeout) => ∃ k s', fuel ≤ k ∧ s.give F P g k = (s', .running)
    | _ => False := by
  obtain ⟨how, stmts, bad, lines⟩ := g
  obtain ⟨comp, ⟨pc0, stack0, fp0, loops0, g0, w0, out0⟩⟩ := s
  obtain ⟨a1, a2, a3, a4, a5, a6, a7, a8, a9⟩ := hs
  dsimp only at hbad a1 a2 a3 a4 a5 a6 a7 a8 a9 hF hb
  subst hbad a5 a6 a7
  have give : ∀ k, Session.give F P ⟨how, stmts, false, lines⟩ k (⟨comp, ⟨pc0, [], -1, [], g0, w0, out0⟩⟩ : Session W) =
      match (⟨pc0, [], -1, [], g0, w0, out0⟩ : VM W).reload image with
      | none => (⟨c, ⟨pc0, [], -1, [], g0, w0, out0⟩⟩, .ub)
      | some (m, K) => match VM.run F P image K k m with
        | .stop m e => (⟨c, m⟩, .stopped e)
        | .next m => (⟨c, m⟩, .running) := by
    intro k
    unfold Session.give
    rw [hb]
    rfl
  suffices hrun : ∃ p K, (⟨pc0, [], -1, [], g0, w0, out0⟩ : VM W).reload image = some (⟨p, [], -1, [], g0, w0, out0⟩, K) ∧ ∃ cl : List Byte, At image (p + cl.length) (Opc.HALT.byte :: lines) ∧
      SSim F P image K fuel ((⟨image, K, -1, [], g0, [], [], []⟩ : Frame).vmS ⟨[], g0, w0, out0⟩ p []) (execEntry F P fuel how stmts ⟨[], g0, w0, out0⟩)
        (fun sig t' m => sig = .normal ∧ m = (⟨image, K, -1, [], g0, [], [], []⟩ : Frame).vmS t' (p + cl.length) [] ∧
          (c.scopes = [] ∧ c.checkpoints = [] ∧ PoolOk c.globals c.pool ∧ c.HOk) ∧ (∀ x, c.globals.get x ≠ none → t'.globals x ≠ none) ∧
          (∀ x v, t'.globals x = some v → v ≠ .end_) ∧ (how = .prompt ∨ Quiet stmts → t'.env = [])) by
    obtain ⟨p, K, hload, cl, hAh, hsim⟩ := hrun
    have hgive : ∀ k, Session.give F P ⟨how, stmts, false, lines⟩ k (⟨comp, ⟨pc0, [], -1, [], g0, w0, out0⟩⟩ : Session W) =
        match VM.run F P image K k ⟨p, [], -1, [], g0, w0, out0⟩ with
        | .stop m e => (⟨c, m⟩, .stopped e)
        | .next m => (⟨c, m⟩, .running) := by
      intro k
      rw [give k, hload]
    show match execEntry F P fuel how stmts ⟨[], g0, w0, out0⟩ with
      | (t, .normal) => _
      | (t, .err e) => _
      | (_, .timeout) => _
      | _ => False
    rcases hx : execEntry F P fuel how stmts ⟨[], g0, w0, out0⟩ with ⟨t, sig⟩
    rw [hx] at hsim
    cases sig with
    | normal =>
      obtain ⟨k, m', hk, -, rfl, ⟨b1, b2, b3, b4⟩, b5, b6, b7⟩ := hsim
      have hk' : VM.run F P image K k ⟨p, [], -1, [], g0, w0, out0⟩ = _ := hk
      have hrun := VM.run_add (F := F) (P := P) (code := image) (K := K) k 1 ⟨p, [], -1, [], g0, w0, out0⟩
      rw [hk'] at hrun
      simp only [VM.run_one, Frame.vmS, Frame.vm, step_halt hAh] at hrun
      refine ⟨k + 1, _, (hgive (k + 1)).trans (by rw [hrun]), rfl, rfl, rfl, by simp [Frame.on], fun he => ⟨b1, b2, b3, b4, ?_, rfl, rfl, b5, b6⟩, rfl, b7⟩
      simp [Frame.on, he]
    | brk => obtain ⟨_, _, _, h, _⟩ := hsim; cases h
    | cont => obtain ⟨_, _, _, h, _⟩ := hsim; cases h
    | err e =>
      obtain ⟨k, m', hk, h1, h2, h3⟩ := hsim
      have hk' : VM.run F P image K k ⟨p, [], -1, [], g0, w0, out0⟩ = _ := hk
      exact ⟨k, _, (hgive k).trans (by rw [hk']), h2, h3, h1⟩
    | timeout =>
      obtain ⟨k, m', hle, hk, -⟩ := hsim
      have hk' : VM.run F P image K k ⟨p, [], -1, [], g0, w0, out0⟩ = _ := hk
      exact ⟨k, _, hle, (hgive k).trans (by rw [hk'])⟩
  cases how with
  | file =>
    simp only [Given.build, Bool.false_eq_true, if_false, Prod.mk.injEq] at hb
    obtain ⟨hb1, hb2⟩ := hb
    split at hb2
    swap
    · cases hb2
    rename_i hok
    simp only [Option.some.injEq] at hb2
    have hhok := compileAll_hok stmts comp.reset.enterScope [] (a4.of rfl rfl)
    obtain ⟨⟨hpre, e1, e2, e3, e4⟩, cl, hcode, hsim⟩ := fileAll_spec (F := F) (P := P) hP stmts comp.reset.enterScope [] hok (by simp [CState.enterScope]) rfl a2 a3 0 hF
    generalize compileAll stmts comp.reset.enterScope [] = r at *
    rw [List.nil_append] at hcode
    rw [hcode] at hb2
    obtain ⟨p, hload, hA, hAh, hpl⟩ := reload_spec r.1 hhok cl lines image hb2 hlen (⟨pc0, [], -1, [], g0, w0, out0⟩ : VM W)
    refine ⟨p, _, hload, cl, hAh, ?_⟩
    have hx := exitScope_ends r.1
    have hone : r.1.exitScope.scopes = [] := by
      rw [hx.1, ← List.length_eq_zero_iff, List.length_tail, e1]; simp [CState.enterScope, CState.reset, a1]
    have := hsim ⟨image, r.1.pool, -1, [], g0, [], [], []⟩ ⟨[], g0, w0, out0⟩ p fuel
      ⟨by simp [EnvRep, CState.enterScope, CState.reset, a1, EnvRepL, Frame.on], by simp [Frame.on], by simp [Frame.on], hlen, hpl,
        a8, a9, by simp [Frame.on]⟩ rfl rfl rfl List.prefix_rfl hA
    refine SSim.conseq this ?_
    rintro sig t' m ⟨h1, h2, h3⟩
    subst hb1
    refine ⟨h1, h2, ⟨hone, hx.2.1.trans e2, ?_, hhok.exitScope⟩, ?_, h3.gEnd, ?_⟩
    · rw [hx.2.2.1, hx.2.2.2, e3]
      exact (PoolOk.mono (gs := comp.globals) a3 hpre)
    · rw [hx.2.2.1, e3]; exact h3.defined
    · rintro (h | h)
      · cases h
      · have := h3.envLen
        rw [e4 h] at this
        exact List.length_eq_zero_iff.1 (this.trans (by simp [scopeLen, CState.enterScope, CState.reset, a1]))
  | prompt =>
    simp only [Given.build, Bool.false_eq_true, if_false, Prod.mk.injEq] at hb
    obtain ⟨hb1, hb2⟩ := hb
    split at hb2
    swap
    · cases hb2
    rename_i hok
    simp only [Option.some.injEq] at hb2
    have hhok := compileAll_hok stmts.echoLast comp.reset [] (a4.of rfl rfl)
    obtain ⟨⟨-, e1, e2, e3⟩, cl, hcode, hsim⟩ := promptAll_spec (F := F) (P := P) hP stmts.echoLast comp.reset [] hok a1 rfl a2 a3 (fitsLine_echo _ hF)
    generalize compileAll stmts.echoLast comp.reset [] = r at *
    rw [List.nil_append] at hcode
    rw [hcode] at hb2
    obtain ⟨p, hload, hA, hAh, hpl⟩ := reload_spec r.1 hhok cl lines image hb2 hlen (⟨pc0, [], -1, [], g0, w0, out0⟩ : VM W)
    refine ⟨p, _, hload, cl, hAh, ?_⟩
    have := hsim ⟨image, r.1.pool, -1, [], g0, [], [], []⟩ ⟨[], g0, w0, out0⟩ p fuel
      ⟨by simp [EnvRep, EnvRepL, Frame.on], by simp [Frame.on], by simp [Frame.on], hlen, hpl, a8, a9, by simp [Frame.on]⟩ rfl rfl rfl List.prefix_rfl hA
    show SSim F P image _ fuel _ (execLine F P fuel stmts ⟨[], g0, w0, out0⟩) _
    rw [execLine_echo]
    refine SSim.conseq this ?_
    rintro sig t' m ⟨h1, h2, h3, h4⟩
    subst hb1
    exact ⟨h1, h2, ⟨e1, e2, e3, hhok⟩, h4.defined, h4.gEnd, fun _ => h3⟩

end
end Yasl
