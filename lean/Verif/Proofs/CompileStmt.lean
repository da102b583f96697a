import Verif.Proofs.CompileExpr
set_option autoImplicit false
/-! # Compiled statements -/
namespace Yasl

/-! ## What the compiler adds -/

/-- Code `c` and possibly some literals were added; scopes and checkpoints are described separately. -/
structure Grow (s s' : CState) (c : List Byte) : Prop where
  buffer : s'.buffer = s.buffer ++ c
  pool : ∃ q, s'.pool = s.pool ++ q ∧ s'.header = s.header ++ q.flatMap headerEntry
  globals : s'.globals = s.globals
  ok : s'.ok = s.ok

theorem Ext.grow {s s' : CState} {c : List Byte} (h : Ext s s' c) : Grow s s' c := by
  obtain ⟨q, rfl⟩ := h
  exact ⟨rfl, ⟨q, rfl, rfl⟩, rfl, rfl⟩

theorem Grow.refl (s : CState) : Grow s s [] := ⟨by simp, ⟨[], by simp, by simp⟩, rfl, rfl⟩

theorem Grow.trans {s s1 s2 : CState} {c1 c2 : List Byte} (h1 : Grow s s1 c1) (h2 : Grow s1 s2 c2) : Grow s s2 (c1 ++ c2) := by
  obtain ⟨a1, ⟨q1, a2, a3⟩, a4, a5⟩ := h1
  obtain ⟨b1, ⟨q2, b2, b3⟩, b4, b5⟩ := h2
  exact ⟨by simp [b1, a1], ⟨q1 ++ q2, by simp [b2, a2], by simp [b3, a3]⟩, by rw [b4, a4], by rw [b5, a5]⟩

theorem Grow.prefix {s s' : CState} {c : List Byte} (h : Grow s s' c) : s.pool <+: s'.pool := by
  obtain ⟨_, ⟨q, h, _⟩, _, _⟩ := h
  rw [h]; exact List.prefix_append _ _

theorem Grow.poolOk {s s' : CState} {c : List Byte} (h : Grow s s' c) (hg : PoolOk s.globals s.pool) : PoolOk s'.globals s'.pool := by
  rw [h.globals]; exact hg.mono h.prefix

theorem Grow.patch {s s' : CState} {c1 c2 : List Byte} {x : BitVec 64} (h : Grow s s' (c1 ++ bytes8 x ++ c2)) {i : Nat}
    (hi : i = s.buffer.length + c1.length) :
    Grow s (s'.patch i) (c1 ++ bytes8 (BitVec.ofInt 64 c2.length) ++ c2) := by
  subst hi
  refine ⟨?_, h.pool, h.globals, h.ok⟩
  simp only [CState.patch]
  rw [h.buffer]
  have e1 : (s.buffer ++ (c1 ++ bytes8 x ++ c2)).take (s.buffer.length + c1.length) = s.buffer ++ c1 := by
    rw [show s.buffer ++ (c1 ++ bytes8 x ++ c2) = (s.buffer ++ c1) ++ (bytes8 x ++ c2) by simp]
    rw [List.take_left' (by simp)]
  have e2 : (s.buffer ++ (c1 ++ bytes8 x ++ c2)).drop (s.buffer.length + c1.length + 8) = c2 := by
    rw [show s.buffer ++ (c1 ++ bytes8 x ++ c2) = (s.buffer ++ c1 ++ bytes8 x) ++ c2 by simp]
    rw [List.drop_left' (by simp; omega)]
  have e3 : ((s.buffer ++ (c1 ++ bytes8 x ++ c2)).length : Int) - (s.buffer.length + c1.length : Nat) - 8 = c2.length := by
    simp
  rw [e1, e2, e3]; simp

theorem Grow.checkpoint {s s' : CState} {c : List Byte} (h : Grow s s' c) (i : Nat) : Grow s (s'.addCheckpoint i) c :=
  ⟨h.buffer, h.pool, h.globals, h.ok⟩

theorem Grow.op {s s' : CState} {c : List Byte} (h : Grow s s' c) (o : Opc) : Grow s (s'.op o) (c ++ [o.byte]) :=
  h.trans (Ext.op _ o).grow

theorem Grow.emit {s s' : CState} {c : List Byte} (h : Grow s s' c) (b : Byte) : Grow s (s'.emit b) (c ++ [b]) :=
  h.trans (Ext.emit _ b).grow

theorem Grow.jump {s s' : CState} {c : List Byte} (h : Grow s s' c) (o : Opc) : Grow s (s'.jump o) (c ++ o.byte :: bytes8 0) :=
  h.trans (Ext.jump _ o).grow

theorem Ext.branchBack (s : CState) (i : Nat) :
    Ext s (s.branchBack i) (Opc.BR_8.byte :: bytes8 (BitVec.ofInt 64 ((i : Int) - s.buffer.length - 9))) := by
  have := (Ext.op s .BR_8).trans (Ext.int _ (BitVec.ofInt 64 (i - (s.op .BR_8).buffer.length - 8)))
  have e : ((i : Int) - (s.op .BR_8).buffer.length - 8) = (i : Int) - s.buffer.length - 9 := by
    simp [CState.op, CState.emit]; omega
  rw [e] at this
  simpa [CState.branchBack, e] using this

/-- Code was added, and variables `ds` declared in the innermost scope. -/
def SExt (s s' : CState) (c : List Byte) (ds : Scope) : Prop :=
  Grow s s' c ∧ s'.checkpoints = s.checkpoints ∧ ∃ sc scs, s.scopes = sc :: scs ∧ s'.scopes = (ds ++ sc) :: scs

theorem SExt.grow {s s' : CState} {c : List Byte} {ds : Scope} (h : SExt s s' c ds) : Grow s s' c := h.1
theorem SExt.checkpoints {s s' : CState} {c : List Byte} {ds : Scope} (h : SExt s s' c ds) : s'.checkpoints = s.checkpoints := h.2.1
theorem SExt.scopes {s s' : CState} {c : List Byte} (h : SExt s s' c []) : s'.scopes = s.scopes := by
  obtain ⟨_, _, sc, scs, h1, h2⟩ := h
  rw [h1, h2]; simp
theorem SExt.ne {s s' : CState} {c : List Byte} {ds : Scope} (h : SExt s s' c ds) : s'.scopes ≠ [] := by
  obtain ⟨_, _, sc, scs, h1, h2⟩ := h
  rw [h2]; simp
theorem SExt.flatten {s s' : CState} {c : List Byte} {ds : Scope} (h : SExt s s' c ds) : s'.scopes.flatten = ds ++ s.scopes.flatten := by
  obtain ⟨_, _, sc, scs, h1, h2⟩ := h
  rw [h1, h2]; simp

theorem SExt.of {s s' : CState} {c : List Byte} (h : Grow s s' c) (hc : s'.checkpoints = s.checkpoints) (hs : s'.scopes = s.scopes)
    (hne : s.scopes ≠ []) : SExt s s' c [] := by
  refine ⟨h, hc, ?_⟩
  cases h2 : s.scopes with
  | nil => exact absurd h2 hne
  | cons sc scs => exact ⟨sc, scs, rfl, by rw [hs, h2]; simp⟩

theorem Ext.sext {s s' : CState} {c : List Byte} (h : Ext s s' c) (hne : s.scopes ≠ []) : SExt s s' c [] :=
  SExt.of h.grow h.checkpoints h.scopes hne

theorem SExt.trans {s s1 s2 : CState} {c1 c2 : List Byte} {d1 d2 : Scope} (h1 : SExt s s1 c1 d1) (h2 : SExt s1 s2 c2 d2) :
    SExt s s2 (c1 ++ c2) (d2 ++ d1) := by
  obtain ⟨a1, a2, sc, scs, a3, a4⟩ := h1
  obtain ⟨b1, b2, sc', scs', b3, b4⟩ := h2
  refine ⟨a1.trans b1, by rw [b2, a2], sc, scs, a3, ?_⟩
  rw [a4] at b3
  simp only [List.cons.injEq] at b3
  rw [b4, ← b3.1, ← b3.2]; simp

/-! ## Running statements -/

section
variable {W : Type} (F : FloatOps) (P : Prims W) (code : List Byte) (K : List Val)

/-- From `m` the machine does what the result `r` says: it reaches a state described by `T`, stops with the error, or is
still running after at least `n` steps; world, output and globals are those of the result. -/
def SSim (n : Nat) (m : VM W) (r : SRes W) (T : Sig → PState W → VM W → Prop) : Prop :=
  match r with
  | (t, .err e) => ∃ k m', VM.run F P code K k m = .stop m' e ∧ m'.world = t.world ∧ m'.out = t.out ∧ m'.globals = t.globals
  | (t, .timeout) => ∃ k m', n ≤ k ∧ VM.run F P code K k m = .next m' ∧ m'.world = t.world ∧ m'.out = t.out ∧ m'.globals = t.globals
  | (t, sig) => ∃ k m', VM.run F P code K k m = .next m' ∧ T sig t m'

variable {F P code K} {n : Nat} {T T' : Sig → PState W → VM W → Prop}

theorem SSim.step {m m' : VM W} {r : SRes W} (hs : m.step F P code K = .next m') (h : SSim F P code K n m' r T) :
    SSim F P code K (n + 1) m r T := by
  obtain ⟨t, sig⟩ := r
  have hrun : ∀ k, VM.run F P code K (1 + k) m = VM.run F P code K k m' := by
    intro k; rw [VM.run_add, VM.run_one, hs]
  cases sig with
  | err e => obtain ⟨k, m2, h1, h2⟩ := h; exact ⟨1 + k, m2, by rw [hrun]; exact h1, h2⟩
  | timeout => obtain ⟨k, m2, h0, h1, h2⟩ := h; exact ⟨1 + k, m2, by omega, by rw [hrun]; exact h1, h2⟩
  | normal => obtain ⟨k, m2, h1, h2⟩ := h; exact ⟨1 + k, m2, by rw [hrun]; exact h1, h2⟩
  | brk => obtain ⟨k, m2, h1, h2⟩ := h; exact ⟨1 + k, m2, by rw [hrun]; exact h1, h2⟩
  | cont => obtain ⟨k, m2, h1, h2⟩ := h; exact ⟨1 + k, m2, by rw [hrun]; exact h1, h2⟩

theorem SSim.mono {n' : Nat} {m : VM W} {r : SRes W} (h : SSim F P code K n m r T) (hn : n' ≤ n) : SSim F P code K n' m r T := by
  obtain ⟨t, sig⟩ := r
  cases sig with
  | timeout => obtain ⟨k, m2, h0, h1, h2⟩ := h; exact ⟨k, m2, by omega, h1, h2⟩
  | _ => exact h

theorem SSim.step' {m m' : VM W} {r : SRes W} (hs : m.step F P code K = .next m') (h : SSim F P code K n m' r T) :
    SSim F P code K n m r T := (SSim.step hs h).mono (by omega)

theorem SSim.conseq {m : VM W} {r : SRes W} (h : SSim F P code K n m r T) (hT : ∀ sig t m, T sig t m → T' sig t m) :
    SSim F P code K n m r T' := by
  obtain ⟨t, sig⟩ := r
  cases sig with
  | err | timeout => exact h
  | normal | brk | cont => obtain ⟨k, m2, h1, h2⟩ := h; exact ⟨k, m2, h1, hT _ _ _ h2⟩

theorem SSim.normal {m : VM W} {t : PState W} (h : T .normal t m) : SSim F P code K n m (t, .normal) T := ⟨0, m, rfl, h⟩
theorem SSim.brk {m : VM W} {t : PState W} (h : T .brk t m) : SSim F P code K n m (t, .brk) T := ⟨0, m, rfl, h⟩
theorem SSim.cont {m : VM W} {t : PState W} (h : T .cont t m) : SSim F P code K n m (t, .cont) T := ⟨0, m, rfl, h⟩

theorem SSim.run {m m' : VM W} {r : SRes W} {k : Nat} (hs : VM.run F P code K k m = .next m') (h : SSim F P code K n m' r T) :
    SSim F P code K n m r T := by
  induction k generalizing m with
  | zero => simp [VM.run] at hs; subst hs; exact h
  | succ k ih =>
    rw [VM.run] at hs
    cases h1 : VM.step F P code K m with
    | next m1 => rw [h1] at hs; exact SSim.step' h1 (ih hs)
    | stop m1 e => rw [h1] at hs; simp at hs

theorem SSim.bind {m : VM W} {r : SRes W} {k : SRes W → SRes W} (h : SSim F P code K n m r T)
    (he : ∀ t e, k (t, .err e) = (t, .err e)) (ht : ∀ t, k (t, .timeout) = (t, .timeout))
    (hN : ∀ t m', T .normal t m' → SSim F P code K n m' (k (t, .normal)) T')
    (hB : ∀ t m', T .brk t m' → SSim F P code K n m' (k (t, .brk)) T')
    (hC : ∀ t m', T .cont t m' → SSim F P code K n m' (k (t, .cont)) T') : SSim F P code K n m (k r) T' := by
  obtain ⟨t, sig⟩ := r
  cases sig with
  | err e => rw [he]; exact h
  | timeout => rw [ht]; exact h
  | normal => obtain ⟨i, m2, h1, h2⟩ := h; exact SSim.run h1 (hN _ _ h2)
  | brk => obtain ⟨i, m2, h1, h2⟩ := h; exact SSim.run h1 (hB _ _ h2)
  | cont => obtain ⟨i, m2, h1, h2⟩ := h; exact SSim.run h1 (hC _ _ h2)

theorem SSim.andThen {m : VM W} {r : SRes W} {k : PState W → SRes W} (h : SSim F P code K n m r T)
    (hk : ∀ t m', T .normal t m' → SSim F P code K n m' (k t) T')
    (hb : ∀ t m', T .brk t m' → T' .brk t m') (hc : ∀ t m', T .cont t m' → T' .cont t m') :
    SSim F P code K n m (r.andThen k) T' :=
  SSim.bind (k := fun r => r.andThen k) h (fun _ _ => rfl) (fun _ => rfl) hk (fun t m' h => SSim.brk (hb t m' h))
    (fun t m' h => SSim.cont (hc t m' h))

/-- After an expression. -/
theorem SSim.value {α : Type} {m : VM W} {t : PState W} {r : PRes W α} {nx : W → α → VM W} {k : PState W → α → SRes W}
    (h : Sim F P code K m r nx) (ho : m.out = t.out) (hg : m.globals = t.globals)
    (hk : ∀ w v, r = (w, .ok v) → SSim F P code K n (nx w v) (k { t with world := w } v) T) :
    SSim F P code K n m (withVal t r k) T := by
  obtain ⟨w, r⟩ := r
  cases r with
  | error e =>
    obtain ⟨i, m', h1, h2, h3, h4⟩ := h
    exact ⟨i, m', h1, h2, by rw [h3, ho], by rw [h4, hg]⟩
  | ok v =>
    obtain ⟨i, h1⟩ := h
    exact SSim.run h1 (hk w v rfl)

theorem SSim.err {m m' : VM W} {t : PState W} {e : RtErr} (hs : m.step F P code K = .stop m' e) (h1 : m'.world = t.world)
    (h2 : m'.out = t.out) (h3 : m'.globals = t.globals) : SSim F P code K n m (t, .err e) T :=
  ⟨1, m', by rw [VM.run_one, hs], h1, h2, h3⟩

/-! ## The machine for a state of the program -/

/-- The frame for a state of the program. -/
def Frame.on (f : Frame) (t : PState W) : Frame := { f with g := t.globals, out := t.out, env := t.env }

/-- The machine at position `p` for a state of the program, with `temps` on top of the local variables. -/
def Frame.vmS (f : Frame) (t : PState W) (p : Nat) (temps : List Val) : VM W := (f.on t).vm p temps t.world

theorem Frame.look_on (f : Frame) (t : PState W) : (f.on t).look = t.look := rfl

theorem Frame.Ok.world {f : Frame} {t : PState W} {scs : List Scope} {gs : Scope} (h : (f.on t).Ok scs gs) (w : W) :
    (f.on { t with world := w }).Ok scs gs := h

theorem Frame.Ok.congr {f : Frame} {scs scs' : List Scope} {gs : Scope} (h : f.Ok scs gs) (he : scs'.flatten = scs.flatten) : f.Ok scs' gs :=
  ⟨by unfold EnvRep; rw [he]; exact h.rep, h.fpEq, h.small, h.codeLen, h.KLen, h.defined, h.gEnd, h.envEnd⟩

/-- An expression in a statement. -/
theorem SSim.expr {f : Frame} {t : PState W} {scs : List Scope} {gs : Scope} {pool : List Val} {e : Expr} {c : List Byte}
    (he : ExprSem F P scs gs pool e c) {p : Nat} {temps : List Val} (hf : (f.on t).Ok scs gs) (hK : pool <+: f.K) (hA : At f.code p c)
    {b : Nat} (hF : FitsE e b) (hb : temps.length + t.env.length + f.below.length ≤ b)
    {k : PState W → Val → SRes W}
    (hk : ∀ w v, eval F P t.look e t.world = (w, .ok v) → v ≠ .end_ →
      SSim F P f.code f.K n (f.vmS { t with world := w } (p + c.length) (v :: temps)) (k { t with world := w } v) T)
    (hP : P.NoEnd) :
    SSim F P f.code f.K n (f.vmS t p temps) (withVal t (eval F P t.look e t.world) k) T := by
  refine SSim.value (he (f.on t) p temps t.world hf hK hA hF.1 ?_) rfl rfl ?_
  · have := hF.2
    simp only [Frame.Room, Frame.on, stackLimit, stackSize] at this ⊢
    omega
  · intro w v hv
    exact hk w v hv (eval_noEnd hP hf.look_noEnd _ _ _ _ hv)

/-- Assignment to a variable. -/
theorem storeVar_spec (s : CState) (x : Name) (hok : (s.storeVar x).ok = true) (hg : PoolOk s.globals s.pool) :
    ∃ c, Ext s (s.storeVar x) c ∧ ∀ (f : Frame) (t : PState W) (p : Nat) (temps : List Val) (v : Val), (f.on t).Ok s.scopes s.globals →
      s.pool <+: f.K → At f.code p c → v ≠ .end_ →
      VM.step F P f.code f.K (f.vmS t p (v :: temps)) = .next (f.vmS (t.assign x v) (p + c.length) temps) ∧
        (f.on (t.assign x v)).Ok s.scopes s.globals := by
  unfold CState.storeVar at hok ⊢
  split
  · rename_i z hz
    rw [hz] at hok
    simp only at hok
    split at hok
    · simp at hok
    rename_i hc
    rw [if_neg hc]
    refine ⟨[Opc.LSTORE.byte, z.setWidth 8], (Ext.op _ _).trans (Ext.emit _ _), ?_⟩
    intro f t p temps v hf hK hA hv
    obtain ⟨i, j, u, h1, h2, h3, h4, h5, h6⟩ := hf.slot hz
    have hzi : z = BitVec.ofNat 64 i := by rw [← h1]; simp [getIndex, hc]
    rw [hzi, setWidth_ofNat] at hA
    simp only [Frame.on] at h3 h4 h5 h6
    have hj : j < t.env.length := by omega
    have hassign : t.assign x v = { t with env := t.env.set j (x, v) } := by simp [PState.assign, h5, h6]
    rw [hassign]
    constructor
    · have := step_lstore (F := F) (P := P) (K := f.K) (fp := f.fp) (loops := f.loops) (g := t.globals) (w := t.world) (out := t.out) (v := v)
        (st := temps ++ (t.env.map Prod.snd ++ f.below)) (j := temps.length + j) h2 hA
        (by have := hf.fpEq; simp [Frame.on] at this ⊢; omega) (by have := hf.fpEq; simp [Frame.on] at this; omega)
      simp only [Frame.vmS, Frame.vm, Frame.on]
      rw [List.cons_append, this]
      congr 2
      rw [List.set_append_right _ _ (by omega), List.set_append_left _ _ (by simp; omega)]
      simp [List.map_set]
    · refine ⟨EnvRepL.set hf.rep h4, hf.fpEq, ?_, hf.codeLen, hf.KLen, hf.defined, hf.gEnd, ?_⟩
      · have := hf.small; simp [Frame.on] at this ⊢; exact this
      · intro q hq
        simp only [Frame.on] at hq
        rcases List.mem_or_eq_of_mem_set hq with h | h
        · exact hf.envEnd q h
        · rw [h]; exact hv
  · rename_i hz
    rw [hz] at hok
    simp only at hok
    cases hx : s.globals.get x with
    | none => simp [hx] at hok
    | some z =>
      simp only [hx] at hok ⊢
      split at hok
      · simp at hok
      rename_i hc
      rw [if_neg hc]
      obtain ⟨i, h1, h2⟩ := nameIndex_spec (hg x (by simp [hx]))
      refine ⟨Opc.GSTORE_8.byte :: bytes8 (s.nameIndex x), (Ext.op _ _).trans (Ext.int _ _), ?_⟩
      intro f t p temps v hf hK hA hv
      rw [h1] at hA
      have hn : t.env.find x = none := by
        rw [scopeGet_flatten] at hz
        exact (EnvRepL.get_none hf.rep).1 hz
      have h3 := prefix_get (K := f.K) hK h2
      have hassign : t.assign x v = { t with globals := fun y => if y = x then some v else t.globals y } := by simp [PState.assign, hn]
      rw [hassign]
      constructor
      · exact step_gstore (st := temps ++ (t.env.map Prod.snd ++ f.below)) (by have := get_lt h3; have := hf.KLen; simp only [Frame.on] at this; omega) hA h3
      · refine ⟨hf.rep, hf.fpEq, hf.small, hf.codeLen, hf.KLen, ?_, ?_, hf.envEnd⟩
        · intro y hy
          simp only [Frame.on]
          split
          · simp
          · exact hf.defined y hy
        · intro y u hu
          simp only [Frame.on] at hu
          split at hu
          · simp at hu; rw [← hu]; exact hv
          · exact hf.gEnd y u hu

/-- A declaration of a name that is not in the innermost scope. -/
theorem declVar_spec (s : CState) (x : Name) (hne : s.scopes ≠ []) (hx : s.containsCur x = false) (hok : (s.declVar x).ok = true) :
    SExt s (s.declVar x) [] [(x, BitVec.ofNat 64 (scopeLen s.scopes))] := by
  cases hs : s.scopes with
  | nil => exact absurd hs hne
  | cons sc scs =>
    have hg : sc.get x = none := by simpa [CState.containsCur, hs] using hx
    have hp : sc.put x (BitVec.ofNat 64 (scopeLen (sc :: scs))) = (x, BitVec.ofNat 64 (scopeLen (sc :: scs))) :: sc := by
      simp [Scope.put, hg]
    have he : s.declVar x = { s with scopes := ((x, BitVec.ofNat 64 (scopeLen (sc :: scs))) :: sc) :: scs } := by
      simp only [CState.declVar, hs, hp] at hok ⊢
      split at hok
      · simp at hok
      · rename_i h; rw [if_neg h]
    rw [he]
    exact ⟨⟨by simp, ⟨[], by simp, by simp⟩, rfl, rfl⟩, rfl, sc, scs, hs, rfl⟩

theorem Frame.Ok.declare {f : Frame} {t : PState W} {scs scs' : List Scope} {gs : Scope} (hf : (f.on t).Ok scs gs) {x : Name} {v : Val}
    {z : BitVec 64} (hz : getIndex z = BitVec.ofNat 64 (scopeLen scs)) (hs : scs'.flatten = (x, z) :: scs.flatten) (hv : v ≠ .end_)
    (hl : t.env.length + 1 ≤ 128) : (f.on { t with env := (x, v) :: t.env }).Ok scs' gs := by
  refine ⟨?_, hf.fpEq, by simpa [Frame.on] using hl, hf.codeLen, hf.KLen, hf.defined, hf.gEnd, ?_⟩
  · unfold EnvRep
    rw [hs]
    refine ⟨rfl, ?_, hf.rep⟩
    rw [hz, hf.rep.length]; rfl
  · intro q hq
    simp only [Frame.on, List.mem_cons] at hq
    rcases hq with rfl | hq
    · exact hv
    · exact hf.envEnd q hq

theorem getIndex_ofNat {n : Nat} (h : n < 2 ^ 63) : getIndex (BitVec.ofNat 64 n) = BitVec.ofNat 64 n := by
  have : isConst (BitVec.ofNat 64 n) = false := by
    have hm : (BitVec.ofNat 64 n).msb = false := by
      rw [BitVec.msb_eq_false_iff_two_mul_lt]; simp; omega
    unfold isConst
    generalize BitVec.ofNat 64 n = b at hm
    have : 0x8000000000000000#64 &&& b = 0 := by
      rw [BitVec.msb_eq_getLsbD_last] at hm
      ext i hi
      simp only [BitVec.getElem_and, BitVec.getElem_zero]
      by_cases h63 : i = 63
      · subst h63; simp at hm ⊢; exact hm
      · have : (0x8000000000000000#64)[i] = false := by
          rw [show (0x8000000000000000#64) = BitVec.twoPow 64 63 by decide, BitVec.getElem_twoPow]; simpa using h63
        simp [this]
    simp [this]
  simp [getIndex, this]

theorem isConst_iff (b : BitVec 64) : isConst b = b.msb := by
  unfold isConst
  rw [BitVec.msb_eq_getLsbD_last]
  cases hb : b.getLsbD 63
  · have : 0x8000000000000000#64 &&& b = 0 := by
      ext i hi
      simp only [BitVec.getElem_and, BitVec.getElem_zero]
      by_cases h63 : i = 63
      · subst h63; simp at hb ⊢; exact hb
      · have : (0x8000000000000000#64)[i] = false := by
          rw [show (0x8000000000000000#64) = BitVec.twoPow 64 63 by decide, BitVec.getElem_twoPow]; simpa using h63
        simp [this]
    simp [this, hb]
  · have : (0x8000000000000000#64 &&& b) ≠ 0 := by
      intro h
      have := congrArg (fun z => z.getLsbD 63) h
      simp at this hb
      rw [hb] at this; simp at this
    simpa [hb] using this

theorem getIndex_not {n : Nat} (h : n < 2 ^ 63) : getIndex (~~~BitVec.ofNat 64 n) = BitVec.ofNat 64 n := by
  have hm : (BitVec.ofNat 64 n).msb = false := by
    rw [BitVec.msb_eq_false_iff_two_mul_lt]; simp; omega
  simp only [getIndex, isConst_iff, BitVec.msb_not, hm]
  simp

theorem put_head {sc : Scope} {x : Name} {z z' : BitVec 64} (h : sc.get x = none) : Scope.put ((x, z) :: sc) x z' = (x, z') :: sc := by
  have h1 : Scope.get ((x, z) :: sc) x ≠ none := by simp [Scope.get]
  simp only [Scope.put, if_neg h1, List.map_cons, beq_self_eq_true, if_true, List.cons.injEq, true_and]
  conv_rhs => rw [← List.map_id sc]
  apply List.map_congr_left
  intro q hq
  simp only [Scope.get, Option.map_eq_none_iff, List.find?_eq_none] at h
  have := h q hq
  simp at this
  simp [this]

/-- A declaration of a constant. -/
theorem declConst_spec (s : CState) (x : Name) (hne : s.scopes ≠ []) (hx : s.containsCur x = false) (hok : (s.declVar x).ok = true) :
    SExt s ((s.declVar x).makeConst x) [] [(x, ~~~BitVec.ofNat 64 (scopeLen s.scopes))] := by
  have h := declVar_spec s x hne hx hok
  obtain ⟨h1, h2, sc, scs, h3, h4⟩ := h
  have hg : sc.get x = none := by simpa [CState.containsCur, h3] using hx
  have he : ((s.declVar x).makeConst x) = { s.declVar x with scopes := ((x, ~~~BitVec.ofNat 64 (scopeLen s.scopes)) :: sc) :: scs } := by
    simp only [CState.makeConst, h4, List.cons_append, List.nil_append]
    simp only [scopeMakeConst]
    have : Scope.get ((x, BitVec.ofNat 64 (scopeLen s.scopes)) :: sc) x = some (BitVec.ofNat 64 (scopeLen s.scopes)) := by simp [Scope.get]
    simp only [this, put_head hg]
  rw [he]
  exact ⟨⟨h1.buffer, h1.pool, h1.globals, h1.ok⟩, h2, sc, scs, h3, rfl⟩

theorem CState.declVar_ok {s : CState} {x : Name} (h : (s.declVar x).ok = true) : s.ok = true := by
  unfold CState.declVar at h
  split at h
  · simp only at h
    split at h
    · simp at h
    · exact h
  · simpa using h

@[simp] theorem CState.makeConst_ok (s : CState) (x : Name) : (s.makeConst x).ok = s.ok := by
  unfold CState.makeConst
  split
  · split <;> rfl
  · rfl

theorem visitLVals_ok : ∀ (ls : List LVal) (s : CState), (visitLVals ls s).ok = true → s.ok = true
  | [], s, h => by simpa [visitLVals] using h
  | .assign x :: ls, s, h => by
    simp only [visitLVals] at h
    split at h
    · simp at h
    · simpa using CState.storeVar_ok (visitLVals_ok ls _ h)
  | .set c k :: ls, s, h => by
    simp only [visitLVals] at h
    have := visitLVals_ok ls _ h
    exact visitExpr_ok c _ (visitExpr_ok k _ (by simpa using this))
  | .let_ x :: ls, s, h => by
    simp only [visitLVals] at h
    split at h
    · simp at h
    · have := visitLVals_ok ls _ h
      split at this
      · exact CState.declVar_ok (by simpa using CState.storeVar_ok this)
      · exact CState.declVar_ok this
  | .const_ x :: ls, s, h => by
    simp only [visitLVals] at h
    split at h
    · simp at h
    · have := visitLVals_ok ls _ h
      rw [CState.makeConst_ok] at this
      split at this
      · exact CState.declVar_ok (by simpa using CState.storeVar_ok this)
      · exact CState.declVar_ok this

/-- Where a statement ends: at position `p`, or where the innermost loop goes on. -/
structure Target where
  scopes : List Scope
  globals : Scope
  p : Nat
  pb : Nat
  pc : Nat
  loop : Scope

def Target.To (g : Target) (f : Frame) (sig : Sig) (t : PState W) (m : VM W) : Prop :=
  match sig with
  | .normal => m = f.vmS t g.p [] ∧ (f.on t).Ok g.scopes g.globals
  | .brk => m = f.vmS t g.pb [.bool false] ∧ (f.on t).Ok [g.loop] g.globals
  | .cont => m = f.vmS t g.pc [] ∧ (f.on t).Ok [g.loop] g.globals
  | _ => False

/-- The left-hand sides of a declaration. -/
theorem visitLVals_spec (hP : P.NoEnd) : ∀ (ls : List LVal) (s : CState), (visitLVals ls s).ok = true → s.scopes ≠ [] → PoolOk s.globals s.pool →
    ∃ c ds, SExt s (visitLVals ls s) c ds ∧ ds.length = (ls.map LVal.declares).sum ∧
      ∀ (f : Frame) (t : PState W) (p : Nat) (vs : List Val) (n : Nat) (g : Target), (f.on t).Ok s.scopes s.globals → f.below = [] →
        (visitLVals ls s).pool <+: f.K → At f.code p c → (∀ v ∈ vs, v ≠ .end_) → vs.length = ls.length → FitsL ls t.env.length vs.length →
        g.scopes = (visitLVals ls s).scopes → g.globals = s.globals → g.p = p + c.length →
        SSim F P f.code f.K n (f.vmS t p vs.reverse) (bindAll F P ls vs t) (g.To f)
  | [], s, hok, hne, hg => by
    refine ⟨[], [], ⟨Grow.refl s, rfl, ?_⟩, rfl, ?_⟩
    · cases hs : s.scopes with
      | nil => exact absurd hs hne
      | cons sc scs => exact ⟨sc, scs, rfl, by simp [visitLVals, hs]⟩
    · intro f t p vs n g hf hb hK hA hvs hl hF h1 h2 h3
      have : vs = [] := by simpa using hl
      subst this
      simp only [bindAll]
      refine SSim.normal ⟨?_, by rw [h1, h2]; exact hf⟩
      simp [h3]
  | .let_ x :: ls, s, hok, hne, hg => by
    simp only [visitLVals] at hok ⊢
    split at hok
    · simp at hok
    rename_i hx
    have hx' : s.containsCur x = false := by simpa using hx
    have hcur : ¬ (s.containsCur x = true) := hx
    rw [if_neg hcur]
    have hne1 : (s.declVar x).scopes ≠ [] := by
      cases hs : s.scopes with
      | nil => exact absurd hs hne
      | cons sc scs =>
        simp only [CState.declVar, hs]
        split <;> simp [CState.error]
    rw [if_neg hne1] at hok ⊢
    have h0 := declVar_spec s x hne hx' (visitLVals_ok ls _ hok)
    obtain ⟨c, ds, h1, h2, h3⟩ := visitLVals_spec hP ls _ hok hne1 (h0.grow.poolOk hg)
    refine ⟨c, ds ++ _, by simpa using h0.trans h1, by simp [h2, LVal.declares, Nat.add_comm], ?_⟩
    intro f t p vs n g hf hb hK hA hvs hl hF e1 e2 e3
    obtain ⟨v, vs, rfl⟩ : ∃ v vs', vs = v :: vs' := by cases vs with | nil => simp at hl | cons v vs => exact ⟨v, vs, rfl⟩
    simp only [FitsL, maxLocals] at hF
    simp only [bindAll]
    have hsl : scopeLen s.scopes = t.env.length := hf.rep.length
    have hf' := hf.declare (x := x) (v := v) (z := BitVec.ofNat 64 (scopeLen s.scopes)) (scs' := (s.declVar x).scopes)
      (getIndex_ofNat (by omega)) (by rw [h0.flatten]; rfl) (hvs v (by simp)) hF.1
    rw [← h0.grow.globals] at hf' e2
    have := h3 f { t with env := (x, v) :: t.env } p vs n g hf' hb hK hA (fun u hu => hvs u (by simp [hu])) (by simpa using hl) (by simpa using hF.2) e1 e2 e3
    simpa [Frame.vmS, Frame.vm, Frame.on] using this
  | .const_ x :: ls, s, hok, hne, hg => by
    simp only [visitLVals] at hok ⊢
    split at hok
    · simp at hok
    rename_i hx
    have hx' : s.containsCur x = false := by simpa using hx
    have hcur : ¬ (s.containsCur x = true) := hx
    rw [if_neg hcur]
    have hne1 : (s.declVar x).scopes ≠ [] := by
      cases hs : s.scopes with
      | nil => exact absurd hs hne
      | cons sc scs =>
        simp only [CState.declVar, hs]
        split <;> simp [CState.error]
    rw [if_neg hne1] at hok ⊢
    have h0 := declConst_spec s x hne hx' (by simpa using visitLVals_ok ls _ hok)
    obtain ⟨c, ds, h1, h2, h3⟩ := visitLVals_spec hP ls _ hok h0.ne (h0.grow.poolOk hg)
    refine ⟨c, ds ++ _, by simpa using h0.trans h1, by simp [h2, LVal.declares, Nat.add_comm], ?_⟩
    intro f t p vs n g hf hb hK hA hvs hl hF e1 e2 e3
    obtain ⟨v, vs, rfl⟩ : ∃ v vs', vs = v :: vs' := by cases vs with | nil => simp at hl | cons v vs => exact ⟨v, vs, rfl⟩
    simp only [FitsL, maxLocals] at hF
    simp only [bindAll]
    have hsl : scopeLen s.scopes = t.env.length := hf.rep.length
    have hf' := hf.declare (x := x) (v := v) (z := ~~~BitVec.ofNat 64 (scopeLen s.scopes)) (scs' := ((s.declVar x).makeConst x).scopes)
      (getIndex_not (by omega)) (by rw [h0.flatten]; rfl) (hvs v (by simp)) hF.1
    rw [← h0.grow.globals] at hf' e2
    have := h3 f { t with env := (x, v) :: t.env } p vs n g hf' hb hK hA (fun u hu => hvs u (by simp [hu])) (by simpa using hl) (by simpa using hF.2) e1 e2 e3
    simpa [Frame.vmS, Frame.vm, Frame.on] using this
  | .assign x :: ls, s, hok, hne, hg => by
    simp only [visitLVals] at hok ⊢
    split at hok
    · simp at hok
    rename_i hx
    rw [if_neg hx]
    have h0 : Ext s ((s.op .MOVEUP_FP).emit (BitVec.ofNat 8 (scopeLen s.scopes))) [Opc.MOVEUP_FP.byte, BitVec.ofNat 8 (scopeLen s.scopes)] :=
      (Ext.op _ _).trans (Ext.emit _ _)
    obtain ⟨c1, h1, h2⟩ := storeVar_spec (F := F) (P := P) _ x (visitLVals_ok ls _ hok) (h0.grow.poolOk hg)
    have h01 := h0.trans h1
    obtain ⟨c2, ds, h3, h4, h5⟩ := visitLVals_spec hP ls _ hok (by rw [h01.scopes]; exact hne) (h01.grow.poolOk hg)
    refine ⟨_, ds ++ [], (h01.sext hne).trans h3, by simp [h4, LVal.declares], ?_⟩
    intro f t p vs n g hf hb hK hA hvs hl hF e1 e2 e3
    obtain ⟨v, vs, rfl⟩ : ∃ v vs', vs = v :: vs' := by cases vs with | nil => simp at hl | cons v vs => exact ⟨v, vs, rfl⟩
    simp only [FitsL, maxLocals] at hF
    simp only [bindAll]
    have hsl : scopeLen s.scopes = t.env.length := hf.rep.length
    have hfp := hf.fpEq
    simp only [Frame.on] at hfp
    have hmv : VM.step F P f.code f.K (f.vmS t p (v :: vs).reverse) = .next (f.vmS t (p + 2) (v :: vs.reverse)) := by
      have := step_moveup (F := F) (P := P) (K := f.K) (fp := f.fp) (loops := f.loops) (g := t.globals) (w := t.world) (out := t.out)
        (st := (v :: vs).reverse ++ (t.env.map Prod.snd ++ f.below)) (i := scopeLen s.scopes) (j := vs.length) (v := v) (by omega) hA.left.left
        (by simp; omega) (by omega) (by simp)
      simp only [Frame.vmS, Frame.vm, Frame.on]
      rw [this]
      congr 2
      simp [List.eraseIdx_append_of_length_le]
    refine SSim.step' hmv ?_
    obtain ⟨h6, h7⟩ := h2 f t (p + 2) vs.reverse v hf (h1.pool.trans (h3.grow.prefix.trans hK)) hA.left.right (hvs v (by simp))
    refine SSim.step' h6 ?_
    have hEnv : (t.assign x v).env.length = t.env.length := by
      have := h7.rep.length; rw [← hsl]; exact this.symm
    rw [← h01.grow.globals] at e2
    exact h5 f (t.assign x v) _ vs n g (by rw [h01.scopes, h01.globals]; exact h7) hb hK (hA.right.cast (by simp; omega))
      (fun u hu => hvs u (by simp [hu])) (by simpa using hl) (by rw [hEnv]; simpa using hF.2) e1 e2 (by rw [e3]; simp; omega)
  | .set a k :: ls, s, hok, hne, hg => by
    simp only [visitLVals] at hok ⊢
    have hok2 : (visitExpr k (visitExpr a s)).ok = true := by simpa using visitLVals_ok ls _ hok
    obtain ⟨ca, h1, h2⟩ := visitExpr_spec (F := F) (P := P) hP a s (visitExpr_ok _ _ hok2) hg
    obtain ⟨ck, h3, h4⟩ := visitExpr_spec (F := F) (P := P) hP k _ hok2 (h1.grow.poolOk hg)
    have h13 := h1.trans h3
    have h0 : Ext (visitExpr k (visitExpr a s)) ((((visitExpr k (visitExpr a s)).op .MOVEUP_FP).emit (BitVec.ofNat 8 (scopeLen (visitExpr k (visitExpr a s)).scopes))).op .SET)
        [Opc.MOVEUP_FP.byte, BitVec.ofNat 8 (scopeLen s.scopes), Opc.SET.byte] := by
      have := ((Ext.op (visitExpr k (visitExpr a s)) .MOVEUP_FP).trans (Ext.emit _ (BitVec.ofNat 8 (scopeLen (visitExpr k (visitExpr a s)).scopes)))).trans (Ext.op _ .SET)
      rw [h13.scopes] at this ⊢
      exact this
    have h01 := h13.trans h0
    obtain ⟨c2, ds, h5, h6, h7⟩ := visitLVals_spec hP ls _ hok (by rw [h01.scopes]; exact hne) (h01.grow.poolOk hg)
    refine ⟨_, ds ++ [], (h01.sext hne).trans h5, by simp [h6, LVal.declares], ?_⟩
    intro f t p vs n g hf hb hK hA hvs hl hF e1 e2 e3
    obtain ⟨v, vs, rfl⟩ : ∃ v vs', vs = v :: vs' := by cases vs with | nil => simp at hl | cons v vs => exact ⟨v, vs, rfl⟩
    simp only [FitsL, maxLocals] at hF
    obtain ⟨hF1, hF2, hF3, hF4⟩ := hF
    simp only [bindAll]
    have hsl : scopeLen s.scopes = t.env.length := hf.rep.length
    have hpk : (visitExpr k (visitExpr a s)).pool <+: f.K := h0.pool.trans (h5.grow.prefix.trans hK)
    refine SSim.expr h2 hf (h3.pool.trans hpk) hA.left.left.left hF2 (by simp [hb]; omega) ?_ hP
    intro w1 x1 _ _
    rw [h1.scopes, h1.globals] at h4
    refine SSim.expr (t := { t with world := w1 }) h4 hf hpk hA.left.left.right hF3 (by simp [hb]; omega) ?_ hP
    intro w2 x2 _ _
    have hA3 := hA.left.right
    have hfp := hf.fpEq
    simp only [Frame.on] at hfp
    have hmv : VM.step F P f.code f.K (f.vmS { t with world := w2 } (p + ca.length + ck.length) (x2 :: x1 :: (v :: vs).reverse)) =
        .next (f.vmS { t with world := w2 } (p + ca.length + ck.length + 2) (v :: x2 :: x1 :: vs.reverse)) := by
      have := step_moveup (F := F) (P := P) (K := f.K) (fp := f.fp) (loops := f.loops) (g := t.globals) (w := w2) (out := t.out)
        (st := (x2 :: x1 :: (v :: vs).reverse) ++ (t.env.map Prod.snd ++ f.below)) (i := scopeLen s.scopes) (j := vs.length + 2) (v := v) (p := p + ca.length + ck.length) (by omega)
        ((hA3.left (a := [Opc.MOVEUP_FP.byte, BitVec.ofNat 8 (scopeLen s.scopes)]) (b := [Opc.SET.byte])).cast (by simp [Nat.add_assoc]))
        (by simp; omega) (by omega) (by simp)
      simp only [Frame.vmS, Frame.vm, Frame.on]
      rw [this]
      congr 2
      simp [List.eraseIdx_append_of_length_le]
    refine SSim.step' hmv ?_
    have hA4 : At f.code (p + ca.length + ck.length + 2) [Opc.SET.byte] := hA3.tail.tail.cast (by simp [Nat.add_assoc])
    have hset := step_set (F := F) (P := P) (K := f.K) (fp := f.fp) (loops := f.loops) (g := t.globals) (w := w2) (out := t.out) (a := x1) (k := x2) (v := v)
      (st := vs.reverse ++ (t.env.map Prod.snd ++ f.below)) hA4
    simp only
    rcases hres : P.set w2 x1 x2 v with ⟨w3, e | u⟩
    · rw [hres] at hset
      exact SSim.err hset rfl rfl rfl
    · rw [hres] at hset
      refine SSim.step' hset ?_
      rw [← h01.grow.globals] at e2
      exact h7 f { t with world := w3 } _ vs n g (by rw [h01.scopes, h01.globals]; exact hf) hb hK (hA.right.cast (by simp; omega))
        (fun u hu => hvs u (by simp [hu])) (by simpa using hl) (by simpa using hF4) e1 e2 (by rw [e3]; simp; omega)

end
end Yasl
