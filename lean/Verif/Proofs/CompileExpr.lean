import Verif.Proofs.VM
import Verif.Spec.Fits
set_option autoImplicit false
/-! # Compiled expressions -/
namespace Yasl

/-! ## What the compiler adds -/

/-- The state after code `c` and possibly some literals were added. -/
def Ext (s s' : CState) (c : List Byte) : Prop :=
  ∃ q, s' = { s with buffer := s.buffer ++ c, pool := s.pool ++ q, header := s.header ++ q.flatMap headerEntry }

theorem Ext.refl (s : CState) : Ext s s [] := ⟨[], by simp⟩

theorem Ext.trans {s s1 s2 : CState} {c1 c2 : List Byte} (h1 : Ext s s1 c1) (h2 : Ext s1 s2 c2) : Ext s s2 (c1 ++ c2) := by
  obtain ⟨q1, rfl⟩ := h1
  obtain ⟨q2, rfl⟩ := h2
  exact ⟨q1 ++ q2, by simp⟩

theorem Ext.op (s : CState) (o : Opc) : Ext s (s.op o) [o.byte] := ⟨[], by simp [CState.op, CState.emit]⟩
theorem Ext.emit (s : CState) (b : Byte) : Ext s (s.emit b) [b] := ⟨[], by simp [CState.emit]⟩
theorem Ext.int (s : CState) (v : BitVec 64) : Ext s (s.int v) (bytes8 v) := ⟨[], by simp [CState.int]⟩
theorem Ext.jump (s : CState) (o : Opc) : Ext s (s.jump o) (o.byte :: bytes8 0) := (Ext.op s o).trans (Ext.int _ _)

theorem Ext.scopes {s s' : CState} {c : List Byte} (h : Ext s s' c) : s'.scopes = s.scopes := by obtain ⟨q, rfl⟩ := h; rfl
theorem Ext.globals {s s' : CState} {c : List Byte} (h : Ext s s' c) : s'.globals = s.globals := by obtain ⟨q, rfl⟩ := h; rfl
theorem Ext.checkpoints {s s' : CState} {c : List Byte} (h : Ext s s' c) : s'.checkpoints = s.checkpoints := by
  obtain ⟨q, rfl⟩ := h; rfl
theorem Ext.ok {s s' : CState} {c : List Byte} (h : Ext s s' c) : s'.ok = s.ok := by obtain ⟨q, rfl⟩ := h; rfl
theorem Ext.buffer {s s' : CState} {c : List Byte} (h : Ext s s' c) : s'.buffer = s.buffer ++ c := by obtain ⟨q, rfl⟩ := h; rfl
theorem Ext.pool {s s' : CState} {c : List Byte} (h : Ext s s' c) : s.pool <+: s'.pool := by
  obtain ⟨q, rfl⟩ := h; exact List.prefix_append _ _

theorem Ext.patch {s s' : CState} {c1 c2 : List Byte} {x : BitVec 64} (h : Ext s s' (c1 ++ bytes8 x ++ c2)) :
    Ext s (s'.patch (s.buffer.length + c1.length)) (c1 ++ bytes8 (BitVec.ofInt 64 c2.length) ++ c2) := by
  obtain ⟨q, rfl⟩ := h
  refine ⟨q, ?_⟩
  simp only [CState.patch]
  congr 1
  have e1 : (s.buffer ++ (c1 ++ bytes8 x ++ c2)).take (s.buffer.length + c1.length) = s.buffer ++ c1 := by
    rw [show s.buffer ++ (c1 ++ bytes8 x ++ c2) = (s.buffer ++ c1) ++ (bytes8 x ++ c2) by simp]
    rw [List.take_left' (by simp)]
  have e2 : (s.buffer ++ (c1 ++ bytes8 x ++ c2)).drop (s.buffer.length + c1.length + 8) = c2 := by
    rw [show s.buffer ++ (c1 ++ bytes8 x ++ c2) = (s.buffer ++ c1 ++ bytes8 x) ++ c2 by simp]
    rw [List.drop_left' (by simp; omega)]
  have e3 : ((s.buffer ++ (c1 ++ bytes8 x ++ c2)).length : Int) - (s.buffer.length + c1.length : Nat) - 8 = c2.length := by
    simp
  rw [e1, e2, e3]; simp

/-! ## Errors stay -/

@[simp] theorem CState.op_ok (s : CState) (o : Opc) : (s.op o).ok = s.ok := rfl
@[simp] theorem CState.emit_ok (s : CState) (o : Byte) : (s.emit o).ok = s.ok := rfl
@[simp] theorem CState.int_ok (s : CState) (o : BitVec 64) : (s.int o).ok = s.ok := rfl
@[simp] theorem CState.jump_ok (s : CState) (o : Opc) : (s.jump o).ok = s.ok := rfl
@[simp] theorem CState.patch_ok (s : CState) (i : Nat) : (s.patch i).ok = s.ok := rfl
@[simp] theorem CState.short_ok (s : CState) (o : Opc) : (s.shortcircuit o).ok = s.ok := rfl
@[simp] theorem CState.error_ok (s : CState) : s.error.ok = false := rfl
@[simp] theorem CState.intern_ok (s : CState) (v : Val) : (s.intern v).2.ok = s.ok := by unfold CState.intern; split <;> rfl
@[simp] theorem CState.literal_ok (s : CState) (i : Nat) : (s.literal i).ok = s.ok := by unfold CState.literal; split <;> rfl
@[simp] theorem CState.pushLiteral_ok (s : CState) (v : Val) : (s.pushLiteral v).ok = s.ok := by simp [CState.pushLiteral]
theorem CState.loadVar_ok {s : CState} {x : Name} (h : (s.loadVar x).ok = true) : s.ok = true := by
  unfold CState.loadVar at h
  split at h
  · simpa using h
  · split at h
    · simpa using h
    · simp at h
theorem CState.storeVar_ok {s : CState} {x : Name} (h : (s.storeVar x).ok = true) : s.ok = true := by
  unfold CState.storeVar at h
  repeat' split at h
  all_goals simp_all

mutual
theorem visitExpr_ok : ∀ (e : Expr) (s : CState), (visitExpr e s).ok = true → s.ok = true
  | .undef, s, h => by simpa [visitExpr] using h
  | .bool b, s, h => by simpa [visitExpr] using h
  | .int i, s, h => by simpa [visitExpr] using h
  | .float f, s, h => by simpa [visitExpr] using h
  | .str t, s, h => by simpa [visitExpr] using h
  | .var x, s, h => CState.loadVar_ok (by simpa [visitExpr] using h)
  | .un o e, s, h => visitExpr_ok e s (by simpa [visitExpr] using h)
  | .bin (.op o) l r, s, h => visitExpr_ok l s (visitExpr_ok r _ (by simpa [visitExpr] using h))
  | .bin .ne l r, s, h => visitExpr_ok l s (visitExpr_ok r _ (by simpa [visitExpr] using h))
  | .bin .nid l r, s, h => visitExpr_ok l s (visitExpr_ok r _ (by simpa [visitExpr] using h))
  | .bin .and l r, s, h => visitExpr_ok l s (visitExpr_ok r ((visitExpr l s).shortcircuit .BRF_8) (by simpa [visitExpr] using h))
  | .bin .or l r, s, h => visitExpr_ok l s (visitExpr_ok r ((visitExpr l s).shortcircuit .BRT_8) (by simpa [visitExpr] using h))
  | .bin .coalesce l r, s, h => visitExpr_ok l s (visitExpr_ok r ((visitExpr l s).shortcircuit .BRN_8) (by simpa [visitExpr] using h))
  | .tri c a b, s, h => by
    have h1 := visitExpr_ok b _ (by simpa [visitExpr] using h)
    have h2 := visitExpr_ok a _ (by simpa using h1)
    exact visitExpr_ok c s (by simpa using h2)
  | .list es, s, h => visitExprs_ok es (s.op .END) (by simpa [visitExpr] using h)
  | .table es, s, h => visitExprs_ok es (s.op .END) (by simpa [visitExpr] using h)
  | .get c k, s, h => visitExpr_ok c s (visitExpr_ok k _ (by simpa [visitExpr] using h))
  | .slice c a b, s, h => visitExpr_ok c s (visitExpr_ok a _ (visitExpr_ok b _ (by simpa [visitExpr] using h)))
theorem visitExprs_ok : ∀ (es : Exprs) (s : CState), (visitExprs es s).ok = true → s.ok = true
  | .nil, s, h => by simpa [visitExprs] using h
  | .cons e es, s, h => visitExpr_ok e s (visitExprs_ok es _ (by simpa [visitExprs] using h))
end

/-! ## Scopes and environments -/

/-- The names of the scopes are the names of the environment, and the index of each is its position from the oldest. -/
def EnvRepL : Scope → LEnv → Prop
  | [], [] => True
  | (x, v) :: sc, (y, _) :: env => x = y ∧ getIndex v = BitVec.ofNat 64 env.length ∧ EnvRepL sc env
  | _, _ => False

def EnvRep (scs : List Scope) (env : LEnv) : Prop := EnvRepL scs.flatten env

theorem scopeGet_flatten (scs : List Scope) (x : Name) : scopeGet scs x = Scope.get scs.flatten x := by
  induction scs with
  | nil => rfl
  | cons sc scs ih =>
    simp only [scopeGet, List.flatten_cons, Scope.get, List.find?_append] at ih ⊢
    cases h : List.find? (fun p => p.1 == x) sc with
    | some v => simp
    | none => simpa using ih

theorem scopeLen_flatten (scs : List Scope) : scopeLen scs = scs.flatten.length := by
  simp [scopeLen, List.length_flatten]

theorem EnvRepL.length : ∀ {sc : Scope} {env : LEnv}, EnvRepL sc env → sc.length = env.length
  | [], [], _ => rfl
  | (x, v) :: sc, (y, _) :: env, h => by simp [EnvRepL.length h.2.2]
  | [], _ :: _, h => by simp [EnvRepL] at h
  | _ :: _, [], h => by simp [EnvRepL] at h

theorem EnvRep.length {scs : List Scope} {env : LEnv} (h : EnvRep scs env) : scopeLen scs = env.length := by
  rw [scopeLen_flatten]; exact EnvRepL.length h

theorem EnvRepL.get_none : ∀ {sc : Scope} {env : LEnv} {x : Name}, EnvRepL sc env → (sc.get x = none ↔ env.find x = none)
  | [], [], x, _ => by simp [Scope.get, LEnv.find]
  | (y, v) :: sc, (_, u) :: env, x, ⟨rfl, _, h⟩ => by
    have ih := EnvRepL.get_none (x := x) h
    simp only [Scope.get, LEnv.find, List.find?_cons] at ih ⊢
    cases hyx : y == x
    · simpa using ih
    · simp
  | [], _ :: _, _, h => by simp [EnvRepL] at h
  | _ :: _, [], _, h => by simp [EnvRepL] at h

theorem EnvRepL.get_some : ∀ {sc : Scope} {env : LEnv} {x : Name} {v : BitVec 64}, EnvRepL sc env → sc.get x = some v →
    ∃ j u, env[j]? = some (x, u) ∧ env.find x = some u ∧ getIndex v = BitVec.ofNat 64 (env.length - 1 - j) ∧
      ∀ u', env.update x u' = env.set j (x, u')
  | [], [], x, v, _, hv => by simp [Scope.get] at hv
  | (y, z) :: sc, (_, u) :: env, x, v, ⟨rfl, hz, h⟩, hv => by
    by_cases hyx : y = x
    · subst hyx
      simp only [Scope.get, List.find?_cons, beq_self_eq_true] at hv
      simp at hv; subst hv
      exact ⟨0, u, by simp, by simp [LEnv.find], by simpa using hz, by simp [LEnv.update]⟩
    · have hyx' : (y == x) = false := by simpa using hyx
      simp only [Scope.get, List.find?_cons, hyx'] at hv
      obtain ⟨j, u', h1, h2, h3, h4⟩ := EnvRepL.get_some (x := x) h hv
      refine ⟨j + 1, u', by simpa using h1, ?_, ?_, ?_⟩
      · simpa [LEnv.find, List.find?_cons, hyx'] using h2
      · rw [h3]; congr 1; simp; omega
      · intro u''; simp [LEnv.update, hyx, h4]
  | [], _ :: _, _, _, h, _ => by simp [EnvRepL] at h
  | _ :: _, [], _, _, h, _ => by simp [EnvRepL] at h

theorem EnvRepL.set : ∀ {sc : Scope} {env : LEnv} {j : Nat} {x : Name} {u u' : Val}, EnvRepL sc env → env[j]? = some (x, u) →
    EnvRepL sc (env.set j (x, u'))
  | [], [], j, x, u, u', h, hj => by simp at hj
  | (y, z) :: sc, (_, t) :: env, 0, x, u, u', ⟨rfl, hz, h⟩, hj => by
    simp at hj; obtain ⟨rfl, rfl⟩ := hj
    exact ⟨rfl, hz, h⟩
  | (y, z) :: sc, (_, t) :: env, j + 1, x, u, u', ⟨rfl, hz, h⟩, hj => by
    refine ⟨rfl, by simpa using hz, EnvRepL.set h (by simpa using hj)⟩
  | [], _ :: _, _, _, _, _, h, _ => by simp [EnvRepL] at h
  | _ :: _, [], _, _, _, _, h, _ => by simp [EnvRepL] at h

theorem setWidth_ofNat (n : Nat) : (BitVec.ofNat 64 n).setWidth 8 = BitVec.ofNat 8 n := by
  apply BitVec.eq_of_toNat_eq; simp

/-! ## The state of the machine while an expression is evaluated -/

/-- What does not change during the evaluation of an expression: the code, the constants, the frame pointer, loops, globals, output, the
local variables, and the stack below them. -/
structure Frame where
  code : List Byte
  K : List Val
  fp : Int
  loops : List (Nat × Val)
  g : Name → Option Val
  out : List Byte
  env : LEnv
  below : List Val

/-- The machine at position `p`, with `temps` on top of the local variables. -/
def Frame.vm {W : Type} (f : Frame) (p : Nat) (temps : List Val) (w : W) : VM W :=
  ⟨p, temps ++ (f.env.map Prod.snd ++ f.below), f.fp, f.loops, f.g, w, f.out⟩

/-- The values of the names. -/
def Frame.look (f : Frame) (x : Name) : Option Val :=
  match f.env.find x with
  | some v => some v
  | none => f.g x

structure Frame.Ok (f : Frame) (scs : List Scope) (gs : Scope) : Prop where
  rep : EnvRep scs f.env
  fpEq : f.fp + 1 = f.below.length
  small : f.env.length ≤ 128
  codeLen : f.code.length < 2 ^ 63
  KLen : f.K.length < 2 ^ 63
  defined : ∀ x, gs.get x ≠ none → f.g x ≠ none
  gEnd : ∀ x v, f.g x = some v → v ≠ .end_
  envEnd : ∀ q ∈ f.env, q.2 ≠ .end_

/-- Room for `n` more values above `temps`. -/
def Frame.Room (f : Frame) (temps : List Val) (n : Nat) : Prop :=
  temps.length + f.env.length + f.below.length + n ≤ stackSize

/-- The names of the declared globals are literals. -/
def PoolOk (gs : Scope) (pool : List Val) : Prop := ∀ x, gs.get x ≠ none → .str x ∈ pool

theorem PoolOk.mono {gs : Scope} {p q : List Val} (h : PoolOk gs p) (hpq : p <+: q) : PoolOk gs q :=
  fun x hx => hpq.subset (h x hx)

theorem needE_pos : ∀ e : Expr, 1 ≤ needE e
  | .un _ e => by simpa [needE] using needE_pos e
  | .bin t l r => by
    have := needE_pos l
    rcases t with o | _ | _ | _ | _ | _ <;> simp only [needE] <;> omega
  | .tri c a b => by have := needE_pos c; simp only [needE]; omega
  | .list es => by simp only [needE]; omega
  | .table es => by simp only [needE]; omega
  | .get c k => by simp only [needE]; omega
  | .slice c a b => by simp only [needE]; omega
  | .undef | .bool _ | .int _ | .float _ | .str _ | .var _ => by simp [needE]

section
variable {W : Type} (F : FloatOps) (P : Prims W)

/-- Code `c` for the expression `e` does what the expression means. -/
def ExprSem (scs : List Scope) (gs : Scope) (pool : List Val) (e : Expr) (c : List Byte) : Prop :=
  ∀ (f : Frame) (p : Nat) (temps : List Val) (w : W), f.Ok scs gs → pool <+: f.K → At f.code p c → WfE e → f.Room temps (needE e) →
    Sim F P f.code f.K (f.vm p temps w) (eval F P f.look e w) (fun w v => f.vm (p + c.length) (v :: temps) w)

/-- The same for several expressions. -/
def ExprsSem (scs : List Scope) (gs : Scope) (pool : List Val) (es : Exprs) (c : List Byte) : Prop :=
  ∀ (f : Frame) (p : Nat) (temps : List Val) (w : W), f.Ok scs gs → pool <+: f.K → At f.code p c → WfEs es → f.Room temps (needEs es) →
    Sim F P f.code f.K (f.vm p temps w) (evalAll F P f.look es w) (fun w vs => f.vm (p + c.length) (vs.reverse ++ temps) w)

variable {F P}

theorem ofIntChecked_noEnd {x : Int} {v : Val} (h : ofIntChecked x = .val v) : v ≠ .end_ := by
  unfold ofIntChecked at h
  split at h
  · simp only [OpRes.val.injEq] at h; subst h; simp
  · simp at h

theorem intBinop_noEnd {f : BitVec 64 → BitVec 64 → OpRes} (hf : ∀ x y v, f x y = .val v → v ≠ .end_) {a b v : Val}
    (h : intBinop f a b = .val v) : v ≠ .end_ := by
  unfold intBinop at h
  split at h
  · exact hf _ _ _ h
  · simp at h

theorem numBinop_noEnd {f : BitVec 64 → BitVec 64 → OpRes} {g : BitVec 64 → BitVec 64 → BitVec 64}
    (hf : ∀ x y v, f x y = .val v → v ≠ .end_) {a b v : Val} (h : numBinop f g a b = .val v) : v ≠ .end_ := by
  unfold numBinop at h
  split at h
  · exact hf _ _ _ h
  · split at h
    · simp only [OpRes.val.injEq] at h; subst h; simp
    · simp at h

theorem compOp_noEnd {cmp : List Byte → List Byte → Int} {ci : Int → Int → Bool} {cf : BitVec 64 → BitVec 64 → Bool} {a b v : Val}
    (h : compOp cmp ci cf a b = .val v) : v ≠ .end_ := by
  unfold compOp at h
  split at h
  · simp only [OpRes.val.injEq] at h; subst h; simp
  · simp only [OpRes.val.injEq] at h; subst h; simp
  · split at h
    · simp only [OpRes.val.injEq] at h; subst h; simp
    · simp at h

theorem binOp_noEnd {o : BinOp} {a b v : Val} (h : binOp F o a b = .val v) : v ≠ .end_ := by
  cases o <;> simp only [binOp] at h
  case bor | bxor | band | bandnot => exact intBinop_noEnd (by simp +contextual [eq_comm]) h
  case shl => exact intBinop_noEnd (fun x y v h => by unfold intShl at h; split at h; exact ofIntChecked_noEnd h; simp at h) h
  case shr =>
    exact intBinop_noEnd (fun x y v h => by
      unfold intShr at h
      split at h
      · simp only [OpRes.val.injEq] at h; subst h; simp
      · simp at h) h
  case add | sub | mul => exact numBinop_noEnd (fun x y v h => ofIntChecked_noEnd h) h
  case fdiv =>
    split at h
    · simp only [OpRes.val.injEq] at h; subst h; simp
    · simp at h
  case idiv =>
    split at h
    · simp at h
    · exact intBinop_noEnd (fun x y v h => ofIntChecked_noEnd h) h
  case mod =>
    split at h
    · simp at h
    · exact intBinop_noEnd (fun x y v h => by split at h; simp at h; exact ofIntChecked_noEnd h) h
  case pow =>
    split at h
    · split at h
      · simp only [OpRes.val.injEq] at h; subst h; simp
      · split at h
        · simp only [OpRes.val.injEq] at h; subst h; simp
        · simp at h
    · split at h
      · simp only [OpRes.val.injEq] at h; subst h; simp
      · simp at h
  case lt | le | gt | ge => exact compOp_noEnd h
  case eq =>
    split at h
    · simp at h
    · simp at h
    · simp at h
    · simp only [OpRes.val.injEq] at h; subst h; simp
  case id =>
    split at h
    · simp at h
    · simp only [OpRes.val.injEq] at h; subst h; simp
  case cnct =>
    split at h
    · simp only [OpRes.val.injEq] at h; subst h; simp
    · simp at h

theorem unOp_noEnd {o : UnOp} {a v : Val} (h : unOp o a = .val v) : v ≠ .end_ := by
  unfold unOp at h
  split at h
  all_goals first
    | exact ofIntChecked_noEnd h
    | (simp only [OpRes.val.injEq] at h; subst h; simp)
    | simp at h

theorem applyBin_noEnd (hP : P.NoEnd) {w w' : W} {o : BinOp} {a b v : Val} (h : applyBin F P w o a b = (w', .ok v)) : v ≠ .end_ := by
  unfold applyBin at h
  split at h
  · rename_i u hu
    simp only [Prod.mk.injEq, Except.ok.injEq] at h
    rw [← h.2]; exact binOp_noEnd hu
  · simp at h
  · simp at h
  · simp at h
  · exact hP.binary _ _ _ _ _ _ h

theorem applyUn_noEnd (hP : P.NoEnd) {w w' : W} {o : UnOp} {a v : Val} (h : applyUn P w o a = (w', .ok v)) : v ≠ .end_ := by
  unfold applyUn at h
  split at h
  · rename_i u hu
    simp only [Prod.mk.injEq, Except.ok.injEq] at h
    rw [← h.2]; exact unOp_noEnd hu
  · simp at h
  · simp at h
  · simp at h
  · exact hP.unary _ _ _ _ _ h

theorem PRes.bind_eq_ok {α β : Type} {r : PRes W α} {k : W → α → PRes W β} {w : W} {b : β} (h : r.bind k = (w, .ok b)) :
    ∃ w1 a, r = (w1, .ok a) ∧ k w1 a = (w, .ok b) := by
  obtain ⟨w1, r⟩ := r
  cases r with
  | ok a => exact ⟨w1, a, rfl, h⟩
  | error e => simp [PRes.bind] at h

mutual
theorem eval_noEnd (hP : P.NoEnd) {ρ : Name → Option Val} (hρ : ∀ x v, ρ x = some v → v ≠ .end_) :
    ∀ (e : Expr) (w w' : W) (v : Val), eval F P ρ e w = (w', .ok v) → v ≠ .end_
  | .undef, w, w', v, h => by simp [eval] at h; rw [← h.2]; simp
  | .bool b, w, w', v, h => by simp [eval] at h; rw [← h.2]; simp
  | .int b, w, w', v, h => by simp [eval] at h; rw [← h.2]; simp
  | .float b, w, w', v, h => by simp [eval] at h; rw [← h.2]; simp
  | .str b, w, w', v, h => by simp [eval] at h; rw [← h.2]; simp
  | .var x, w, w', v, h => by
    simp only [eval] at h
    split at h
    · rename_i u hu
      simp only [Prod.mk.injEq, Except.ok.injEq] at h
      rw [← h.2]; exact hρ _ _ hu
    · simp at h
  | .un o e, w, w', v, h => by
    obtain ⟨w1, a, h1, h2⟩ := PRes.bind_eq_ok (by simpa only [eval] using h)
    exact applyUn_noEnd hP h2
  | .bin (.op o) l r, w, w', v, h => by
    obtain ⟨w1, a, h1, h2⟩ := PRes.bind_eq_ok (by simpa only [eval] using h)
    obtain ⟨w2, b, h3, h4⟩ := PRes.bind_eq_ok h2
    exact applyBin_noEnd hP h4
  | .bin .ne l r, w, w', v, h => by
    obtain ⟨w1, a, h1, h2⟩ := PRes.bind_eq_ok (by simpa only [eval] using h)
    simp at h2; rw [← h2.2]; simp
  | .bin .nid l r, w, w', v, h => by
    obtain ⟨w1, a, h1, h2⟩ := PRes.bind_eq_ok (by simpa only [eval] using h)
    simp at h2; rw [← h2.2]; simp
  | .bin .and l r, w, w', v, h => by
    obtain ⟨w1, a, h1, h2⟩ := PRes.bind_eq_ok (by simpa only [eval] using h)
    split at h2
    · simp at h2; rw [← h2.2]; exact eval_noEnd hP hρ l _ _ _ h1
    · exact eval_noEnd hP hρ r _ _ _ h2
  | .bin .or l r, w, w', v, h => by
    obtain ⟨w1, a, h1, h2⟩ := PRes.bind_eq_ok (by simpa only [eval] using h)
    split at h2
    · exact eval_noEnd hP hρ r _ _ _ h2
    · simp at h2; rw [← h2.2]; exact eval_noEnd hP hρ l _ _ _ h1
  | .bin .coalesce l r, w, w', v, h => by
    obtain ⟨w1, a, h1, h2⟩ := PRes.bind_eq_ok (by simpa only [eval] using h)
    split at h2
    · exact eval_noEnd hP hρ r _ _ _ h2
    · simp at h2; rw [← h2.2]; exact eval_noEnd hP hρ l _ _ _ h1
  | .tri c a b, w, w', v, h => by
    obtain ⟨w1, u, h1, h2⟩ := PRes.bind_eq_ok (by simpa only [eval] using h)
    split at h2
    · exact eval_noEnd hP hρ b _ _ _ h2
    · exact eval_noEnd hP hρ a _ _ _ h2
  | .list es, w, w', v, h => by
    obtain ⟨w1, u, h1, h2⟩ := PRes.bind_eq_ok (by simpa only [eval] using h)
    exact hP.newList _ _ _ _ h2
  | .table es, w, w', v, h => by
    obtain ⟨w1, u, h1, h2⟩ := PRes.bind_eq_ok (by simpa only [eval] using h)
    exact hP.newTable _ _ _ _ h2
  | .get c k, w, w', v, h => by
    obtain ⟨w1, u, h1, h2⟩ := PRes.bind_eq_ok (by simpa only [eval] using h)
    obtain ⟨w2, b, h3, h4⟩ := PRes.bind_eq_ok h2
    exact hP.get _ _ _ _ _ h4
  | .slice c a b, w, w', v, h => by
    obtain ⟨w1, u, h1, h2⟩ := PRes.bind_eq_ok (by simpa only [eval] using h)
    obtain ⟨w2, b, h3, h4⟩ := PRes.bind_eq_ok h2
    obtain ⟨w3, b, h5, h6⟩ := PRes.bind_eq_ok h4
    exact hP.slice _ _ _ _ _ _ h6
end

theorem evalAll_noEnd (hP : P.NoEnd) {ρ : Name → Option Val} (hρ : ∀ x v, ρ x = some v → v ≠ .end_) :
    ∀ (es : Exprs) (w w' : W) (vs : List Val), evalAll F P ρ es w = (w', .ok vs) → ∀ v ∈ vs, v ≠ .end_
  | .nil, w, w', vs, h => by simp [evalAll] at h; simp [h.2]
  | .cons e es, w, w', vs, h => by
    obtain ⟨w1, u, h1, h2⟩ := PRes.bind_eq_ok (by simpa only [evalAll] using h)
    obtain ⟨w2, us, h3, h4⟩ := PRes.bind_eq_ok h2
    simp only [Prod.mk.injEq, Except.ok.injEq] at h4
    rw [← h4.2]
    intro v hv
    rcases List.mem_cons.1 hv with rfl | hv
    · exact eval_noEnd hP hρ e _ _ _ h1
    · exact evalAll_noEnd hP hρ es _ _ _ h3 v hv

theorem Frame.Ok.look_noEnd {f : Frame} {scs : List Scope} {gs : Scope} (h : f.Ok scs gs) (x : Name) (v : Val) (hv : f.look x = some v) :
    v ≠ .end_ := by
  unfold Frame.look at hv
  split at hv
  · rename_i u hu
    simp only [Option.some.injEq] at hv; subst hv
    unfold LEnv.find at hu
    simp only [Option.map_eq_some_iff] at hu
    obtain ⟨q, hq, rfl⟩ := hu
    exact h.envEnd q (List.mem_of_find?_eq_some hq)
  · exact h.gEnd x v hv

theorem prefix_get {K pool : List Val} (h : pool <+: K) {i : Nat} {v : Val} (hv : pool[i]? = some v) : K[i]? = some v := by
  obtain ⟨t, rfl⟩ := h
  have hi : i < pool.length := by
    by_contra hc
    rw [List.getElem?_eq_none (by omega)] at hv; simp at hv
  rw [List.getElem?_append_left hi]; exact hv

theorem intern_spec (s : CState) (v : Val) : Ext s (s.intern v).2 [] ∧ (s.intern v).2.pool[(s.intern v).1]? = some v := by
  unfold CState.intern
  split
  · rename_i i hi
    refine ⟨Ext.refl s, ?_⟩
    split at hi
    · obtain ⟨h1, h2, h3⟩ := List.idxOf?_eq_some_iff.1 hi
      rw [List.getElem?_eq_getElem h1, h2]
    · simp at hi
  · refine ⟨⟨[v], by simp⟩, by simp⟩

theorem nameIndex_spec {s : CState} {x : Name} (h : .str x ∈ s.pool) :
    ∃ i, s.nameIndex x = BitVec.ofNat 64 i ∧ s.pool[i]? = some (.str x) := by
  unfold CState.nameIndex
  cases hi : s.pool.idxOf? (.str x) with
  | none => simp [List.idxOf?_eq_none_iff] at hi; contradiction
  | some i =>
    obtain ⟨h1, h2, h3⟩ := List.idxOf?_eq_some_iff.1 hi
    exact ⟨i, rfl, by rw [List.getElem?_eq_getElem h1, h2]⟩

theorem get_lt {K : List Val} {i : Nat} {v : Val} (h : K[i]? = some v) : i < K.length := by
  by_contra hc
  rw [List.getElem?_eq_none (by omega)] at h; simp at h

theorem ExprSem.mono {scs : List Scope} {gs : Scope} {pool pool' : List Val} {e : Expr} {c : List Byte}
    (h : ExprSem F P scs gs pool e c) (hp : pool <+: pool') : ExprSem F P scs gs pool' e c :=
  fun f p temps w hf hK hA hW hR => h f p temps w hf (hp.trans hK) hA hW hR

theorem pushLiteral_spec (s : CState) (v : Val) : ∃ c, Ext s (s.pushLiteral v) c ∧
    ∀ (f : Frame) (p : Nat) (temps : List Val) (w : W), f.K.length < 2 ^ 63 → (s.pushLiteral v).pool <+: f.K → At f.code p c →
      f.Room temps 1 → VM.step F P f.code f.K (f.vm p temps w) = .next (f.vm (p + c.length) (v :: temps) w) := by
  obtain ⟨h1, h2⟩ := intern_spec s v
  simp only [CState.pushLiteral, CState.literal]
  split
  · rename_i hi
    refine ⟨[Opc.LIT.byte, BitVec.ofNat 8 (s.intern v).1], by simpa using h1.trans ((Ext.op _ _).trans (Ext.emit _ _)), ?_⟩
    intro f p temps w hl hK hA hR
    refine step_lit hi hA (prefix_get hK h2) ?_
    simp [Frame.Room] at hR ⊢; omega
  · rename_i hi
    refine ⟨Opc.LIT8.byte :: bytes8 (BitVec.ofNat 64 (s.intern v).1), by simpa using h1.trans ((Ext.op _ _).trans (Ext.int _ _)), ?_⟩
    intro f p temps w hl hK hA hR
    have h3 := prefix_get hK h2
    refine step_lit8 (by have := get_lt h3; omega) hA h3 ?_
    simp [Frame.Room] at hR ⊢; omega

/-- A local variable is where its index says. -/
theorem Frame.Ok.slot {f : Frame} {scs : List Scope} {gs : Scope} (hf : f.Ok scs gs) {x : Name} {v : BitVec 64}
    (hv : scopeGet scs x = some v) : ∃ i j u, getIndex v = BitVec.ofNat 64 i ∧ i < 128 ∧ i + j + 1 = f.env.length ∧
      f.env[j]? = some (x, u) ∧ f.env.find x = some u ∧ ∀ u', f.env.update x u' = f.env.set j (x, u') := by
  rw [scopeGet_flatten] at hv
  obtain ⟨j, u, h1, h2, h3, h4⟩ := EnvRepL.get_some hf.rep hv
  have hj : j < f.env.length := by
    by_contra hc
    rw [List.getElem?_eq_none (by omega)] at h1; simp at h1
  exact ⟨f.env.length - 1 - j, j, u, h3, by have := hf.small; omega, by omega, h1, h2, h4⟩

theorem loadVar_spec (s : CState) (x : Name) (hok : (s.loadVar x).ok = true) (hg : PoolOk s.globals s.pool) :
    ∃ c, Ext s (s.loadVar x) c ∧ ExprSem F P s.scopes s.globals (s.loadVar x).pool (.var x) c := by
  unfold CState.loadVar at hok ⊢
  split
  · rename_i v hv
    refine ⟨[Opc.LLOAD.byte, (getIndex v).setWidth 8], (Ext.op _ _).trans (Ext.emit _ _), ?_⟩
    intro f p temps w hf hK hA hW hR
    obtain ⟨i, j, u, h1, h2, h3, h4, h5, h6⟩ := hf.slot hv
    have hl : f.look x = some u := by simp [Frame.look, h5]
    rw [h1, setWidth_ofNat] at hA
    simp only [eval, hl]
    refine ⟨1, ?_⟩
    rw [VM.run_one]
    have hj : j < f.env.length := by omega
    refine step_lload (j := temps.length + j) h2 hA ?_ ?_ ?_ ?_
    · have := hf.fpEq; simp; omega
    · have := hf.fpEq; omega
    · rw [List.getElem?_append_right (by omega), List.getElem?_append_left (by simp; omega)]
      simp [h4]
    · simp [Frame.Room, needE] at hR ⊢; omega
  · rename_i hv
    split
    · rename_i hgx
      obtain ⟨i, h1, h2⟩ := nameIndex_spec (hg x hgx)
      refine ⟨Opc.GLOAD_8.byte :: bytes8 (s.nameIndex x), (Ext.op _ _).trans (Ext.int _ _), ?_⟩
      intro f p temps w hf hK hA hW hR
      rw [h1] at hA
      have hn : f.env.find x = none := by
        rw [scopeGet_flatten] at hv
        exact (EnvRepL.get_none hf.rep).1 hv
      obtain ⟨u, hu⟩ := Option.ne_none_iff_exists'.1 (hf.defined x hgx)
      have hl : f.look x = some u := by simp [Frame.look, hn, hu]
      simp only [eval, hl]
      have h3 := prefix_get (K := f.K) hK h2
      refine ⟨1, ?_⟩
      rw [VM.run_one]
      refine step_gload (by have := get_lt h3; have := hf.KLen; omega) hA h3 hu ?_
      simp [Frame.Room, needE] at hR ⊢; omega
    · rename_i hgx
      rw [hv] at hok
      simp [hgx] at hok

theorem Frame.Room.mono {f : Frame} {t t' : List Val} {n n' : Nat} (h : f.Room t n) (hl : t'.length + n' ≤ t.length + n) : f.Room t' n' := by
  unfold Frame.Room at *; omega

theorem shortcircuit_spec (s : CState) (o : Opc) : Ext s (s.shortcircuit o) ([Opc.DUP.byte, o.byte] ++ bytes8 0 ++ [Opc.POP.byte]) := by
  have := ((Ext.op s .DUP).trans (Ext.jump _ o)).trans (Ext.op _ .POP)
  simpa [CState.shortcircuit] using this

/-- The three short-circuiting operators. -/
theorem short_sem {scs : List Scope} {gs : Scope} {pool : List Val} {l r e : Expr} {cl cr : List Byte} {o : Opc} {test : Val → Bool}
    (ho : BrTest o test) (hl : ExprSem F P scs gs pool l cl) (hr : ExprSem F P scs gs pool r cr)
    (hW : WfE e → WfE l ∧ WfE r) (hN : needE e = max (max (needE l) 2) (needE r))
    (he : ∀ ρ w, eval F P ρ e w = (eval F P ρ l w).bind fun w a => if test a then (w, .ok a) else eval F P ρ r w) :
    ExprSem F P scs gs pool e
      (cl ++ ([Opc.DUP.byte, o.byte] ++ bytes8 (BitVec.ofInt 64 (Opc.POP.byte :: cr).length) ++ (Opc.POP.byte :: cr))) := by
  intro f p temps w hf hK hA hWe hR
  rw [he]
  rw [hN] at hR
  have hA2 := hA.right
  refine Sim.bind (hl f p temps w hf hK hA.left (hW hWe).1 (hR.mono (by omega))) (fun _ _ => rfl) (fun _ _ => rfl) ?_
  intro w1 a _
  -- DUP
  refine Sim.step (step_dup (c := _) a hA2.left.left ?_) rfl rfl ?_
  · simp [Frame.Room] at hR ⊢; omega
  have hA3 : At f.code (p + cl.length + 1) (o.byte :: bytes8 (BitVec.ofInt 64 (Opc.POP.byte :: cr).length)) :=
    At.tail (b := Opc.DUP.byte) hA2.left
  have hA4 := hA2.right
  have hlen : (Opc.POP.byte :: cr).length < 2 ^ 63 := by
    have := hA4.length_le'; have := hf.codeLen; omega
  have hst := fun st => step_cond (F := F) (P := P) (K := f.K) (st := st) (fp := f.fp) (loops := f.loops) (g := f.g) (w := w1) (out := f.out) ho a hA3
  by_cases ht : test a
  · rw [if_pos ht]
    refine Sim.step (m' := f.vm (p + cl.length + 1 + 9 + (Opc.POP.byte :: cr).length) (a :: temps) w1) ?_ rfl rfl (Sim.done ?_)
    · rw [hst, if_pos ht, jumpBy_forward hlen]; rfl
    · simp [Frame.vm]; omega
  · rw [if_neg ht]
    refine Sim.step (m' := f.vm (p + cl.length + 1 + 9) (a :: temps) w1) ?_ rfl rfl ?_
    · rw [hst, if_neg ht]; rfl
    have hA5 : At f.code (p + cl.length + 1 + 9) (Opc.POP.byte :: cr) := hA4.cast (by simp)
    refine Sim.step (m' := f.vm (p + cl.length + 1 + 9 + 1) temps w1) (step_pop a hA5) rfl rfl ?_
    have := hr f (p + cl.length + 1 + 9 + 1) temps w1 hf hK hA5.tail (hW hWe).2 (hR.mono (by omega))
    convert this using 4
    simp; omega

theorem tri_sem {scs : List Scope} {gs : Scope} {pool : List Val} {e1 e2 e3 : Expr} {c1 c2 c3 : List Byte}
    (h1 : ExprSem F P scs gs pool e1 c1) (h2 : ExprSem F P scs gs pool e2 c2) (h3 : ExprSem F P scs gs pool e3 c3) :
    ExprSem F P scs gs pool (.tri e1 e2 e3)
      (c1 ++ [Opc.BRF_8.byte] ++ bytes8 (BitVec.ofInt 64 (c2 ++ Opc.BR_8.byte :: bytes8 (BitVec.ofInt 64 c3.length)).length) ++
        (c2 ++ Opc.BR_8.byte :: bytes8 (BitVec.ofInt 64 c3.length)) ++ c3) := by
  intro f p temps w hf hK hA hW hR
  simp only [WfE] at hW
  simp only [needE] at hR
  simp only [eval]
  have hA1 : At f.code p c1 := hA.left.left.left.left
  have hA2 : At f.code (p + c1.length)
      (Opc.BRF_8.byte :: bytes8 (BitVec.ofInt 64 (c2 ++ Opc.BR_8.byte :: bytes8 (BitVec.ofInt 64 c3.length)).length)) := by
    have := hA.left.left
    rw [List.append_assoc] at this
    exact this.right
  have hA3 : At f.code (p + c1.length + 9) (c2 ++ Opc.BR_8.byte :: bytes8 (BitVec.ofInt 64 c3.length)) :=
    hA.left.right.cast (by simp; omega)
  have hA4 : At f.code (p + c1.length + 9 + c2.length) (Opc.BR_8.byte :: bytes8 (BitVec.ofInt 64 c3.length)) := hA3.right
  have hA5 : At f.code (p + c1.length + 9 + c2.length + 9) c3 := hA.right.cast (by simp; omega)
  refine Sim.bind (h1 f p temps w hf hK hA1 hW.1 (hR.mono (by omega))) (fun _ _ => rfl) (fun _ _ => rfl) ?_
  intro w1 a _
  have hst := fun st => step_cond (F := F) (P := P) (K := f.K) (st := st) (fp := f.fp) (loops := f.loops) (g := f.g) (w := w1) (out := f.out) BrTest.f a hA2
  have hlen : (c2 ++ Opc.BR_8.byte :: bytes8 (BitVec.ofInt 64 c3.length)).length < 2 ^ 63 := by
    have := hA3.length_le'; have := hf.codeLen; omega
  have hlen3 : c3.length < 2 ^ 63 := by
    have := hA5.length_le'; have := hf.codeLen; omega
  by_cases ht : a.falsey
  · rw [if_pos ht]
    refine Sim.step (m' := f.vm (p + c1.length + 9 + (c2 ++ Opc.BR_8.byte :: bytes8 (BitVec.ofInt 64 c3.length)).length) temps w1) ?_ rfl rfl ?_
    · have := hst (temps ++ (f.env.map Prod.snd ++ f.below))
      rw [if_pos ht, jumpBy_forward hlen] at this
      exact this
    · have := h3 f (p + c1.length + 9 + c2.length + 9) temps w1 hf hK hA5 hW.2.2 (hR.mono (by omega))
      convert this using 2
      · simp; omega
      · funext v; congr 1; simp only [List.length_append, List.length_cons, List.length_nil, bytes8_length]; omega
  · rw [if_neg ht]
    refine Sim.step (m' := f.vm (p + c1.length + 9) temps w1) ?_ rfl rfl ?_
    · have := hst (temps ++ (f.env.map Prod.snd ++ f.below))
      rw [if_neg ht] at this
      exact this
    · have := h2 f (p + c1.length + 9) temps w1 hf hK hA3.left hW.2.1 (hR.mono (by omega))
      -- then jump over the third
      have hb : ∀ w v, VM.step F P f.code f.K (f.vm (p + c1.length + 9 + c2.length) (v :: temps) w) =
          .next (f.vm (p + c1.length + 9 + c2.length + 9 + c3.length) (v :: temps) w) := by
        intro w v
        have := step_br (F := F) (P := P) (K := f.K) (st := (v :: temps) ++ (f.env.map Prod.snd ++ f.below)) (fp := f.fp) (loops := f.loops) (g := f.g)
          (w := w) (out := f.out) hA4
        rw [jumpBy_forward hlen3] at this
        exact this
      have hb2 := Sim.bind (f := fun w v => (w, .ok v)) (nx' := fun w v => f.vm (p + (c1 ++ [Opc.BRF_8.byte] ++
          bytes8 (BitVec.ofInt 64 (c2 ++ Opc.BR_8.byte :: bytes8 (BitVec.ofInt 64 c3.length)).length) ++
        (c2 ++ Opc.BR_8.byte :: bytes8 (BitVec.ofInt 64 c3.length)) ++ c3).length) (v :: temps) w) this (fun _ _ => rfl) (fun _ _ => rfl) (by
          intro w v _
          refine Sim.step (hb w v) rfl rfl (Sim.done ?_)
          congr 1; simp; omega)
      convert hb2 using 1
      obtain ⟨w2, r | r⟩ := eval F P f.look e2 w1 <;> rfl

theorem bin_sem {scs : List Scope} {gs : Scope} {pool : List Val} {l r : Expr} {c1 c2 : List Byte}
    (h1 : ExprSem F P scs gs pool l c1) (h2 : ExprSem F P scs gs pool r c2) (o : BinOp)
    (f : Frame) (p : Nat) (temps : List Val) (w : W) (hf : f.Ok scs gs) (hK : pool <+: f.K)
    (hA : At f.code p (c1 ++ c2 ++ [o.opc.byte])) (hW : WfE l ∧ WfE r) (hR : f.Room temps (max (needE l) (1 + needE r))) :
    Sim F P f.code f.K (f.vm p temps w) (eval F P f.look (.bin (.op o) l r) w)
      (fun w v => f.vm (p + (c1 ++ c2 ++ [o.opc.byte]).length) (v :: temps) w) := by
  simp only [eval]
  refine Sim.bind (h1 f p temps w hf hK hA.left.left hW.1 (hR.mono (by omega))) (fun _ _ => rfl) (fun _ _ => rfl) ?_
  intro w1 a _
  refine Sim.bind (h2 f _ (a :: temps) w1 hf hK hA.left.right hW.2 (hR.mono (by simp; omega))) (fun _ _ => rfl) (fun _ _ => rfl) ?_
  intro w2 b _
  refine Sim.pushRes (step_bin o a b (hA.right.cast (by simp [Nat.add_assoc]))) rfl rfl ?_ ?_
  · simp [Frame.Room] at hR ⊢; omega
  · intro w v; simp [Frame.vm, Nat.add_assoc]

mutual
/-- Compiled expressions compute the value of the expression. -/
theorem visitExpr_spec (hP : P.NoEnd) : ∀ (e : Expr) (s : CState), (visitExpr e s).ok = true → PoolOk s.globals s.pool →
    ∃ c, Ext s (visitExpr e s) c ∧ ExprSem F P s.scopes s.globals (visitExpr e s).pool e c
  | .undef, s, hok, hg => by
    refine ⟨_, Ext.op s _, ?_⟩
    intro f p temps w hf hK hA hW hR
    exact ⟨1, by
      rw [VM.run_one]
      exact step_push .NCONST .undef (by simp) hA (by simp [Frame.Room, needE] at hR ⊢; omega)⟩
  | .bool b, s, hok, hg => by
    refine ⟨_, Ext.op s _, ?_⟩
    intro f p temps w hf hK hA hW hR
    exact ⟨1, by
      rw [VM.run_one]
      exact step_push _ (.bool b) (by cases b <;> simp) hA (by simp [Frame.Room, needE] at hR ⊢; omega)⟩
  | .int i, s, hok, hg => by
    obtain ⟨c, h1, h2⟩ := pushLiteral_spec (F := F) (P := P) s (.int i)
    refine ⟨c, h1, ?_⟩
    intro f p temps w hf hK hA hW hR
    exact ⟨1, by rw [VM.run_one]; exact h2 f p temps w hf.KLen hK hA hR⟩
  | .float i, s, hok, hg => by
    obtain ⟨c, h1, h2⟩ := pushLiteral_spec (F := F) (P := P) s (.float i)
    refine ⟨c, h1, ?_⟩
    intro f p temps w hf hK hA hW hR
    exact ⟨1, by rw [VM.run_one]; exact h2 f p temps w hf.KLen hK hA hR⟩
  | .str i, s, hok, hg => by
    obtain ⟨c, h1, h2⟩ := pushLiteral_spec (F := F) (P := P) s (.str i)
    refine ⟨c, h1, ?_⟩
    intro f p temps w hf hK hA hW hR
    exact ⟨1, by rw [VM.run_one]; exact h2 f p temps w hf.KLen hK hA hR⟩
  | .var x, s, hok, hg => loadVar_spec s x hok hg
  | .un o e, s, hok, hg => by
    obtain ⟨c1, h1, h2⟩ := visitExpr_spec hP e s (by simpa [visitExpr] using hok) hg
    refine ⟨c1 ++ [o.opc.byte], h1.trans (Ext.op _ _), ?_⟩
    intro f p temps w hf hK hA hW hR
    simp only [eval]
    refine Sim.bind (h2 f p temps w hf hK hA.left hW hR) (fun _ _ => rfl) (fun _ _ => rfl) ?_
    intro w1 a _
    refine Sim.pushRes (step_un o a hA.right) rfl rfl ?_ ?_
    · have : 1 ≤ needE e := needE_pos e
      simp [Frame.Room, needE] at hR ⊢; omega
    · intro w v; simp [Frame.vm, Nat.add_assoc]
  | .bin (.op o) l r, s, hok, hg => by
    have hok1 : (visitExpr r (visitExpr l s)).ok = true := by simpa [visitExpr] using hok
    obtain ⟨c1, h1, h2⟩ := visitExpr_spec hP l s (visitExpr_ok _ _ hok1) hg
    obtain ⟨c2, h3, h4⟩ := visitExpr_spec hP r _ hok1 (by rw [h1.globals]; exact hg.mono h1.pool)
    rw [h1.scopes, h1.globals] at h4
    refine ⟨c1 ++ c2 ++ [o.opc.byte], (h1.trans h3).trans (Ext.op _ _), ?_⟩
    intro f p temps w hf hK hA hW hR
    exact bin_sem (h2.mono h3.pool) h4 o f p temps w hf hK hA hW hR
  | .bin .ne l r, s, hok, hg => by
    have hok1 : (visitExpr r (visitExpr l s)).ok = true := by simpa [visitExpr] using hok
    obtain ⟨c1, h1, h2⟩ := visitExpr_spec hP l s (visitExpr_ok _ _ hok1) hg
    obtain ⟨c2, h3, h4⟩ := visitExpr_spec hP r _ hok1 (by rw [h1.globals]; exact hg.mono h1.pool)
    rw [h1.scopes, h1.globals] at h4
    refine ⟨c1 ++ c2 ++ [Opc.EQ.byte] ++ [Opc.NOT.byte], ((h1.trans h3).trans (Ext.op _ _)).trans (Ext.op _ _), ?_⟩
    intro f p temps w hf hK hA hW hR
    have := bin_sem (h2.mono h3.pool) h4 .eq f p temps w hf hK hA.left hW hR
    simp only [eval] at this ⊢
    refine Sim.bind this (fun _ _ => rfl) (fun _ _ => rfl) ?_
    intro w1 a _
    refine Sim.pushRes (r := (w1, .ok (.bool a.falsey))) (step_un .not a hA.right) rfl rfl ?_ ?_
    · simp [Frame.Room, needE] at hR ⊢; omega
    · intro w v; simp [Frame.vm, Nat.add_assoc]
  | .bin .nid l r, s, hok, hg => by
    have hok1 : (visitExpr r (visitExpr l s)).ok = true := by simpa [visitExpr] using hok
    obtain ⟨c1, h1, h2⟩ := visitExpr_spec hP l s (visitExpr_ok _ _ hok1) hg
    obtain ⟨c2, h3, h4⟩ := visitExpr_spec hP r _ hok1 (by rw [h1.globals]; exact hg.mono h1.pool)
    rw [h1.scopes, h1.globals] at h4
    refine ⟨c1 ++ c2 ++ [Opc.ID.byte] ++ [Opc.NOT.byte], ((h1.trans h3).trans (Ext.op _ _)).trans (Ext.op _ _), ?_⟩
    intro f p temps w hf hK hA hW hR
    have := bin_sem (h2.mono h3.pool) h4 .id f p temps w hf hK hA.left hW hR
    simp only [eval] at this ⊢
    refine Sim.bind this (fun _ _ => rfl) (fun _ _ => rfl) ?_
    intro w1 a _
    refine Sim.pushRes (r := (w1, .ok (.bool a.falsey))) (step_un .not a hA.right) rfl rfl ?_ ?_
    · simp [Frame.Room, needE] at hR ⊢; omega
    · intro w v; simp [Frame.vm, Nat.add_assoc]
  | .bin .and l r, s, hok, hg => by
    have hok1 : (visitExpr r ((visitExpr l s).shortcircuit .BRF_8)).ok = true := by simpa [visitExpr] using hok
    obtain ⟨c1, h1, h2⟩ := visitExpr_spec hP l s (visitExpr_ok r ((visitExpr l s).shortcircuit .BRF_8) hok1) hg
    have hs := shortcircuit_spec (visitExpr l s) .BRF_8
    obtain ⟨c2, h3, h4⟩ := visitExpr_spec hP r _ hok1 (by rw [hs.globals, h1.globals]; exact hg.mono (h1.pool.trans hs.pool))
    rw [hs.scopes, hs.globals, h1.scopes, h1.globals] at h4
    have h5 := (h1.trans (hs.trans h3))
    refine ⟨_, ?_, short_sem BrTest.f (h2.mono (hs.pool.trans h3.pool)) h4 ?_ rfl ?_⟩
    · have := Ext.patch (c1 := c1 ++ [Opc.DUP.byte, Opc.BRF_8.byte]) (c2 := Opc.POP.byte :: c2) (x := 0) (s := s)
        (s' := visitExpr r ((visitExpr l s).shortcircuit .BRF_8)) (by simpa using h5)
      simpa [visitExpr, h1.buffer, Nat.add_assoc] using this
    · simp only [WfE]; exact id
    · intro ρ w; simp only [eval]
  | .bin .or l r, s, hok, hg => by
    have hok1 : (visitExpr r ((visitExpr l s).shortcircuit .BRT_8)).ok = true := by simpa [visitExpr] using hok
    obtain ⟨c1, h1, h2⟩ := visitExpr_spec hP l s (visitExpr_ok r ((visitExpr l s).shortcircuit .BRT_8) hok1) hg
    have hs := shortcircuit_spec (visitExpr l s) .BRT_8
    obtain ⟨c2, h3, h4⟩ := visitExpr_spec hP r _ hok1 (by rw [hs.globals, h1.globals]; exact hg.mono (h1.pool.trans hs.pool))
    rw [hs.scopes, hs.globals, h1.scopes, h1.globals] at h4
    have h5 := (h1.trans (hs.trans h3))
    refine ⟨_, ?_, short_sem BrTest.t (h2.mono (hs.pool.trans h3.pool)) h4 ?_ rfl ?_⟩
    · have := Ext.patch (c1 := c1 ++ [Opc.DUP.byte, Opc.BRT_8.byte]) (c2 := Opc.POP.byte :: c2) (x := 0) (s := s)
        (s' := visitExpr r ((visitExpr l s).shortcircuit .BRT_8)) (by simpa using h5)
      simpa [visitExpr, h1.buffer, Nat.add_assoc] using this
    · simp only [WfE]; exact id
    · intro ρ w; simp only [eval]
      congr 1; funext w a
      cases a.falsey <;> simp
  | .bin .coalesce l r, s, hok, hg => by
    have hok1 : (visitExpr r ((visitExpr l s).shortcircuit .BRN_8)).ok = true := by simpa [visitExpr] using hok
    obtain ⟨c1, h1, h2⟩ := visitExpr_spec hP l s (visitExpr_ok r ((visitExpr l s).shortcircuit .BRN_8) hok1) hg
    have hs := shortcircuit_spec (visitExpr l s) .BRN_8
    obtain ⟨c2, h3, h4⟩ := visitExpr_spec hP r _ hok1 (by rw [hs.globals, h1.globals]; exact hg.mono (h1.pool.trans hs.pool))
    rw [hs.scopes, hs.globals, h1.scopes, h1.globals] at h4
    have h5 := (h1.trans (hs.trans h3))
    refine ⟨_, ?_, short_sem BrTest.n (h2.mono (hs.pool.trans h3.pool)) h4 ?_ rfl ?_⟩
    · have := Ext.patch (c1 := c1 ++ [Opc.DUP.byte, Opc.BRN_8.byte]) (c2 := Opc.POP.byte :: c2) (x := 0) (s := s)
        (s' := visitExpr r ((visitExpr l s).shortcircuit .BRN_8)) (by simpa using h5)
      simpa [visitExpr, h1.buffer, Nat.add_assoc] using this
    · simp only [WfE]; exact id
    · intro ρ w; simp only [eval]
      congr 1; funext w a
      by_cases ha : a = .undef <;> simp [ha]
  | .tri e1 e2 e3, s, hok, hg => by
    have hok3 := visitExpr_ok e3 _ (by simpa [visitExpr] using hok)
    have hok2 : (visitExpr e2 ((visitExpr e1 s).jump .BRF_8)).ok = true := by simpa using hok3
    have hok1 := visitExpr_ok e2 _ hok2
    obtain ⟨c1, h1, h2⟩ := visitExpr_spec hP e1 s (by simpa using hok1) hg
    have hj := Ext.jump (visitExpr e1 s) .BRF_8
    obtain ⟨c2, h3, h4⟩ := visitExpr_spec hP e2 _ hok2 (by rw [hj.globals, h1.globals]; exact hg.mono (h1.pool.trans hj.pool))
    rw [hj.scopes, hj.globals, h1.scopes, h1.globals] at h4
    have hj2 := Ext.jump (visitExpr e2 ((visitExpr e1 s).jump .BRF_8)) .BR_8
    have h5 := Ext.patch (c1 := c1 ++ [Opc.BRF_8.byte]) (c2 := c2 ++ Opc.BR_8.byte :: bytes8 0) (x := 0) (s := s)
        (s' := (visitExpr e2 ((visitExpr e1 s).jump .BRF_8)).jump .BR_8) (by simpa using (h1.trans hj).trans (h3.trans hj2))
    obtain ⟨c3, h6, h7⟩ := visitExpr_spec hP e3 (((visitExpr e2 ((visitExpr e1 s).jump .BRF_8)).jump .BR_8).patch (s.buffer.length + (c1 ++ [Opc.BRF_8.byte]).length))
        (by simpa [visitExpr, h1.buffer, Nat.add_assoc] using hok) (by rw [h5.globals]; exact hg.mono h5.pool)
    rw [h5.scopes, h5.globals] at h7
    have h8 := Ext.patch (c1 := c1 ++ [Opc.BRF_8.byte] ++ bytes8 (BitVec.ofInt 64 (c2 ++ Opc.BR_8.byte :: bytes8 0).length) ++ c2 ++ [Opc.BR_8.byte]) (c2 := c3)
      (x := 0) (s := s) (s' := visitExpr e3 (((visitExpr e2 ((visitExpr e1 s).jump .BRF_8)).jump .BR_8).patch (s.buffer.length + (c1 ++ [Opc.BRF_8.byte]).length)))
      (by simpa using h5.trans h6)
    have hpool : (visitExpr e2 ((visitExpr e1 s).jump .BRF_8)).pool <+: (visitExpr e3 (((visitExpr e2 ((visitExpr e1 s).jump .BRF_8)).jump .BR_8).patch (s.buffer.length + (c1 ++ [Opc.BRF_8.byte]).length))).pool :=
      h6.pool
    refine ⟨_, ?_, tri_sem (c3 := c3) (h2.mono ?_) (h4.mono ?_) (h7.mono ?_)⟩
    · simp only [visitExpr]
      have hq1 : (visitExpr e1 s).buffer.length + 1 = s.buffer.length + (c1 ++ [Opc.BRF_8.byte]).length := by simp [h1.buffer, Nat.add_assoc]
      have hq2 : (visitExpr e2 ((visitExpr e1 s).jump .BRF_8)).buffer.length + 1 = s.buffer.length + (c1 ++ [Opc.BRF_8.byte] ++ bytes8 (BitVec.ofInt 64 (c2 ++ Opc.BR_8.byte :: bytes8 0).length) ++ c2 ++ [Opc.BR_8.byte]).length := by
        simp [h3.buffer, hj.buffer, h1.buffer]; omega
      rw [hq1, hq2]
      convert h8 using 1
      simp
    · have := hj.pool.trans (h3.pool.trans hpool)
      simpa [visitExpr, h1.buffer, Nat.add_assoc, CState.patch] using this
    · simpa [visitExpr, h1.buffer, Nat.add_assoc, CState.patch] using hpool
    · simp [visitExpr, h1.buffer, Nat.add_assoc, CState.patch]
  | .list es, s, hok, hg => by
    have h0 := Ext.op s .END
    obtain ⟨c1, h1, h2⟩ := visitExprs_spec hP es (s.op .END) (by simpa [visitExpr] using hok) (by exact hg)
    refine ⟨[Opc.END.byte] ++ c1 ++ [Opc.NEWLIST.byte], (h0.trans h1).trans (Ext.op _ _), ?_⟩
    intro f p temps w hf hK hA hW hR
    simp only [eval]
    refine Sim.step (m' := f.vm (p + 1) (.end_ :: temps) w) (step_push (c := []) .END .end_ (by simp) hA.left.left ?_) rfl rfl ?_
    · simp [Frame.Room, needE] at hR ⊢; omega
    refine Sim.bind (h2 f (p + 1) (.end_ :: temps) w hf hK hA.left.right hW (hR.mono (by simp [needE]; omega))) (fun _ _ => rfl) (fun _ _ => rfl) ?_
    intro w1 vs hvs
    have hne := evalAll_noEnd hP hf.look_noEnd es _ _ _ hvs
    refine Sim.pushRes (m1 := f.vm (p + ([Opc.END.byte] ++ c1).length + 1) temps w1) ?_ rfl rfl ?_ ?_
    · have := step_newlist (F := F) (P := P) (K := f.K) (st := temps ++ (f.env.map Prod.snd ++ f.below)) (fp := f.fp) (loops := f.loops) (g := f.g) (w := w1) (out := f.out)
        (vs := vs.reverse) hA.right (by simpa using hne)
      rw [List.reverse_reverse] at this
      convert this using 2
      · simp [Frame.vm, Nat.add_assoc, Nat.add_comm 1]
      · simp [Frame.vm]
    · simp [Frame.Room, needE, Frame.vm] at hR ⊢; omega
    · intro w v; simp [Frame.vm, Nat.add_assoc]
  | .table es, s, hok, hg => by
    have h0 := Ext.op s .END
    obtain ⟨c1, h1, h2⟩ := visitExprs_spec hP es (s.op .END) (by simpa [visitExpr] using hok) (by exact hg)
    refine ⟨[Opc.END.byte] ++ c1 ++ [Opc.NEWTABLE.byte], (h0.trans h1).trans (Ext.op _ _), ?_⟩
    intro f p temps w hf hK hA hW hR
    simp only [eval]
    refine Sim.step (m' := f.vm (p + 1) (.end_ :: temps) w) (step_push (c := []) .END .end_ (by simp) hA.left.left ?_) rfl rfl ?_
    · simp [Frame.Room, needE] at hR ⊢; omega
    simp only [WfE] at hW
    refine Sim.bind (h2 f (p + 1) (.end_ :: temps) w hf hK hA.left.right hW.2 (hR.mono (by simp [needE]; omega))) (fun _ _ => rfl) (fun _ _ => rfl) ?_
    intro w1 vs hvs
    have hne := evalAll_noEnd hP hf.look_noEnd es _ _ _ hvs
    refine Sim.pushRes (m1 := f.vm (p + ([Opc.END.byte] ++ c1).length + 1) temps w1) ?_ rfl rfl ?_ ?_
    · have := step_newtable (F := F) (P := P) (K := f.K) (st := temps ++ (f.env.map Prod.snd ++ f.below)) (fp := f.fp) (loops := f.loops) (g := f.g) (w := w1) (out := f.out)
        (vs := vs.reverse) hA.right (by simpa using hne)
      rw [List.reverse_reverse] at this
      convert this using 2
      · simp [Frame.vm, Nat.add_assoc, Nat.add_comm 1]
      · simp [Frame.vm]
    · simp [Frame.Room, needE, Frame.vm] at hR ⊢; omega
    · intro w v; simp [Frame.vm, Nat.add_assoc]
  | .get l r, s, hok, hg => by
    have hok1 : (visitExpr r (visitExpr l s)).ok = true := by simpa [visitExpr] using hok
    obtain ⟨c1, h1, h2⟩ := visitExpr_spec hP l s (visitExpr_ok _ _ hok1) hg
    obtain ⟨c2, h3, h4⟩ := visitExpr_spec hP r _ hok1 (by rw [h1.globals]; exact hg.mono h1.pool)
    rw [h1.scopes, h1.globals] at h4
    refine ⟨c1 ++ c2 ++ [Opc.GET.byte], (h1.trans h3).trans (Ext.op _ _), ?_⟩
    intro f p temps w hf hK hA hW hR
    simp only [WfE] at hW
    simp only [needE] at hR
    simp only [eval]
    refine Sim.bind (h2.mono h3.pool f p temps w hf hK hA.left.left hW.1 (hR.mono (by omega))) (fun _ _ => rfl) (fun _ _ => rfl) ?_
    intro w1 a _
    refine Sim.bind (h4 f _ (a :: temps) w1 hf hK hA.left.right hW.2 (hR.mono (by simp; omega))) (fun _ _ => rfl) (fun _ _ => rfl) ?_
    intro w2 b _
    refine Sim.pushRes (step_get (hA.right.cast (by simp [Nat.add_assoc]))) rfl rfl ?_ ?_
    · have := needE_pos l
      simp [Frame.Room] at hR ⊢; omega
    · intro w v; simp [Frame.vm, Nat.add_assoc]
  | .slice l r t, s, hok, hg => by
    have hok2 : (visitExpr t (visitExpr r (visitExpr l s))).ok = true := by simpa [visitExpr] using hok
    have hok1 := visitExpr_ok _ _ hok2
    obtain ⟨c1, h1, h2⟩ := visitExpr_spec hP l s (visitExpr_ok _ _ hok1) hg
    obtain ⟨c2, h3, h4⟩ := visitExpr_spec hP r _ hok1 (by rw [h1.globals]; exact hg.mono h1.pool)
    obtain ⟨c3, h5, h6⟩ := visitExpr_spec hP t _ hok2 (by rw [h3.globals, h1.globals]; exact hg.mono (h1.pool.trans h3.pool))
    rw [h3.scopes, h3.globals, h1.scopes, h1.globals] at h6
    rw [h1.scopes, h1.globals] at h4
    refine ⟨c1 ++ c2 ++ c3 ++ [Opc.SLICE.byte], ((h1.trans h3).trans h5).trans (Ext.op _ _), ?_⟩
    intro f p temps w hf hK hA hW hR
    simp only [WfE] at hW
    simp only [needE] at hR
    simp only [eval]
    refine Sim.bind (h2.mono (h3.pool.trans h5.pool) f p temps w hf hK hA.left.left.left hW.1 (hR.mono (by omega))) (fun _ _ => rfl) (fun _ _ => rfl) ?_
    intro w1 a _
    refine Sim.bind (h4.mono h5.pool f _ (a :: temps) w1 hf hK hA.left.left.right hW.2.1 (hR.mono (by simp; omega))) (fun _ _ => rfl) (fun _ _ => rfl) ?_
    intro w2 b _
    refine Sim.bind (h6 f _ (b :: a :: temps) w2 hf hK (hA.left.right.cast (by simp [Nat.add_assoc])) hW.2.2 (hR.mono (by simp; omega))) (fun _ _ => rfl) (fun _ _ => rfl) ?_
    intro w3 d _
    refine Sim.pushRes (step_slice (hA.right.cast (by simp [Nat.add_assoc]))) rfl rfl ?_ ?_
    · have := needE_pos l
      simp [Frame.Room] at hR ⊢; omega
    · intro w v; simp [Frame.vm, Nat.add_assoc]
/-- The same for several expressions. -/
theorem visitExprs_spec (hP : P.NoEnd) : ∀ (es : Exprs) (s : CState), (visitExprs es s).ok = true → PoolOk s.globals s.pool →
    ∃ c, Ext s (visitExprs es s) c ∧ ExprsSem F P s.scopes s.globals (visitExprs es s).pool es c
  | .nil, s, hok, hg => by
    refine ⟨[], Ext.refl s, ?_⟩
    intro f p temps w hf hK hA hW hR
    exact Sim.done (by simp)
  | .cons e es, s, hok, hg => by
    have hok1 : (visitExprs es (visitExpr e s)).ok = true := by simpa [visitExprs] using hok
    obtain ⟨c1, h1, h2⟩ := visitExpr_spec hP e s (visitExprs_ok _ _ hok1) hg
    obtain ⟨c2, h3, h4⟩ := visitExprs_spec hP es _ hok1 (by rw [h1.globals]; exact hg.mono h1.pool)
    rw [h1.scopes, h1.globals] at h4
    refine ⟨c1 ++ c2, h1.trans h3, ?_⟩
    intro f p temps w hf hK hA hW hR
    simp only [WfEs] at hW
    simp only [needEs] at hR
    simp only [evalAll]
    refine Sim.bind (h2.mono h3.pool f p temps w hf hK hA.left hW.1 (hR.mono (by omega))) (fun _ _ => rfl) (fun _ _ => rfl) ?_
    intro w1 a _
    refine Sim.bind (h4 f _ (a :: temps) w1 hf hK hA.right hW.2 (hR.mono (by simp; omega))) (fun _ _ => rfl) (fun _ _ => rfl) ?_
    intro w2 vs _
    refine Sim.done ?_
    simp [Frame.vm, Nat.add_assoc]
end

end
end Yasl
