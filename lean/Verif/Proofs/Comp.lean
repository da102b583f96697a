import Verif.Model.Comp
import Verif.Proofs.CompileTop
import Mathlib.Tactic.Convert
set_option autoImplicit false
/-! # Compiled comprehensions -/
namespace Yasl
section
variable {W : Type} {F : FloatOps} {P : Prims W}

/-! ## One element -/

/-- What is pushed for one element. -/
def compBody (F : FloatOps) (P : Prims W) (ρ : Name → Option Val) (outs : Exprs) (cond : Option Expr) (w : W) : PRes W (List Val) :=
  (takes F P ρ cond w).bind fun w b => if b then evalAll F P ρ outs w else (w, .ok [])

theorem visitCompCond_ok {outs : Exprs} {cond : Option Expr} {s : CState} (h : (visitCompCond (cond.map visitExpr) (visitExprs outs) s).ok = true) : s.ok = true := by
  cases cond with
  | none => exact visitExprs_ok _ _ h
  | some c => exact visitExpr_ok _ _ (by simpa using visitExprs_ok _ _ (show (visitExprs outs ((visitExpr c s).jump .BRF_8)).ok = true by simpa [visitCompCond] using h))

theorem visitCompCond_spec (hP : P.NoEnd) (outs : Exprs) (cond : Option Expr) (s : CState)
    (hok : (visitCompCond (cond.map visitExpr) (visitExprs outs) s).ok = true) (hg : PoolOk s.globals s.pool) :
    ∃ c, Ext s (visitCompCond (cond.map visitExpr) (visitExprs outs) s) c ∧
      ∀ (f : Frame) (p : Nat) (temps : List Val) (w : W), f.Ok s.scopes s.globals → (visitCompCond (cond.map visitExpr) (visitExprs outs) s).pool <+: f.K → At f.code p c →
        (∀ c, cond = some c → WfE c ∧ f.Room temps (needE c)) → WfEs outs → f.Room temps (needEs outs) →
        Sim F P f.code f.K (f.vm p temps w) (compBody F P f.look outs cond w) (fun w vs => f.vm (p + c.length) (vs.reverse ++ temps) w) := by
  cases cond with
  | none =>
    obtain ⟨c, h1, h2⟩ := visitExprs_spec (F := F) (P := P) hP outs s hok hg
    refine ⟨c, h1, fun f p temps w hf hK hA _ hW hR => ?_⟩
    have := h2 f p temps w hf hK hA hW hR
    simpa [compBody, takes, PRes.bind] using this
  | some e =>
    simp only [Option.map_some, visitCompCond] at hok ⊢
    have hok2 : (visitExprs outs ((visitExpr e s).jump .BRF_8)).ok = true := by simpa using hok
    obtain ⟨c1, h1, h2⟩ := visitExpr_spec (F := F) (P := P) hP e s (by simpa using visitExprs_ok _ _ hok2) hg
    have hj := Ext.jump (visitExpr e s) .BRF_8
    obtain ⟨c2, h3, h4⟩ := visitExprs_spec (F := F) (P := P) hP outs ((visitExpr e s).jump .BRF_8) hok2 (by rw [hj.globals, h1.globals]; exact hg.mono (h1.pool.trans hj.pool))
    rw [hj.scopes, hj.globals, h1.scopes, h1.globals] at h4
    have hp := Ext.patch (c1 := c1 ++ [Opc.BRF_8.byte]) (c2 := c2) (x := 0) (s := s) (s' := visitExprs outs ((visitExpr e s).jump .BRF_8))
      (by simpa using (h1.trans hj).trans h3)
    have hi : s.buffer.length + (c1 ++ [Opc.BRF_8.byte]).length = (visitExpr e s).buffer.length + 1 := by rw [h1.buffer]; simp [Nat.add_assoc]
    rw [hi] at hp
    refine ⟨c1 ++ (Opc.BRF_8.byte :: bytes8 (BitVec.ofInt 64 c2.length)) ++ c2, by simpa using hp, ?_⟩
    intro f p temps w hf hK hA hc hW hR
    have hK1 : (visitExprs outs ((visitExpr e s).jump .BRF_8)).pool <+: f.K := hK
    have hcl := hf.codeLen
    have hp0 : p ≤ f.code.length := by
      by_contra hc
      have h0 := hA
      unfold At at h0
      rw [List.drop_eq_nil_of_le (by omega)] at h0
      have := h0.length_le; simp at this
    have hlen := hA.length_le hp0
    simp at hlen
    unfold compBody takes
    refine Sim.bind (nx := fun w b => f.vm (p + c1.length + 9 + (if b then 0 else c2.length)) temps w) ?_ (fun _ _ => rfl) (fun _ _ => rfl) ?_
    · refine Sim.bind (h2 f p temps w hf ((hj.pool.trans h3.pool).trans hK1) hA.left.left (hc e rfl).1 (hc e rfl).2) (fun _ _ => rfl) (fun _ _ => rfl) ?_
      intro w1 v _
      have hst := step_cond (F := F) (P := P) (K := f.K) (st := temps ++ (f.env.map Prod.snd ++ f.below)) (fp := f.fp) (loops := f.loops) (g := f.g) (w := w1) (out := f.out)
        BrTest.f v hA.left.right
      by_cases hv : v.falsey
      · rw [if_pos hv, jumpBy_forward (by omega)] at hst
        refine Sim.step (m' := f.vm (p + c1.length + 9 + c2.length) temps w1) hst rfl rfl (Sim.done ?_)
        simp [hv]
      · rw [if_neg hv] at hst
        refine Sim.step (m' := f.vm (p + c1.length + 9) temps w1) hst rfl rfl (Sim.done ?_)
        simp [hv]
    · intro w1 b _
      cases b with
      | false => exact Sim.done (by simp [Nat.add_assoc]; congr 1; omega)
      | true =>
        have := h4 f (p + c1.length + 9) temps w1 hf hK1 (hA.right.cast (by simp [Nat.add_assoc])) hW hR
        have e : p + c1.length + 9 + c2.length = p + (c1 ++ (Opc.BRF_8.byte :: bytes8 (BitVec.ofInt 64 c2.length)) ++ c2).length := by simp; omega
        rw [← e]; exact this

/-- `collect`, one element at a time. -/
theorem collect_succ (ρ : Name → Option Val) (outs : Exprs) (x : Name) (coll : Val) (cond : Option Expr) (fuel i : Nat) (w : W) (acc : List Val) :
    collect F P ρ outs x coll cond (fuel + 1) i w acc =
      if compLimit < acc.length then none
      else (CRes.of (P.next w coll i)).bind fun w r => match r with
        | none => some (w, .ok acc)
        | some (v, j) => (CRes.of (compBody F P (withVar ρ x v) outs cond w)).bind fun w vs => collect F P ρ outs x coll cond fuel j w (acc ++ vs) := by
  simp only [collect]
  congr 1
  congr 1
  funext w r
  rcases r with _ | ⟨v, j⟩
  · rfl
  · simp only [compBody]
    rcases takes F P (withVar ρ x v) cond w with ⟨w1, e | b⟩
    · rfl
    · cases b
      · simp [CRes.of, CRes.bind, PRes.bind]
      · simp [CRes.of, CRes.bind, PRes.bind]

/-! ## The loop -/

/-- As `SSim`, where nothing is said if the result is not described. -/
def SOpt (F : FloatOps) (P : Prims W) (code : List Byte) (K : List Val) (n : Nat) (m : VM W) (o : Option (SRes W)) (T : Sig → PState W → VM W → Prop) : Prop :=
  ∀ r, o = some r → SSim F P code K n m r T

variable {code : List Byte} {K : List Val} {n : Nat} {T : Sig → PState W → VM W → Prop}

theorem SOpt.none_ {m : VM W} : SOpt F P code K n m none T := fun _ h => by cases h
theorem SOpt.some_ {m : VM W} {r : SRes W} (h : SSim F P code K n m r T) : SOpt F P code K n m (some r) T := fun _ h' => by cases h'; exact h
theorem SOpt.step {m m' : VM W} {o : Option (SRes W)} (hs : m.step F P code K = .next m') (h : SOpt F P code K n m' o T) : SOpt F P code K (n + 1) m o T :=
  fun r hr => SSim.step hs (h r hr)
theorem SOpt.step' {m m' : VM W} {o : Option (SRes W)} (hs : m.step F P code K = .next m') (h : SOpt F P code K n m' o T) : SOpt F P code K n m o T :=
  fun r hr => SSim.step' hs (h r hr)
theorem SOpt.run {m m' : VM W} {o : Option (SRes W)} {k : Nat} (hs : VM.run F P code K k m = .next m') (h : SOpt F P code K n m' o T) : SOpt F P code K n m o T :=
  fun r hr => SSim.run hs (h r hr)
theorem SOpt.mono {n' : Nat} {m : VM W} {o : Option (SRes W)} (h : SOpt F P code K n m o T) (hn : n' ≤ n) : SOpt F P code K n' m o T :=
  fun r hr => (h r hr).mono hn

/-- Going on with a result. -/
def withR {α : Type} (s : PState W) (r : CRes W α) (k : PState W → α → Option (SRes W)) : Option (SRes W) :=
  match r with
  | none => none
  | some (w, .ok v) => k { s with world := w } v
  | some (w, .error e) => some ({ s with world := w }, e)

theorem withC_eq (s : PState W) (r : CRes W Val) (k : PState W → Val → Option (SRes W)) : withC s r k = withR s r k := by
  rcases r with _ | ⟨w, _ | _⟩ <;> rfl

theorem withR_bind {α β : Type} (s : PState W) (r : CRes W α) (f : W → α → CRes W β) (k : PState W → β → Option (SRes W)) :
    withR s (r.bind f) k = withR s r (fun s a => withR s (f s.world a) k) := by
  rcases r with _ | ⟨w, e | a⟩
  · rfl
  · rfl
  · rfl

/-- After an operation. -/
theorem SOpt.value {α : Type} {m : VM W} {t : PState W} {r : PRes W α} {nx : W → α → VM W} {k : PState W → α → Option (SRes W)}
    (h : Sim F P code K m r nx) (ho : m.out = t.out) (hg : m.globals = t.globals)
    (hk : ∀ w v, r = (w, .ok v) → SOpt F P code K n (nx w v) (k { t with world := w } v) T) :
    SOpt F P code K n m (withR t (CRes.of r) k) T := by
  obtain ⟨w, r⟩ := r
  cases r with
  | error e =>
    obtain ⟨i, m', h1, h2, h3, h4⟩ := h
    exact SOpt.some_ ⟨i, m', h1, h2, by rw [h3, ho], by rw [h4, hg]⟩
  | ok v =>
    obtain ⟨i, h1⟩ := h
    exact SOpt.run h1 (hk w v rfl)

theorem look_withVar (t : PState W) (x : Name) (v : Val) (w : W) : ({ t with world := w, env := (x, v) :: t.env } : PState W).look = withVar t.look x v := by
  funext y
  simp only [PState.look, LEnv.find, List.find?_cons, withVar]
  by_cases h : y = x
  · subst h; simp
  · have : ((x == y) = false) := by simpa using fun h' => h h'.symm
    simp [this, h]

/-- The loop of a comprehension: `ITER_1` at `pstart`, the conditional jump, the store at `pstart + 10`, the element at `pstart + 12`. -/
theorem collect_sem {f : Frame} {scs scs' : List Scope} {gs : Scope} {x : Name} {coll : Val} {outs : Exprs} {cond : Option Expr} {c2 : List Byte}
    {pstart pback k : Nat} {z : BitVec 64} (hP : P.NoEnd)
    (hs : scs'.flatten = (x, z) :: scs.flatten) (hz : z = BitVec.ofNat 64 (scopeLen scs)) (hlen : scopeLen scs + 1 ≤ 128) (hbelow : f.below = [])
    (hiter : At f.code pstart [Opc.ITER_1.byte])
    (hbrf : At f.code (pstart + 1) (Opc.BRF_8.byte :: bytes8 (BitVec.ofInt 64 k))) (hk : k < 2 ^ 63)
    (hstore : At f.code (pstart + 10) [Opc.LSTORE.byte, BitVec.ofNat 8 (scopeLen scs)])
    (hbody : ∀ (g : Frame) (temps : List Val) (w : W), g.Ok scs' gs → g.code = f.code → g.K = f.K → g.below = [] → temps.length ≤ compLimit + 1 →
      Sim F P f.code f.K (g.vm (pstart + 12) temps w) (compBody F P g.look outs cond w) (fun w vs => g.vm pback (vs.reverse ++ temps) w))
    (hpb : pback = pstart + 12 + c2.length)
    (hback : ∀ (i : Nat) (t : PState W) (temps : List Val), VM.step F P f.code f.K (({ f with loops := (i, coll) :: f.loops } : Frame).vmS t pback temps) =
      .next (({ f with loops := (i, coll) :: f.loops } : Frame).vmS t pstart temps)) :
    ∀ (j i : Nat) (t : PState W) (u : Val) (acc : List Val) (kk : PState W → List Val → Option (SRes W)), (f.on t).Ok scs gs → (∀ v ∈ acc, v ≠ .end_) →
      (∀ (i : Nat) (w : W) (u : Val) (vs : List Val), (∀ v ∈ vs, v ≠ .end_) → vs.length ≤ compLimit →
        SOpt F P f.code f.K j (({ f with loops := (i, coll) :: f.loops } : Frame).vmS { t with world := w } (pstart + 10 + k) (vs.reverse ++ [.end_, u])) (kk { t with world := w } vs) T) →
      SOpt F P f.code f.K j (({ f with loops := (i, coll) :: f.loops } : Frame).vmS t pstart (acc.reverse ++ [.end_, u]))
        (withR t (collect F P t.look outs x coll cond j i t.world acc) kk) T := by
  intro j
  induction j with
  | zero =>
    intro i t u acc kk ht hacc hfin
    exact SOpt.some_ ⟨0, _, by omega, rfl, rfl, rfl, rfl⟩
  | succ j ih =>
    intro i t u acc kk ht hacc hfin
    rw [collect_succ]
    by_cases hcap : compLimit < acc.length
    · rw [if_pos hcap]; exact SOpt.none_
    rw [if_neg hcap]
    simp only [compLimit] at hcap
    have hlt : t.env.length = scopeLen scs := ht.envLen
    have hfp := ht.fpEq
    simp only [Frame.on, hbelow] at hfp
    have hst := step_iter (F := F) (P := P) (K := f.K) (fp := f.fp) (loops := f.loops) (g := t.globals) (w := t.world) (out := t.out) (i := i) (v := coll)
      (st := (acc.reverse ++ [.end_, u]) ++ (t.env.map Prod.snd ++ f.below)) (c := []) hiter (by simp [hbelow, stackSize]; omega)
    rcases hres : P.next t.world coll i with ⟨w, e | _ | ⟨v, i'⟩⟩
    · rw [hres] at hst
      exact SOpt.some_ (SSim.err hst rfl rfl rfl)
    · rw [hres] at hst
      refine SOpt.step' (m' := ({ f with loops := (i, coll) :: f.loops } : Frame).vmS { t with world := w } (pstart + 1) (.bool false :: (acc.reverse ++ [.end_, u]))) hst ?_
      refine SOpt.step' (step_brf (f := { f with loops := (i, coll) :: f.loops }) hbrf hk) ?_
      rw [if_pos (by rfl)]
      have := hfin i w u acc hacc (by simp only [compLimit]; omega)
      simpa [CRes.of, CRes.bind, withR, Nat.add_assoc] using this
    · rw [hres] at hst
      have hv : v ≠ .end_ := hP.next _ _ _ _ _ _ hres
      refine SOpt.step (n := j) (m' := ({ f with loops := (i', coll) :: f.loops } : Frame).vmS { t with world := w } (pstart + 1) (.bool true :: v :: (acc.reverse ++ [.end_, u]))) hst ?_
      refine SOpt.step' (step_brf (f := { f with loops := (i', coll) :: f.loops }) hbrf hk) ?_
      rw [if_neg (by decide)]
      refine SOpt.step' (m' := ({ f with loops := (i', coll) :: f.loops } : Frame).vmS { t with world := w, env := (x, v) :: t.env } (pstart + 12) (acc.reverse ++ [.end_])) ?_ ?_
      · have := step_lstore (F := F) (P := P) (K := f.K) (fp := f.fp) (loops := (i', coll) :: f.loops) (g := t.globals) (w := w) (out := t.out) (v := v)
          (st := (acc.reverse ++ [.end_, u]) ++ (t.env.map Prod.snd ++ f.below)) (j := acc.length + 1) (i := scopeLen scs) (by omega) hstore (by simp [hbelow] at hfp ⊢; omega) (by simp at hfp; omega)
        refine Eq.trans this ?_
        congr 2
        simp [Frame.on]
      · have hok : (({ f with loops := (i', coll) :: f.loops } : Frame).on ({ t with world := w, env := (x, v) :: t.env } : PState W)).Ok scs' gs := by
          have := Frame.Ok.declare (f := { f with loops := (i', coll) :: f.loops }) (t := { t with world := w }) (x := x) (v := v) (z := z) (scs := scs) (scs' := scs') (gs := gs)
            ⟨ht.rep, ht.fpEq, ht.small, ht.codeLen, ht.KLen, ht.defined, ht.gEnd, ht.envEnd⟩ (by rw [hz]; exact getIndex_ofNat (by omega)) hs hv (by simp; omega)
          exact this
        simp only [CRes.of, CRes.bind]
        have hb := hbody _ (acc.reverse ++ [.end_]) w hok rfl rfl hbelow (by simp [compLimit]; omega)
        rw [Frame.look_on, look_withVar] at hb
        have hbv := hb
        rcases hcb : compBody F P (withVar t.look x v) outs cond w with ⟨w2, e | vs⟩
        · rw [hcb] at hb
          obtain ⟨i, m', h1, h2, h3, h4⟩ := hb
          exact SOpt.some_ ⟨i, m', h1, h2, h3, h4⟩
        · rw [hcb] at hb
          obtain ⟨q, h1⟩ := hb
          refine SOpt.run h1 ?_
          have hvs : ∀ u ∈ vs, u ≠ .end_ := by
            have hlk := hok.look_noEnd
            rw [Frame.look_on, look_withVar] at hlk
            simp only [compBody] at hcb
            obtain ⟨w3, b, hb1, hb2⟩ := PRes.bind_eq_ok hcb
            cases b with
            | false => simp only [Bool.false_eq_true, if_false, Prod.mk.injEq, Except.ok.injEq] at hb2; rw [← hb2.2]; simp
            | true => exact evalAll_noEnd hP hlk outs _ _ _ hb2
          have hbk := hback i' { t with world := w2, env := (x, v) :: t.env } (vs.reverse ++ (acc.reverse ++ [Val.end_]))
          refine SOpt.step' (m := ({ f with loops := (i', coll) :: f.loops } : Frame).vmS { t with world := w2, env := (x, v) :: t.env } pback (vs.reverse ++ (acc.reverse ++ [Val.end_]))) hbk ?_
          have := ih i' { t with world := w2 } v (acc ++ vs) kk ht (by simpa [or_imp, forall_and] using ⟨hacc, hvs⟩)
            (fun i3 w3 u3 vs3 h1 h2 => by simpa using (hfin i3 w3 u3 vs3 h1 h2).mono (by omega))
          have hl : ({ t with world := w2 } : PState W).look = t.look := rfl
          rw [hl] at this
          simpa [Frame.vmS, Frame.vm, Frame.on, withR] using this

/-! ## Expressions -/

theorem step_endcomp {code : List Byte} {K : List Val} {p : Nat} {c : List Byte} {st : List Val} {fp : Int} {loops : List (Nat × Val)} {g : Name → Option Val} {w : W} {out : List Byte}
    {l : Nat × Val} {a b : Val} (h : At code p (Opc.ENDCOMP.byte :: c)) :
    VM.step F P code K ⟨p, a :: b :: st, fp, l :: loops, g, w, out⟩ = .next ⟨p + 1, a :: st, fp, loops, g, w, out⟩ := by
  rw [step_fetch h]; rfl

theorem visitC_ok : ∀ (e : CExpr) (s : CState), (visitC e s).ok = true → s.ok = true
  | .plain e, s, h => visitExpr_ok e s h
  | .un o a, s, h => visitC_ok a s (by simpa [visitC] using h)
  | .bin o a r, s, h => visitC_ok a s (visitExpr_ok r _ (by simpa [visitC] using h))
  | .get a k, s, h => visitC_ok a s (visitExpr_ok k _ (by simpa [visitC] using h))
  | .comp t outs x coll cond, s, h => by
    simp only [visitC, visitComp] at h
    simp only [CState.exitScope_ok, CState.op_ok, CState.patch_ok, CState.branchBack_ok] at h
    have h1 := CState.storeVar_ok (visitCompCond_ok h)
    have h2 := CState.declVar_ok (by simpa using h1)
    exact visitC_ok coll s.enterScope (by simpa using h2)

theorem Grow.ext {s s' : CState} {c : List Byte} (h : Grow s s' c) (hc : s'.checkpoints = s.checkpoints) (hs : s'.scopes = s.scopes) : Ext s s' c := by
  obtain ⟨h1, ⟨q, h2, h3⟩, h4, h5⟩ := h
  refine ⟨q, ?_⟩
  cases s'; cases s
  simp_all

/-- Code for an expression with comprehensions. -/
def CSem (F : FloatOps) (P : Prims W) (scs : List Scope) (gs : Scope) (pool : List Val) (e : CExpr) (c : List Byte) (n d : Nat) : Prop :=
  ∀ (f : Frame) (t : PState W) (p fuel : Nat) (kk : PState W → Val → Option (SRes W)) (T : Sig → PState W → VM W → Prop), (f.on t).Ok scs gs → t.env.length = n → f.loops.length = d →
    f.below = [] → pool <+: f.K → At f.code p c →
    (∀ w v, v ≠ .end_ → SOpt F P f.code f.K fuel (f.vmS { t with world := w } (p + c.length) [v]) (kk { t with world := w } v) T) →
    SOpt F P f.code f.K fuel (f.vmS t p []) (withR t (evalC F P fuel t.look e t.world) kk) T

theorem visitC_spec (hP : P.NoEnd) : ∀ (e : CExpr) (s : CState), (visitC e s).ok = true → s.scopes ≠ [] → PoolOk s.globals s.pool → ∀ n d, FitsC e n d →
    ∃ c, Ext s (visitC e s) c ∧ CSem F P s.scopes s.globals (visitC e s).pool e c n d
  | .plain e, s, hok, hne, hg, n, d, hF => by
    simp only [visitC] at hok ⊢
    obtain ⟨c, h1, h2⟩ := visitExpr_spec (F := F) (P := P) hP e s hok hg
    refine ⟨c, h1, ?_⟩
    intro f t p fuel kk T hf hn hd hb hK hA hk
    simp only [FitsC, FitsE, stackLimit] at hF
    simp only [evalC]
    refine SOpt.value (h2 (f.on t) p [] t.world hf hK hA hF.1 (by simp [Frame.Room, Frame.on, hb, stackSize]; omega)) rfl rfl ?_
    intro w v hv
    exact hk w v (eval_noEnd hP hf.look_noEnd _ _ _ _ hv)
  | .un o a, s, hok, hne, hg, n, d, hF => by
    simp only [visitC] at hok ⊢
    obtain ⟨c1, h1, h2⟩ := visitC_spec hP a s (by simpa using hok) hne hg n d hF
    refine ⟨_, h1.trans (Ext.op _ _), ?_⟩
    intro f t p fuel kk T hf hn hd hb hK hA hk
    simp only [evalC]
    rw [withR_bind]
    refine h2 f t p fuel _ T hf hn hd hb hK hA.left ?_
    intro w v hv
    have hfp := hf.envLen
    have hsm := hf.small
    simp only [Frame.on] at hfp hsm
    refine SOpt.value (nx := fun w v => f.vmS { t with world := w } (p + (c1.length + 1)) [v]) (Sim.pushRes (step_un o v hA.right) rfl rfl ?_ ?_) rfl rfl ?_
    · simp [Frame.on, hb, stackSize]; omega
    · intro w v; simp [Frame.vmS, Frame.vm, Frame.on, Nat.add_assoc]
    · intro w1 u hu
      simpa using hk w1 u (applyUn_noEnd hP hu)
  | .bin o a r, s, hok, hne, hg, n, d, hF => by
    simp only [visitC] at hok ⊢
    have hok1 : (visitExpr r (visitC a s)).ok = true := by simpa using hok
    obtain ⟨c1, h1, h2⟩ := visitC_spec hP a s (visitExpr_ok _ _ hok1) hne hg n d hF.1
    obtain ⟨c2, h3, h4⟩ := visitExpr_spec (F := F) (P := P) hP r _ hok1 (h1.grow.poolOk hg)
    rw [h1.scopes, h1.globals] at h4
    refine ⟨_, (h1.trans h3).trans (Ext.op _ _), ?_⟩
    intro f t p fuel kk T hf hn hd hb hK hA hk
    simp only [evalC]
    rw [withR_bind]
    have hFr := hF.2
    simp only [FitsE, stackLimit] at hFr
    have hK' : (visitExpr r (visitC a s)).pool <+: f.K := hK
    refine h2 f t p fuel _ T hf hn hd hb (h3.pool.trans hK') hA.left.left ?_
    intro w v hv
    refine SOpt.value (nx := fun w v => f.vmS { t with world := w } (p + (c1.length + c2.length + 1)) [v]) (m := f.vmS { t with world := w } (p + c1.length) [v]) ?_ rfl rfl ?_
    · refine Sim.bind (h4 (f.on t) (p + c1.length) [v] w hf hK' hA.left.right hFr.1 (by simp [Frame.Room, Frame.on, hb, stackSize]; omega)) (fun _ _ => rfl) (fun _ _ => rfl) ?_
      intro w1 u _
      refine Sim.pushRes (step_bin o v u (hA.right.cast (by simp [Nat.add_assoc]))) rfl rfl ?_ ?_
      · simp [Frame.on, hb, stackSize]; omega
      · intro w v; simp [Frame.vmS, Frame.vm, Frame.on, Nat.add_assoc]
    · intro w1 u hu
      obtain ⟨w2, b, _, hu2⟩ := PRes.bind_eq_ok hu
      simpa [Nat.add_assoc] using hk w1 u (applyBin_noEnd hP hu2)
  | .get a k, s, hok, hne, hg, n, d, hF => by
    simp only [visitC] at hok ⊢
    have hok1 : (visitExpr k (visitC a s)).ok = true := by simpa using hok
    obtain ⟨c1, h1, h2⟩ := visitC_spec hP a s (visitExpr_ok _ _ hok1) hne hg n d hF.1
    obtain ⟨c2, h3, h4⟩ := visitExpr_spec (F := F) (P := P) hP k _ hok1 (h1.grow.poolOk hg)
    rw [h1.scopes, h1.globals] at h4
    refine ⟨_, (h1.trans h3).trans (Ext.op _ _), ?_⟩
    intro f t p fuel kk T hf hn hd hb hK hA hk
    simp only [evalC]
    rw [withR_bind]
    have hFr := hF.2
    simp only [FitsE, stackLimit] at hFr
    have hK' : (visitExpr k (visitC a s)).pool <+: f.K := hK
    refine h2 f t p fuel _ T hf hn hd hb (h3.pool.trans hK') hA.left.left ?_
    intro w v hv
    refine SOpt.value (nx := fun w v => f.vmS { t with world := w } (p + (c1.length + c2.length + 1)) [v]) (m := f.vmS { t with world := w } (p + c1.length) [v]) ?_ rfl rfl ?_
    · refine Sim.bind (h4 (f.on t) (p + c1.length) [v] w hf hK' hA.left.right hFr.1 (by simp [Frame.Room, Frame.on, hb, stackSize]; omega)) (fun _ _ => rfl) (fun _ _ => rfl) ?_
      intro w1 u _
      refine Sim.pushRes (step_get (hA.right.cast (by simp [Nat.add_assoc]))) rfl rfl ?_ ?_
      · simp [Frame.on, hb, stackSize]; omega
      · intro w v; simp [Frame.vmS, Frame.vm, Frame.on, Nat.add_assoc]
    · intro w1 u hu
      obtain ⟨w2, b, _, hu2⟩ := PRes.bind_eq_ok hu
      simpa [Nat.add_assoc] using hk w1 u (hP.get _ _ _ _ _ hu2)
  | .comp table outs x coll cond, s, hok, hne, hg, n, d, hF => by
    simp only [visitC, visitComp] at hok ⊢
    simp only [FitsC, maxLocals, stackLimit, loopLimit] at hF
    obtain ⟨hF1, hF2, hF3, hF4, hF5, hF6⟩ := hF
    generalize hs0 : (((visitC coll s.enterScope).op .INITFOR).op .END) = s0 at hok ⊢
    generalize hs1 : (s0.declVar x).op .END = s1 at hok ⊢
    generalize hs2 : s1.op .ITER_1 = s2 at hok ⊢
    generalize hs3 : s2.jump .BRF_8 = s3 at hok ⊢
    simp only [CState.exitScope_ok, CState.op_ok, CState.patch_ok, CState.branchBack_ok] at hok
    have hok3 := CState.storeVar_ok (visitCompCond_ok hok)
    have hok2 : s2.ok = true := by rw [← hs3] at hok3; simpa using hok3
    have hok1 : (s0.declVar x).ok = true := by rw [← hs2, ← hs1] at hok2; simpa using hok2
    have hok0 : s0.ok = true := CState.declVar_ok hok1
    obtain ⟨cA, a1, a2⟩ := visitC_spec hP coll s.enterScope (by rw [← hs0] at hok0; simpa using hok0) (by simp [CState.enterScope]) hg n d hF1
    have a3 : Ext s.enterScope s0 (cA ++ [Opc.INITFOR.byte] ++ [Opc.END.byte]) := by rw [← hs0]; exact (a1.trans (Ext.op _ _)).trans (Ext.op _ _)
    have hsc0 : s0.scopes = [] :: s.scopes := a3.scopes
    have b1 := declVar_spec s0 x (by rw [hsc0]; simp) (by simp [CState.containsCur, hsc0, Scope.get]) hok1
    have hsl : scopeLen s0.scopes = scopeLen s.scopes := by rw [hsc0]; simp [scopeLen]
    rw [hsl] at b1
    have hsc1' : (s0.declVar x).scopes = [(x, BitVec.ofNat 64 (scopeLen s.scopes))] :: s.scopes := by
      obtain ⟨_, _, sc, scs, h1, h2⟩ := b1
      rw [hsc0] at h1; simp only [List.cons.injEq] at h1
      rw [h2, ← h1.1, ← h1.2]; simp
    have hj1 := Ext.op (s0.declVar x) .END
    rw [hs1] at hj1
    have hsc1 := hj1.scopes.trans hsc1'
    have g1 : Grow s s1 (cA ++ [Opc.INITFOR.byte] ++ [Opc.END.byte] ++ [Opc.END.byte]) := by
      have h : Grow s s0 _ := ⟨a3.buffer, a3.grow.pool, a3.globals, a3.ok⟩
      simpa using (h.trans b1.grow).trans hj1.grow
    have hj2 := Ext.op s1 .ITER_1
    rw [hs2] at hj2
    have hj3 := Ext.jump s2 .BRF_8
    rw [hs3] at hj3
    have g3 := (g1.trans hj2.grow).trans hj3.grow
    have hsc3 : s3.scopes = [(x, BitVec.ofNat 64 (scopeLen s.scopes))] :: s.scopes := by rw [hj3.scopes]; exact hj2.scopes.trans hsc1
    have hcp0 : s1.checkpoints = s.checkpoints := hj1.checkpoints.trans (b1.checkpoints.trans a3.checkpoints)
    have hcp3 : s3.checkpoints = s.checkpoints := by rw [hj3.checkpoints, hj2.checkpoints, hcp0]
    by_cases hsmall : scopeLen s.scopes < 2 ^ 63
    swap
    · -- impossible: the compiler rejects it
      exfalso
      simp only [CState.declVar, hsc0] at hok1
      split at hok1
      · simp at hok1
      · rename_i h
        simp [scopeLen, Scope.put, Scope.get] at h hsmall
        omega
    have hst : s3.storeVar x = (s3.op .LSTORE).emit (BitVec.ofNat 8 (scopeLen s.scopes)) := by
      have hget : scopeGet s3.scopes x = some (BitVec.ofNat 64 (scopeLen s.scopes)) := by rw [hsc3]; simp [scopeGet, Scope.get]
      have hnc : isConst (BitVec.ofNat 64 (scopeLen s.scopes)) = false := by
        rw [isConst_iff, BitVec.msb_eq_false_iff_two_mul_lt]; simp; omega
      simp [CState.storeVar, hget, hnc]
    rw [hst] at hok ⊢
    have hs4 : Ext s3 ((s3.op .LSTORE).emit (BitVec.ofNat 8 (scopeLen s.scopes))) [Opc.LSTORE.byte, BitVec.ofNat 8 (scopeLen s.scopes)] :=
      (Ext.op _ _).trans (Ext.emit _ _)
    generalize hs4e : (s3.op .LSTORE).emit (BitVec.ofNat 8 (scopeLen s.scopes)) = s4 at hok hs4 ⊢
    have g4 := g3.trans hs4.grow
    have hsc4 : s4.scopes = [(x, BitVec.ofNat 64 (scopeLen s.scopes))] :: s.scopes := hs4.scopes.trans hsc3
    have hcp4 : s4.checkpoints = s.checkpoints := hs4.checkpoints.trans hcp3
    obtain ⟨c2, h2, q2⟩ := visitCompCond_spec (F := F) (P := P) hP outs cond s4 hok (g4.poolOk hg)
    generalize hv4 : visitCompCond (cond.map visitExpr) (visitExprs outs) s4 = v4 at hok h2 q2 ⊢
    have hb := Ext.branchBack v4 s1.buffer.length
    have gall := (g4.trans h2.grow).trans hb.grow
    have hbl1 : s1.buffer.length = s.buffer.length + cA.length + 3 := by rw [g1.buffer]; simp; omega
    have hbl2 : s2.buffer.length = s.buffer.length + cA.length + 4 := by rw [hj2.buffer]; simp [hbl1]
    have hbl4 : s4.buffer.length = s.buffer.length + cA.length + 15 := by rw [g4.buffer]; simp; omega
    have hbl5 : v4.buffer.length = s.buffer.length + cA.length + 15 + c2.length := by rw [h2.grow.buffer]; simp [hbl4]
    generalize hdd : ((s1.buffer.length : Int) - (v4.buffer.length : Int) - 9) = dd at hb gall
    have hp := Grow.patch (c1 := cA ++ [Opc.INITFOR.byte, Opc.END.byte, Opc.END.byte, Opc.ITER_1.byte, Opc.BRF_8.byte])
      (c2 := Opc.LSTORE.byte :: BitVec.ofNat 8 (scopeLen s.scopes) :: (c2 ++ Opc.BR_8.byte :: bytes8 (BitVec.ofInt 64 dd))) (x := 0) (s := s)
      (s' := v4.branchBack s1.buffer.length) (by simpa using gall) (i := s2.buffer.length + 1) (by simp [hbl2, Nat.add_assoc])
    generalize hopn : (if table then Opc.NEWTABLE else Opc.NEWLIST) = opn
    have hpe := (hp.op opn).op .ENDCOMP
    generalize hs6 : (((v4.branchBack s1.buffer.length).patch (s2.buffer.length + 1)).op opn).op .ENDCOMP = s6 at hpe ⊢
    have hsc6 : s6.scopes = [(x, BitVec.ofNat 64 (scopeLen s.scopes))] :: s.scopes := by
      rw [← hs6]; exact (hb.scopes.trans h2.scopes).trans hsc4
    have hcp6 : s6.checkpoints = s.checkpoints := by
      rw [← hs6]; exact (hb.checkpoints.trans h2.checkpoints).trans hcp4
    have hex : ({ s6.exitScope with buffer := s6.buffer } : CState) = { s6 with scopes := s.scopes } := by
      simp [CState.exitScope, hsc6]
    rw [hex]
    have hlen2 : (Opc.LSTORE.byte :: BitVec.ofNat 8 (scopeLen s.scopes) :: (c2 ++ Opc.BR_8.byte :: bytes8 (BitVec.ofInt 64 dd))).length = 2 + c2.length + 9 := by
      simp; omega
    rw [hlen2] at hpe
    refine ⟨cA ++ [Opc.INITFOR.byte, Opc.END.byte, Opc.END.byte] ++ [Opc.ITER_1.byte] ++ (Opc.BRF_8.byte :: bytes8 (BitVec.ofInt 64 (2 + c2.length + 9 : Nat))) ++
        [Opc.LSTORE.byte, BitVec.ofNat 8 (scopeLen s.scopes)] ++ c2 ++ (Opc.BR_8.byte :: bytes8 (BitVec.ofInt 64 dd)) ++ [opn.byte, Opc.ENDCOMP.byte],
      Grow.ext (s' := { s6 with scopes := s.scopes }) ⟨by simp only; rw [hpe.buffer]; simp, hpe.pool, hpe.globals, hpe.ok⟩ hcp6 rfl, ?_⟩
    intro f t p fuel kk T hf hn hl hbe hK hA1 hk
    have hK6 : s6.pool <+: f.K := by
      have h : s6.exitScope.pool = s6.pool := by simp [CState.exitScope, hsc6]
      rw [← h]; exact hK
    have hK5 : v4.pool <+: f.K := by
      rw [← hs6] at hK6; exact hb.pool.trans hK6
    have hKA : (visitC coll s.enterScope).pool <+: f.K := by
      have h1 : (visitC coll s.enterScope).pool <+: s0.pool := by
        rw [← hs0]; exact List.prefix_rfl
      exact h1.trans (b1.grow.prefix.trans (hj1.pool.trans (hj2.pool.trans (hj3.pool.trans (hs4.pool.trans (h2.pool.trans hK5))))))
    simp only [evalC]
    rw [withR_bind]
    have hcl : f.code.length < 2 ^ 63 := hf.codeLen
    have hp0 : p < f.code.length := by
      by_contra hc
      have h0 := hA1
      unfold At at h0
      rw [List.drop_eq_nil_of_le (by omega)] at h0
      have := h0.length_le; simp at this
    have hlenc := hA1.length_le (by omega)
    simp at hlenc
    refine a2 f t p fuel _ T (hf.congr (by simp [CState.enterScope])) hn hl hbe hKA hA1.left.left.left.left.left.left.left ?_
    intro w v hv
    rw [withR_bind]
    have hAi : At f.code (p + cA.length) [Opc.INITFOR.byte, Opc.END.byte, Opc.END.byte] := hA1.left.left.left.left.left.left.right
    refine SOpt.step' (m' := ({ f with loops := (0, v) :: f.loops } : Frame).vmS { t with world := w } (p + cA.length + 1) [])
      (step_initfor (c := [Opc.END.byte, Opc.END.byte]) hAi (by simp [numLoopFrames, Frame.on]; omega)) ?_
    refine SOpt.step' (m' := ({ f with loops := (0, v) :: f.loops } : Frame).vmS { t with world := w } (p + cA.length + 2) [.end_])
      (step_push (c := [Opc.END.byte]) .END .end_ (by simp) hAi.tail (by simp [Frame.on, hbe, stackSize]; omega)) ?_
    refine SOpt.step' (m' := ({ f with loops := (0, v) :: f.loops } : Frame).vmS { t with world := w } (p + cA.length + 3) [.end_, .end_])
      (step_push (c := []) .END .end_ (by simp) hAi.tail.tail (by simp [Frame.on, hbe, stackSize]; omega)) ?_
    have hn' : scopeLen s.scopes = n := by rw [← hf.envLen]; exact hn
    have hbr : At f.code (p + cA.length + 3 + 1) (Opc.BRF_8.byte :: bytes8 (BitVec.ofInt 64 (2 + c2.length + 9 : Nat))) :=
      hA1.left.left.left.left.right.cast (by simp; omega)
    have hend : At f.code (p + cA.length + 3 + 10 + (2 + c2.length + 9)) [opn.byte, Opc.ENDCOMP.byte] := hA1.right.cast (by simp; omega)
    refine collect_sem (f := f) (scs := s.scopes) (scs' := s4.scopes) (gs := s.globals) (x := x) (coll := v) (c2 := c2)
      (pstart := p + cA.length + 3) (pback := p + cA.length + 15 + c2.length) (k := 2 + c2.length + 9)
      (z := BitVec.ofNat 64 (scopeLen s.scopes)) hP (by rw [hsc4]; simp) rfl (by omega) hbe (hA1.left.left.left.left.left.right.cast (by simp; omega))
      hbr (by omega) (hA1.left.left.left.right.cast (by simp; omega)) ?_ (by omega) ?_ fuel 0 { t with world := w } .end_ [] _ hf (by simp) ?_
    · intro g temps w1 hgok hgc hgK hgb htl
      have hgn : g.env.length = n + 1 := by rw [← hgok.rep.length, hsc4]; simp [scopeLen] at hn' ⊢; omega
      simp only [compLimit] at htl hF4 hF6
      have := q2 g (p + cA.length + 15) temps w1 (by rw [g4.globals]; exact hgok) (by rw [hgK]; exact hK5) (by rw [hgc]; exact hA1.left.left.right.cast (by simp; omega)) ?_ hF5
        (by simp [Frame.Room, hgb, hgn, stackSize]; omega)
      · rw [hgc, hgK] at this
        exact this
      · intro e he
        have := hF4 e he
        simp only [FitsE, stackLimit] at this
        exact ⟨this.1, by simp [Frame.Room, hgb, hgn, stackSize]; omega⟩
    · intro i t' temps
      refine step_jump (f := { f with loops := (i, v) :: f.loops }) (hA1.left.right.cast (by simp; omega)) ?_ ?_ ?_
      · push_cast; omega
      · omega
      · omega
    · intro i w1 u vs hvs hvl
      have hne' : ∀ u ∈ vs.reverse, u ≠ .end_ := by simpa using hvs
      refine SOpt.value (nx := fun w v' => ({ f with loops := (i, v) :: f.loops } : Frame).vmS { t with world := w } (p + cA.length + 3 + 10 + (2 + c2.length + 9) + 1) [v', u]) ?_ rfl rfl ?_
      · cases table with
        | true =>
          simp only [if_true] at hopn ⊢
          subst hopn
          have hst := step_newtable (F := F) (P := P) (K := f.K) (st := u :: (t.env.map Prod.snd ++ f.below)) (fp := f.fp) (loops := (i, v) :: f.loops) (g := t.globals) (w := w1) (out := t.out) (vs := vs.reverse) hend hne'
          rw [List.reverse_reverse] at hst
          refine Sim.pushRes (Eq.trans ?_ hst) rfl rfl ?_ ?_
          · simp [Frame.vmS, Frame.vm, Frame.on]
          · simp [hbe, stackSize]; omega
          · intro w v; simp [Frame.vmS, Frame.vm, Frame.on]
        | false =>
          simp only [Bool.false_eq_true, if_false] at hopn ⊢
          subst hopn
          have hst := step_newlist (F := F) (P := P) (K := f.K) (st := u :: (t.env.map Prod.snd ++ f.below)) (fp := f.fp) (loops := (i, v) :: f.loops) (g := t.globals) (w := w1) (out := t.out) (vs := vs.reverse) hend hne'
          rw [List.reverse_reverse] at hst
          refine Sim.pushRes (Eq.trans ?_ hst) rfl rfl ?_ ?_
          · simp [Frame.vmS, Frame.vm, Frame.on]
          · simp [hbe, stackSize]; omega
          · intro w v; simp [Frame.vmS, Frame.vm, Frame.on]
      · intro w2 v2 hv2
        have hv2' : v2 ≠ .end_ := by
          cases table with
          | true => exact hP.newTable _ _ _ _ hv2
          | false => exact hP.newList _ _ _ _ hv2
        refine SOpt.step' (m' := f.vmS { t with world := w2 } (p + cA.length + 3 + 10 + (2 + c2.length + 9) + 2) [v2]) (step_endcomp (c := []) hend.tail) ?_
        have := hk w2 v2 hv2'
        convert this using 2
        simp; omega

/-! ## Statements -/

theorem visitUse_ok {u : CUse} {e : CExpr} {s : CState} (h : (visitUse u e s).ok = true) : s.ok = true := by
  cases u with
  | let_ y => exact visitC_ok e s (visitLVals_ok _ _ h)
  | const_ y => exact visitC_ok e s (visitLVals_ok _ _ h)
  | assign y =>
    simp only [visitUse] at h
    split at h
    · simp at h
    · exact visitC_ok e s (CState.storeVar_ok h)
  | echo => exact visitC_ok e s (by simpa [visitUse] using h)
  | drop =>
    cases e with
    | plain e => exact visitStmt_ok (.expr e) s h
    | _ => exact visitC_ok _ s (by simpa [visitUse] using h)

theorem visitX_ok {st : XStmt} {s : CState} (h : (visitX st s).ok = true) : s.ok = true := by
  cases st with
  | plain st => exact visitStmt_ok st s h
  | use u e => exact visitUse_ok h

/-- What is shown of a statement of the top level. -/
def XSem (F : FloatOps) (P : Prims W) (s s' : CState) (c : List Byte) (n : Nat) (st : XStmt) : Prop :=
  ∀ (f : Frame) (t : PState W) (p fuel : Nat), (f.on t).Ok s.scopes s.globals → t.env.length = n → f.loops = [] → f.below = [] → s'.pool <+: f.K → At f.code p c →
    SOpt F P f.code f.K fuel (f.vmS t p []) (execX F P fuel st t) (fun sig t' m => sig = .normal ∧ m = f.vmS t' (p + c.length) [] ∧ (f.on t').Ok s'.scopes s'.globals)

theorem visitC_lvals (hP : P.NoEnd) (l : LVal) (u : CUse) (y : Name) (hl : (l = .let_ y ∧ u = .let_ y) ∨ (l = .const_ y ∧ u = .const_ y)) (e : CExpr) (s : CState)
    (hok : (visitLVals [l] (visitC e s)).ok = true) (hne : s.scopes ≠ []) (hg : PoolOk s.globals s.pool) (n : Nat) (hF : FitsC e n 0) (hn1 : n + 1 ≤ maxLocals) :
    ∃ c ds, SExt s (visitLVals [l] (visitC e s)) c ds ∧ ds.length = 1 ∧ XSem F P s (visitLVals [l] (visitC e s)) c n (.use u e) := by
  obtain ⟨c1, h1, s1⟩ := visitC_spec (F := F) (P := P) hP e s (visitLVals_ok _ _ hok) hne hg n 0 hF
  obtain ⟨c2, ds, h2, h3, h4⟩ := visitLVals_spec (F := F) (P := P) hP [l] _ hok (by rw [h1.scopes]; exact hne) (h1.grow.poolOk hg)
  refine ⟨_, _, (h1.sext hne).trans h2, ?_, ?_⟩
  · rcases hl with ⟨rfl, rfl⟩ | ⟨rfl, rfl⟩ <;> simpa [LVal.declares] using h3
  intro f t p fuel hf hn hlo hb hK hA
  have hx : execX F P fuel (.use u e) t = withR t (evalC F P fuel t.look e t.world) (fun s v => some (u.run P s v)) := by rw [execX, withC_eq]
  rw [hx]
  refine s1 f t p fuel _ _ hf hn (by simp [hlo]) hb (h2.grow.prefix.trans hK) hA.left ?_
  intro w v hv
  have h5 := h4 f { t with world := w } (p + c1.length) [v] fuel ⟨(visitLVals [l] (visitC e s)).scopes, s.globals, p + c1.length + c2.length, 0, 0, []⟩
    (by rw [h1.scopes, h1.globals]; exact hf) hb hK hA.right (by simpa using hv) rfl
    (by rcases hl with ⟨rfl, rfl⟩ | ⟨rfl, rfl⟩ <;> (simp only [FitsL, hn]; exact ⟨hn1, trivial⟩)) rfl (by rw [h1.globals]) rfl
  have hr : bindAll F P [l] [v] { t with world := w } = u.run P { t with world := w } v := by
    rcases hl with ⟨rfl, rfl⟩ | ⟨rfl, rfl⟩ <;> rfl
  rw [hr] at h5
  have hsig : u.run P { t with world := w } v = ({ t with world := w, env := (y, v) :: t.env }, .normal) := by
    rcases hl with ⟨rfl, rfl⟩ | ⟨rfl, rfl⟩ <;> rfl
  rw [hsig] at h5 ⊢
  obtain ⟨k, m', hk, rfl, hf'⟩ := h5
  refine SOpt.some_ (SSim.run hk (SSim.normal ⟨rfl, by simp [Nat.add_assoc], ?_⟩))
  have : (visitLVals [l] (visitC e s)).globals = s.globals := h2.grow.globals.trans h1.globals
  rw [this]; exact hf'

theorem visitX_spec (hP : P.NoEnd) (st : XStmt) (s : CState) (hok : (visitX st s).ok = true) (hne : s.scopes ≠ []) (hbuf : s.buffer = []) (hc : s.checkpoints = [])
    (hg : PoolOk s.globals s.pool) (n : Nat) (hF : FitsX st n) :
    ∃ c ds, SExt s (visitX st s) c ds ∧ ds.length = st.declares ∧ XSem F P s (visitX st s) c n st := by
  cases st with
  | plain st =>
    obtain ⟨c1, d1, h1, h2, h3⟩ := visitStmt_spec (F := F) (P := P) hP st s hok hne hg n 0 0 hF
    refine ⟨c1, d1, h1, h2, ?_⟩
    intro f t p fuel hf hn hl hbe hK hA
    have hs : ∀ pb pc, SSim F P f.code f.K fuel (f.vmS t p []) (exec F P fuel st t)
        ((⟨(visitStmt st s).scopes, s.globals, p + c1.length, pb, pc, []⟩ : Target).To f) := by
      intro pb pc
      have := h3 f t p fuel ⟨(visitStmt st s).scopes, s.globals, p + c1.length, pb, pc, []⟩ hf hn (by simp [hl]) hbe hK
        (by rw [hbuf]; exact hA) rfl rfl (by simp [hbuf]) (by intro h; exact absurd hc h)
      simpa [hbuf] using this
    have hnj := SSim.noJump hs
    have h6 := hs 0 0
    refine SOpt.some_ ?_
    rcases hr : exec F P fuel st t with ⟨t', sig⟩
    rw [hr] at h6 hnj
    cases sig with
    | normal =>
      obtain ⟨k, m', hk, rfl, hf'⟩ := h6
      refine SSim.run hk (SSim.normal ⟨rfl, rfl, ?_⟩)
      simp only [visitX, h1.grow.globals]; exact hf'
    | brk => exact absurd rfl hnj.1
    | cont => exact absurd rfl hnj.2
    | err e => exact h6
    | timeout => exact h6
  | use u e =>
    cases u with
    | let_ y => exact visitC_lvals hP (.let_ y) (.let_ y) y (.inl ⟨rfl, rfl⟩) e s hok hne hg n hF.1 hF.2
    | const_ y => exact visitC_lvals hP (.const_ y) (.const_ y) y (.inr ⟨rfl, rfl⟩) e s hok hne hg n hF.1 hF.2
    | assign y =>
      simp only [visitX, visitUse] at hok ⊢
      split at hok
      · simp at hok
      rename_i hx
      rw [if_neg hx]
      obtain ⟨c1, h1, s1⟩ := visitC_spec (F := F) (P := P) hP e s (CState.storeVar_ok hok) hne hg n 0 hF.1
      obtain ⟨c2, h3, h4⟩ := storeVar_spec (F := F) (P := P) _ y hok (h1.grow.poolOk hg)
      refine ⟨_, [], (h1.trans h3).sext hne, rfl, ?_⟩
      intro f t p fuel hf hn hlo hb hK hA
      have hx : execX F P fuel (.use (.assign y) e) t = withR t (evalC F P fuel t.look e t.world) (fun s v => some (CUse.run P (.assign y) s v)) := by rw [execX, withC_eq]
      rw [hx]
      refine s1 f t p fuel _ _ hf hn (by simp [hlo]) hb (h3.pool.trans hK) hA.left ?_
      intro w v hv
      obtain ⟨h5, h6⟩ := h4 f { t with world := w } _ [] v (by rw [h1.scopes, h1.globals]; exact hf) (h3.pool.trans hK) hA.right hv
      refine SOpt.step' h5 (SOpt.some_ (SSim.normal ⟨rfl, by simp [Nat.add_assoc], ?_⟩))
      rw [h3.scopes, h3.globals]; exact h6
    | echo =>
      simp only [visitX, visitUse] at hok ⊢
      obtain ⟨c1, h1, s1⟩ := visitC_spec (F := F) (P := P) hP e s (by simpa using hok) hne hg n 0 hF.1
      have hx := (h1.trans (Ext.op _ .ECHO)).trans (Ext.emit _ (BitVec.ofNat 8 (scopeLen (visitC e s).scopes)))
      refine ⟨_, [], hx.sext hne, rfl, ?_⟩
      intro f t p fuel hf hn hlo hb hK hA
      have hxx : execX F P fuel (.use .echo e) t = withR t (evalC F P fuel t.look e t.world) (fun s v => some (CUse.run P .echo s v)) := by rw [execX, withC_eq]
      rw [hxx]
      refine s1 f t p fuel _ _ hf hn (by simp [hlo]) hb hK hA.left.left ?_
      intro w1 x1 _
      rw [List.append_assoc] at hA
      have hst := step_echo (F := F) (P := P) (K := f.K) (fp := f.fp) (loops := f.loops) (g := t.globals) (w := w1) (out := t.out) (v := x1) (c := [])
        (st := t.env.map Prod.snd ++ f.below) hA.right
      simp only [CUse.run]
      rcases hres : P.tostr w1 x1 with ⟨w4, e | u⟩
      · rw [hres] at hst
        exact SOpt.some_ (SSim.err hst rfl rfl rfl)
      · rw [hres] at hst
        refine SOpt.step' hst (SOpt.some_ (SSim.normal ⟨rfl, ?_, ?_⟩))
        · simp [Frame.vmS, Frame.vm, Frame.on]; omega
        · rw [hx.scopes, hx.globals]
          exact ⟨hf.rep, hf.fpEq, hf.small, hf.codeLen, hf.KLen, hf.defined, hf.gEnd, hf.envEnd⟩
    | drop =>
      have key : ∀ e : CExpr, visitUse .drop e s = (visitC e s).op .POP → FitsC e n 0 → (visitX (.use .drop e) s).ok = true →
          ∃ c ds, SExt s (visitX (.use .drop e) s) c ds ∧ ds.length = 0 ∧ XSem F P s (visitX (.use .drop e) s) c n (.use .drop e) := by
        intro e he hF hok
        simp only [visitX, he] at hok ⊢
        obtain ⟨c1, h1, s1⟩ := visitC_spec (F := F) (P := P) hP e s (by simpa using hok) hne hg n 0 hF
        have hx := h1.trans (Ext.op _ .POP)
        refine ⟨_, [], hx.sext hne, rfl, ?_⟩
        intro f t p fuel hf hn hlo hb hK hA
        have hxx : execX F P fuel (.use .drop e) t = withR t (evalC F P fuel t.look e t.world) (fun s v => some (CUse.run P .drop s v)) := by rw [execX, withC_eq]
        rw [hxx]
        refine s1 f t p fuel _ _ hf hn (by simp [hlo]) hb hK hA.left ?_
        intro w1 x1 _
        refine SOpt.step' (m' := f.vmS { t with world := w1 } (p + c1.length + 1) []) (step_pop (c := []) x1 hA.right) (SOpt.some_ (SSim.normal ⟨rfl, by simp [Nat.add_assoc], ?_⟩))
        rw [hx.scopes, hx.globals]; exact hf
      cases e with
      | plain e => exact hF.elim
      | comp _ _ _ _ _ => exact key _ rfl hF.1 hok
      | un _ _ => exact key _ rfl hF.1 hok
      | bin _ _ _ => exact key _ rfl hF.1 hok
      | get _ _ => exact key _ rfl hF.1 hok

/-! ## Programs -/

theorem compileXs_ok : ∀ (ss : List XStmt) (s : CState) (code : List Byte), (compileXs ss s code).1.ok = true → s.ok = true
  | [], _, _, h => h
  | st :: ss, s, code, h => by
    simp only [compileXs] at h
    have h1 := compileXs_ok ss _ _ h
    exact visitX_ok (st := st) h1

theorem compileXs_spec (hP : P.NoEnd) : ∀ (ss : List XStmt) (s : CState) (code : List Byte), (compileXs ss s code).1.ok = true → s.scopes ≠ [] →
    s.buffer = [] → s.checkpoints = [] → PoolOk s.globals s.pool → ∀ n, FitsXs ss n →
    s.pool <+: (compileXs ss s code).1.pool ∧ ∃ c, (compileXs ss s code).2 = code ++ c ∧
      ∀ (f : Frame) (t : PState W) (base fuel : Nat), (f.on t).Ok s.scopes s.globals → t.env.length = n → f.loops = [] → f.below = [] →
        (compileXs ss s code).1.pool <+: f.K → At f.code base c →
        SOpt F P f.code f.K fuel (f.vmS t base []) (execXs F P fuel ss t) (fun sig t' m => sig = .normal ∧ m = f.vmS t' (base + c.length) [])
  | [], s, code, hok, hne, hb, hc, hg, n, hF => by
    refine ⟨List.prefix_rfl, [], by simp [compileXs], ?_⟩
    intro f t base fuel hf hn hl hbe hK hA
    exact SOpt.some_ (SSim.normal ⟨rfl, by simp⟩)
  | st :: ss, s, code, hok, hne, hb, hc, hg, n, hF => by
    simp only [compileXs] at hok ⊢
    simp only [FitsXs] at hF
    have hok1 := compileXs_ok ss _ _ hok
    obtain ⟨c1, d1, h1, h2, h3⟩ := visitX_spec (F := F) (P := P) hP st s hok1 hne hb hc hg n hF.1
    have hbuf : (visitX st s).buffer = c1 := by rw [h1.grow.buffer, hb]; rfl
    obtain ⟨hpre, c2, h4, h5⟩ := compileXs_spec hP ss { visitX st s with buffer := [] } (code ++ (visitX st s).buffer) hok h1.ne rfl
      (h1.checkpoints.trans hc) (h1.grow.poolOk hg) (n + st.declares) hF.2
    refine ⟨h1.grow.prefix.trans hpre, c1 ++ c2, by rw [h4, hbuf, List.append_assoc], ?_⟩
    intro f t base fuel hf hn hl hbe hK hA
    have hs := h3 f t base fuel hf hn hl hbe (hpre.trans hK) hA.left
    simp only [execXs]
    rcases hr : execX F P fuel st t with _ | ⟨t', sig⟩
    · exact SOpt.none_
    have hs := hs _ hr
    cases sig with
    | normal =>
      obtain ⟨k, m', hk, -, rfl, hf'⟩ := hs
      refine SOpt.run hk ?_
      have hn' : t'.env.length = n + st.declares := by
        have := hf'.envLen
        rw [this, scopeLen_flatten, h1.flatten, List.length_append, ← scopeLen_flatten, ← hf.envLen, h2]; omega
      have := h5 f t' (base + c1.length) fuel hf' hn' hl hbe hK hA.right
      simpa [Nat.add_assoc] using this
    | brk => obtain ⟨_, _, _, h, _⟩ := hs; cases h
    | cont => obtain ⟨_, _, _, h, _⟩ := hs; cases h
    | err e => exact SOpt.some_ hs
    | timeout => exact SOpt.some_ hs

theorem visitCompCond_hok {outs : Exprs} {cond : Option Expr} {s : CState} (h : s.HOk) : (visitCompCond (cond.map visitExpr) (visitExprs outs) s).HOk := by
  cases cond with
  | none => exact visitExprs_hok outs h
  | some c => exact (visitExprs_hok outs ((visitExpr_hok c h).jump .BRF_8)).patch _

theorem visitC_hok : ∀ (e : CExpr) {s : CState}, s.HOk → (visitC e s).HOk
  | .plain e, _, h => visitExpr_hok e h
  | .un o a, _, h => (visitC_hok a h).op _
  | .bin o a r, _, h => (visitExpr_hok r (visitC_hok a h)).op _
  | .get a k, _, h => (visitExpr_hok k (visitC_hok a h)).op _
  | .comp t outs x coll cond, s, h => by
    simp only [visitC, visitComp]
    have h0 : ((((visitC coll s.enterScope).op .INITFOR).op .END)).HOk := ((visitC_hok coll (s := s.enterScope) h).op .INITFOR).op .END
    have h1 := visitCompCond_hok (outs := outs) (cond := cond) (((((h0.declVar x).op .END).op .ITER_1).jump .BRF_8).storeVar x)
    exact ((((h1.branchBack _).patch _).op _).op _).exitScope

theorem visitX_hok (st : XStmt) {s : CState} (h : s.HOk) : (visitX st s).HOk := by
  cases st with
  | plain st => exact visitStmt_hok st h
  | use u e =>
    simp only [visitX]
    cases u with
    | let_ y => exact visitLVals_hok _ (visitC_hok e h)
    | const_ y => exact visitLVals_hok _ (visitC_hok e h)
    | assign y =>
      simp only [visitUse]
      split
      · exact h
      · exact (visitC_hok e h).storeVar y
    | echo => exact (visitC_hok e h).op .ECHO
    | drop =>
      cases e with
      | plain e => exact visitStmt_hok (.expr e) h
      | comp _ _ _ _ _ => exact (visitC_hok _ h).op _
      | un _ _ => exact (visitC_hok _ h).op _
      | bin _ _ _ => exact (visitC_hok _ h).op _
      | get _ _ => exact (visitC_hok _ h).op _

theorem compileXs_hok : ∀ (ss : List XStmt) (s : CState) (code : List Byte), s.HOk → (compileXs ss s code).1.HOk
  | [], _, _, h => h
  | st :: ss, s, code, h => by
    simp only [compileXs]
    exact compileXs_hok ss _ _ ((visitX_hok st h).of rfl rfl)

end
end Yasl
