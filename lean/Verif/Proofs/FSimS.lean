import Verif.Proofs.FSimE
set_option autoImplicit false
/-! # Statements with functions -/
namespace Yasl

section
variable {W : Type} {F : FloatOps} {P : Prims W} {Q : W → Val → List Val → PRes W (List Val)} {X : FX} {S : SEnv} {fr : FFrame} {loc : LEnv}
  {sh : Sh W} {cls : List (Nat × List Nat)} {n : Nat} {base names : List Name} {L : Option FLoopAt} {q : Nat}

/-- The machine after a return. -/
def RetAt (fr : FFrame) (sh : Sh W) (cls : List (Nat × List Nat)) (v : Val) (m : FVM W) : Prop :=
  ∃ fv rest fr0 frs, fr.mid = fv :: rest ∧ fr.frames = fr0 :: frs ∧
    m = ⟨⟨fr0.pc, v :: (rest ++ sh.statics.map Prod.snd), fr0.prevFp, dropLoops fr.loops fr0.lp, sh.globals, sh.world, sh.out⟩, fr0.currFp, frs, cls⟩

/-- The machine at the end of a statement. -/
def SEnd (base : List Name) (L : Option FLoopAt) (fr : FFrame) (sh : Sh W) (cls : List (Nat × List Nat)) (q : Nat) (names : List Name) (loc : LEnv)
    (m : FVM W) : FSig → Prop
  | .normal => m = mach fr sh cls q [] loc ∧ loc.map Prod.fst = names
  | .brk => ∃ l, L = some l ∧ m = mach fr sh cls l.brk [.bool false] loc ∧ loc.map Prod.fst ++ base = l.own
  | .cont => ∃ l, L = some l ∧ m = mach fr sh cls l.cont [] loc ∧ loc.map Prod.fst ++ base = l.own
  | .ret v => v ≠ .end_ ∧ RetAt fr sh cls v m

/-- The target of a statement. -/
def STgt (X : FX) (base : List Name) (L : Option FLoopAt) (fr : FFrame) (sh : Sh W) (cls : List (Nat × List Nat)) (q : Nat) (names : List Name) :
    Sh W → LEnv × FSig → FVM W → Prop :=
  fun sh' r m => ∃ cls', FKeeps sh sh' cls cls' ∧ FInv X sh' cls' ∧ (∀ q ∈ r.1, q.2 ≠ .end_) ∧ SEnd base L fr sh' cls' q names r.1 m r.2

theorem STgt.from {sh1 : Sh W} {cls1 : List (Nat × List Nat)} {m : FVM W} {r : FSRes W} (k : FKeeps sh sh1 cls cls1)
    (h : FSim F P Q X.code X.K n m r (STgt X base L fr sh1 cls1 q names)) : FSim F P Q X.code X.K n m r (STgt X base L fr sh cls q names) :=
  h.mono fun _ _ _ _ ⟨cls2, h1, h2, h3, h4⟩ => ⟨cls2, k.trans h1, h2, h3, h4⟩

theorem andThen_bind (r : FSRes W) (k : Sh W → LEnv → FSRes W) : r.andThen k = r.bind fun s a => match a.2 with
    | .normal => k s a.1
    | .brk => (s, .ok (a.1, .brk))
    | .cont => (s, .ok (a.1, .cont))
    | .ret v => (s, .ok (a.1, .ret v)) := by
  rcases r with ⟨s, e | ⟨l, sg⟩⟩
  · rfl
  · cases sg <;> rfl

theorem round_bind (r : FSRes W) (n : Nat) (k : Sh W → LEnv → FSRes W) : r.round n k = r.bind fun s a => match a.2 with
    | .normal => k s (a.1.leave n)
    | .brk => (s, .ok (a.1.leave n, .normal))
    | .cont => k s (a.1.leave n)
    | .ret v => (s, .ok (a.1, .ret v)) := by
  rcases r with ⟨s, e | ⟨l, sg⟩⟩
  · rfl
  · cases sg <;> rfl

theorem seqS {m : FVM W} {r : FSRes W} {k : Sh W → LEnv → FSRes W} {q' : Nat} {names' : List Name}
    (h : FSim F P Q X.code X.K n m r (STgt X base L fr sh cls q names))
    (h' : ∀ sh1 loc1 cls1, FKeeps sh sh1 cls cls1 → FInv X sh1 cls1 → (∀ q ∈ loc1, q.2 ≠ .end_) → loc1.map Prod.fst = names →
      FSim F P Q X.code X.K n (mach fr sh1 cls1 q [] loc1) (k sh1 loc1) (STgt X base L fr sh cls q' names')) :
    FSim F P Q X.code X.K n m (r.andThen k) (STgt X base L fr sh cls q' names') := by
  rw [andThen_bind]
  refine h.bind ?_
  rintro sh1 ⟨loc1, sg⟩ m1 _ ⟨cls1, k1, inv1, hl, he⟩
  cases sg with
  | normal =>
    obtain ⟨rfl, hn⟩ := he
    exact h' sh1 loc1 cls1 k1 inv1 hl hn
  | brk => exact FSim.done ⟨cls1, k1, inv1, hl, he⟩
  | cont => exact FSim.done ⟨cls1, k1, inv1, hl, he⟩
  | ret v => exact FSim.done ⟨cls1, k1, inv1, hl, he⟩

theorem FSim.pops {α : Type} {T : Sh W → α → FVM W → Prop} {r : FRes W α} {fp : Int} {loops : List (Nat × Val)} {g : Name → Option Val} {w : W}
    {out : List Byte} {nfp : Int} {frs : List CFrame} {st : List Val} : ∀ (as : List Val) (p : Nat),
    At X.code p (List.replicate as.length Opc.POP.byte) →
    FSim F P Q X.code X.K n ⟨⟨p + as.length, st, fp, loops, g, w, out⟩, nfp, frs, cls⟩ r T →
    FSim F P Q X.code X.K n ⟨⟨p, as ++ st, fp, loops, g, w, out⟩, nfp, frs, cls⟩ r T
  | [], p, _, h => h
  | a :: as, p, hp, h => by
    have hp' : At X.code p (Opc.POP.byte :: List.replicate as.length Opc.POP.byte) := hp
    refine FSim.pop hp' (FSim.pops as (p + 1) hp'.tail ?_)
    have : p + 1 + as.length = p + (a :: as).length := by simp; omega
    rw [this]; exact h

theorem truthy_feval {call : Clo → List Val → Sh W → FRes W Val} {label : Nat → Option Nat} {vis : Nat} {e : FExpr} (m : Bool) (h : e.truthyNode = true) :
    ∃ v, feval F P Q label call vis loc e m sh = (sh, .ok v) ∧ v.falsey = false := by
  cases e with
  | lit l =>
    cases l <;> simp [FExpr.truthyNode] at h
    · subst h; exact ⟨_, by rw [feval], rfl⟩
    · exact ⟨_, by rw [feval], rfl⟩
  | _ => simp [FExpr.truthyNode] at h

theorem falsey_feval {call : Clo → List Val → Sh W → FRes W Val} {label : Nat → Option Nat} {vis : Nat} {e : FExpr} (m : Bool) (h : e.falseyNode = true) :
    ∃ v, feval F P Q label call vis loc e m sh = (sh, .ok v) ∧ v.falsey = true := by
  cases e with
  | lit l =>
    cases l <;> simp [FExpr.falseyNode] at h
    · exact ⟨_, by rw [feval], rfl⟩
    · subst h; exact ⟨_, by rw [feval], rfl⟩
  | _ => simp [FExpr.falseyNode] at h

theorem leave_self {loc : LEnv} {k : Nat} (h : loc.length = k) : loc.leave k = loc := by
  unfold LEnv.leave; rw [h]; simp

theorem dropLoops_cons {l : Nat × Val} {loops : List (Nat × Val)} {lp : Int} (h : lp ≤ (loops.length : Int) - 1) :
    dropLoops (l :: loops) lp = dropLoops loops lp := by
  unfold dropLoops
  rw [show (((l :: loops).length : Int) - 1 - lp).toNat = ((loops.length : Int) - 1 - lp).toNat + 1 by simp; omega]
  rfl

theorem FOk.enter {loc1 : LEnv} {nm : List Name} {names' : List Name} (ok : FOk S fr loc names' cls) (hl : ∀ q ∈ loc1, q.2 ≠ .end_)
    (hn : loc1.map Prod.fst = nm ++ loc.map Prod.fst) (hs : nm.length + S.own.length ≤ 128) : FOk ⟨nm ++ S.own, S.sts, S.ups⟩ fr loc1 names' cls := by
  refine ⟨?_, by simpa using hs, hl, ok.place⟩
  show nm ++ S.own = loc1.map Prod.fst ++ S.base
  rw [hn, ok.own]; simp

theorem FOk.same {loc1 : LEnv} {names' : List Name} (ok : FOk S fr loc names' cls) (hl : ∀ q ∈ loc1, q.2 ≠ .end_)
    (hn : loc1.map Prod.fst = loc.map Prod.fst) : FOk S fr loc1 names' cls :=
  ⟨by rw [hn]; exact ok.own, ok.small, hl, ok.place⟩

/-! ## Loops -/

theorem sim_while (H : SimHyp P Q X) {cond : LEnv → Sh W → FRes W Val} {body : LEnv → Sh W → FSRes W} {p p1 p2 : Nat}
    (hc : ∀ loc sh cls, FOk S fr loc (sh.statics.map Prod.fst) cls → FInv X sh cls →
      FSim F P Q X.code X.K n (mach fr sh cls p [] loc) (cond loc sh) (ETgt X fr sh cls p1 [] loc))
    (hb : ∀ loc sh cls, FOk S fr loc (sh.statics.map Prod.fst) cls → FInv X sh cls →
      FSim F P Q X.code X.K n (mach fr sh cls (p1 + 9) [] loc) (body loc sh) (STgt X S.base (some ⟨p1, p, S.own⟩) fr sh cls p2 (loc.map Prod.fst)))
    (h1 : JumpAt X .BRF_8 p1 (p2 + 9)) (h2 : JumpAt X .BR_8 p2 p) :
    ∀ (k : Nat) (loc : LEnv) (sh : Sh W) (cls : List (Nat × List Nat)), k ≤ n → FOk S fr loc (sh.statics.map Prod.fst) cls → FInv X sh cls →
      FSim F P Q X.code X.K k (mach fr sh cls p [] loc) (floop cond body k loc sh) (STgt X S.base L fr sh cls (p2 + 9) (loc.map Prod.fst))
  | 0, loc, sh, cls, _, _, _ => .inr ⟨0, _, Nat.le_refl _, rfl, rfl, rfl, rfl⟩
  | k + 1, loc, sh, cls, hk, ok, inv => by
    rw [floop]
    refine seqE ((hc loc sh cls ok inv).weaken hk) ok fun sh1 v cls1 k1 ok1 inv1 hv => STgt.from k1 ?_
    obtain ⟨g1, g2, g3⟩ := h1
    have g4 := g1.length_le g3
    simp at g4
    by_cases hf : v.falsey = true
    · rw [if_pos hf]
      refine FSim.cond .f H.hX ⟨g1, g2, g3⟩ (fun _ => ?_) (fun h => by simp [hf] at h)
      exact FSim.done ⟨cls1, .refl _ _, inv1, ok1.lEnd, rfl, rfl⟩
    · rw [if_neg hf, round_bind]
      have hstep : FVM.step F P Q X.code X.K (mach fr sh1 cls1 p1 [v] loc) = .next (mach fr sh1 cls1 (p1 + 9) [] loc) := by
        rw [show mach fr sh1 cls1 p1 [v] loc = (⟨⟨p1, v :: ([] ++ (loc.map Prod.snd ++ (fr.mid ++ sh1.statics.map Prod.snd))), fr.fp, fr.loops, sh1.globals, sh1.world, sh1.out⟩, fr.nextFp, fr.frames, cls1⟩ : FVM W) from rfl]
        rw [fstep_of g1 (step_cond .f v g1), if_neg hf]
        rfl
      refine FSim.step' hstep (((hb loc sh1 cls1 ok1 inv1).weaken (by omega)).bind ?_)
      rintro sh2 ⟨loc2, sg⟩ m2 _ ⟨cls2, k2, inv2, hl2, he⟩
      have hlen : ∀ {nm : List Name}, loc2.map Prod.fst = loc.map Prod.fst → loc2.leave loc.length = loc2 := by
        intro _ h
        refine leave_self ?_
        simpa using congrArg List.length h
      have hown : loc2.map Prod.fst ++ S.base = S.own → loc2.map Prod.fst = loc.map Prod.fst := by
        intro h; rw [ok.own] at h; exact List.append_cancel_right h
      have again : loc2.map Prod.fst = loc.map Prod.fst →
          FSim F P Q X.code X.K k (mach fr sh2 cls2 p [] loc2) (floop cond body k (loc2.leave loc.length) sh2) (STgt X S.base L fr sh1 cls1 (p2 + 9) (loc.map Prod.fst)) := by
        intro hn
        rw [hlen (nm := []) hn, ← hn]
        refine STgt.from k2 (sim_while H hc hb ⟨g1, g2, g3⟩ h2 k loc2 sh2 cls2 (by omega) ?_ inv2)
        rw [k2.names]
        exact (ok1.keep k2.cls).same hl2 hn
      cases sg with
      | normal =>
        obtain ⟨rfl, hn⟩ := he
        exact FSim.br H.hX h2 (again hn)
      | brk =>
        obtain ⟨l, hL, rfl, hn⟩ := he
        cases hL
        have hn' := hown hn
        refine FSim.cond .f H.hX ⟨g1, g2, g3⟩ (fun _ => ?_) (fun h => by simp [Val.falsey] at h)
        dsimp only
        rw [hlen (nm := []) hn']
        exact FSim.done ⟨cls2, k2, inv2, hl2, rfl, hn'⟩
      | cont =>
        obtain ⟨l, hL, rfl, hn⟩ := he
        cases hL
        exact again (hown hn)
      | ret v => exact FSim.done ⟨cls2, k2, inv2, hl2, he⟩

theorem STgt.loop {r : FSRes W} {m : FVM W} (h : FSim F P Q X.code X.K n m r (STgt X base none fr sh cls q names)) :
    FSim F P Q X.code X.K n m r (STgt X base L fr sh cls q names) := by
  refine h.mono ?_
  rintro sh1 ⟨loc1, sg⟩ m1 _ ⟨cls1, h1, h2, h3, h4⟩
  refine ⟨cls1, h1, h2, h3, ?_⟩
  cases sg with
  | normal => exact h4
  | brk => obtain ⟨l, hl, _⟩ := h4; cases hl
  | cont => obtain ⟨l, hl, _⟩ := h4; cases hl
  | ret v => exact h4

theorem sim_post (H : SimHyp P Q X) {cond : LEnv → Sh W → FRes W Val} {body post : LEnv → Sh W → FSRes W} {p0 p p1 p2 : Nat}
    (hc : ∀ loc sh cls, FOk S fr loc (sh.statics.map Prod.fst) cls → FInv X sh cls →
      FSim F P Q X.code X.K n (mach fr sh cls p [] loc) (cond loc sh) (ETgt X fr sh cls p1 [] loc))
    (hb : ∀ loc sh cls, FOk S fr loc (sh.statics.map Prod.fst) cls → FInv X sh cls →
      FSim F P Q X.code X.K n (mach fr sh cls (p1 + 9) [] loc) (body loc sh) (STgt X S.base (some ⟨p1, p0, S.own⟩) fr sh cls p2 (loc.map Prod.fst)))
    (hp : ∀ loc sh cls, FOk S fr loc (sh.statics.map Prod.fst) cls → FInv X sh cls →
      FSim F P Q X.code X.K n (mach fr sh cls p0 [] loc) (post loc sh) (STgt X S.base none fr sh cls p (loc.map Prod.fst)))
    (h1 : JumpAt X .BRF_8 p1 (p2 + 9)) (h2 : JumpAt X .BR_8 p2 p0) :
    ∀ (k : Nat) (loc : LEnv) (sh : Sh W) (cls : List (Nat × List Nat)), k ≤ n → FOk S fr loc (sh.statics.map Prod.fst) cls → FInv X sh cls →
      FSim F P Q X.code X.K k (mach fr sh cls p [] loc) (floopP cond body post k loc sh) (STgt X S.base L fr sh cls (p2 + 9) (loc.map Prod.fst))
  | 0, loc, sh, cls, _, _, _ => .inr ⟨0, _, Nat.le_refl _, rfl, rfl, rfl, rfl⟩
  | k + 1, loc, sh, cls, hk, ok, inv => by
    rw [floopP]
    refine seqE ((hc loc sh cls ok inv).weaken hk) ok fun sh1 v cls1 k1 ok1 inv1 hv => STgt.from k1 ?_
    obtain ⟨g1, g2, g3⟩ := h1
    have g4 := g1.length_le g3
    simp at g4
    by_cases hf : v.falsey = true
    · rw [if_pos hf]
      refine FSim.cond .f H.hX ⟨g1, g2, g3⟩ (fun _ => ?_) (fun h => by simp [hf] at h)
      exact FSim.done ⟨cls1, .refl _ _, inv1, ok1.lEnd, rfl, rfl⟩
    · rw [if_neg hf, round_bind]
      have hstep : FVM.step F P Q X.code X.K (mach fr sh1 cls1 p1 [v] loc) = .next (mach fr sh1 cls1 (p1 + 9) [] loc) := by
        rw [show mach fr sh1 cls1 p1 [v] loc = (⟨⟨p1, v :: ([] ++ (loc.map Prod.snd ++ (fr.mid ++ sh1.statics.map Prod.snd))), fr.fp, fr.loops, sh1.globals, sh1.world, sh1.out⟩, fr.nextFp, fr.frames, cls1⟩ : FVM W) from rfl]
        rw [fstep_of g1 (step_cond .f v g1), if_neg hf]
        rfl
      refine FSim.step' hstep (((hb loc sh1 cls1 ok1 inv1).weaken (by omega)).bind ?_)
      rintro sh2 ⟨loc2, sg⟩ m2 _ ⟨cls2, k2, inv2, hl2, he⟩
      have hlen : ∀ {nm : List Name}, loc2.map Prod.fst = loc.map Prod.fst → loc2.leave loc.length = loc2 := by
        intro _ h
        refine leave_self ?_
        simpa using congrArg List.length h
      have hown : loc2.map Prod.fst ++ S.base = S.own → loc2.map Prod.fst = loc.map Prod.fst := by
        intro h; rw [ok.own] at h; exact List.append_cancel_right h
      have again : loc2.map Prod.fst = loc.map Prod.fst →
          FSim F P Q X.code X.K k (mach fr sh2 cls2 p0 [] loc2) ((post (loc2.leave loc.length) sh2).andThen fun s loc => floopP cond body post k loc s)
            (STgt X S.base L fr sh1 cls1 (p2 + 9) (loc.map Prod.fst)) := by
        intro hn
        have ok2 : FOk S fr loc2 (sh2.statics.map Prod.fst) cls2 := by
          rw [k2.names]
          exact (ok1.keep k2.cls).same hl2 hn
        rw [hlen (nm := []) hn, ← hn]
        refine STgt.from k2 (seqS (STgt.loop ((hp loc2 sh2 cls2 ok2 inv2).weaken (by omega))) fun sh3 loc3 cls3 k3 inv3 hl3 hn3 => ?_)
        rw [← hn3]
        refine STgt.from k3 (sim_post H hc hb hp ⟨g1, g2, g3⟩ h2 k loc3 sh3 cls3 (by omega) ?_ inv3)
        rw [k3.names]
        exact (ok2.keep k3.cls).same hl3 hn3
      cases sg with
      | normal =>
        obtain ⟨rfl, hn⟩ := he
        exact FSim.br H.hX h2 (again hn)
      | brk =>
        obtain ⟨l, hL, rfl, hn⟩ := he
        cases hL
        have hn' := hown hn
        refine FSim.cond .f H.hX ⟨g1, g2, g3⟩ (fun _ => ?_) (fun h => by simp [Val.falsey] at h)
        dsimp only
        rw [hlen (nm := []) hn']
        exact FSim.done ⟨cls2, k2, inv2, hl2, rfl, hn'⟩
      | cont =>
        obtain ⟨l, hL, rfl, hn⟩ := he
        cases hL
        exact again (hown hn)
      | ret v => exact FSim.done ⟨cls2, k2, inv2, hl2, he⟩

theorem sim_iter (H : SimHyp P Q X) {x : Name} {c : Val} {body : LEnv → Sh W → FSRes W} {p p2 : Nat} (h128 : S.own.length + 1 ≤ 128)
    (hret : RetPlace S fr) (h0 : At X.code p [Opc.ITER_1.byte]) (h1 : JumpAt X .BRF_8 (p + 1) (p2 + 9))
    (h3 : At X.code (p + 10) [Opc.LSTORE.byte, BitVec.ofNat 8 S.own.length])
    (hb : ∀ fr' loc sh cls, RetPlace S fr' → FOk ⟨x :: S.own, S.sts, S.ups⟩ fr' loc (sh.statics.map Prod.fst) cls → FInv X sh cls →
      FSim F P Q X.code X.K n (mach fr' sh cls (p + 12) [] loc) (body loc sh) (STgt X S.base (some ⟨p + 1, p, x :: S.own⟩) fr' sh cls p2 (loc.map Prod.fst)))
    (h2 : JumpAt X .BR_8 p2 p) (h4 : At X.code (p2 + 9) [Opc.ENDFOR.byte]) (h5 : At X.code (p2 + 10) [Opc.POP.byte]) :
    ∀ (k i : Nat) (u : Val) (loc : LEnv) (sh : Sh W) (cls : List (Nat × List Nat)), k ≤ n → FOk S fr loc (sh.statics.map Prod.fst) cls → FInv X sh cls →
      FSim F P Q X.code X.K k (mach { fr with loops := (i, c) :: fr.loops } sh cls p [u] loc) (floopIter P x c body k i loc sh)
        (STgt X S.base L fr sh cls (p2 + 11) (loc.map Prod.fst))
  | 0, i, u, loc, sh, cls, _, _, _ => .inr ⟨0, _, Nat.le_refl _, rfl, rfl, rfl, rfl⟩
  | k + 1, i, u, loc, sh, cls, hk, ok, inv => by
    rw [floopIter]
    obtain ⟨g1, g2, g3⟩ := h1
    have g4 := g1.length_le g3
    simp at g4
    have leaveL : ∀ (N j : Nat) (u : Val) (loc2 : LEnv) (sh2 : Sh W) (cls2 : List (Nat × List Nat)), FKeeps sh sh2 cls cls2 → FInv X sh2 cls2 →
        (∀ q ∈ loc2, q.2 ≠ .end_) → loc2.map Prod.fst = loc.map Prod.fst →
        FSim F P Q X.code X.K N (mach { fr with loops := (j, c) :: fr.loops } sh2 cls2 (p + 1) [.bool false, u] loc2)
          (sh2, .ok (loc2, .normal)) (STgt X S.base L fr sh cls (p2 + 11) (loc.map Prod.fst)) := by
      intro N j u loc2 sh2 cls2 k2 inv2 hl2 hn
      refine FSim.cond .f H.hX ⟨g1, g2, g3⟩ (fun _ => ?_) (fun h => by simp [Val.falsey] at h)
      refine FSim.step (fstep_of h4 (step_endfor h4)) ?_
      refine FSim.pop h5 (FSim.done ⟨cls2, k2, inv2, hl2, rfl, hn⟩)
    have key := stepv_iter (F := F) (P := P) (K := X.K) (i := i) (v := c) (st := [u] ++ (loc.map Prod.snd ++ (fr.mid ++ sh.statics.map Prod.snd)))
      (fp := fr.fp) (loops := fr.loops) (g := sh.globals) (w := sh.world) (out := sh.out) h0
    have key2 := fstep_of (Q := Q) (nfp := fr.nextFp) (frs := fr.frames) (cls := cls) h0 key
    rcases hnext : P.next sh.world c i with ⟨w', e | (_ | ⟨v, j⟩)⟩
    · rw [hnext] at key2
      exact FSim.fail key2 ⟨rfl, rfl, rfl⟩
    · rw [hnext] at key2
      refine FSim.push key2 ?_
      exact leaveL _ i u loc { sh with world := w' } cls ⟨rfl, List.prefix_refl _⟩ (inv.world w') ok.lEnd rfl
    · rw [hnext] at key2
      have inv1 := inv.world w'
      have ok1 : FOk S fr loc (({ sh with world := w' } : Sh W).statics.map Prod.fst) cls := ok
      generalize hsh1 : ({ sh with world := w' } : Sh W) = sh1 at inv1 ok1
      have k1 : FKeeps sh sh1 cls cls := by subst hsh1; exact ⟨rfl, List.prefix_refl _⟩
      -- the two values, the test and the store
      suffices hmain : FSim F P Q X.code X.K k (mach { fr with loops := (j, c) :: fr.loops } sh1 cls (p + 12) [] ((x, v) :: loc))
          ((body ((x, v) :: loc) sh1).round loc.length fun s loc => floopIter P x c body k j loc s) (STgt X S.base L fr sh cls (p2 + 11) (loc.map Prod.fst)) by
        have e0 : (sh.prim (w', Except.ok (some (v, j)))) = (sh1, Except.ok (some (v, j))) := by subst hsh1; rfl
        rw [e0]
        show FSim F P Q X.code X.K (k + 1) _ ((body ((x, v) :: loc) sh1).round loc.length fun s loc => floopIter P x c body k j loc s) _
        by_cases hfull : ([u] ++ (loc.map Prod.snd ++ (fr.mid ++ sh.statics.map Prod.snd))).length ≥ stackSize
        · simp only [VM.push, if_pos hfull] at key2
          exact FSim.limit key2 (.inl ⟨rfl, .inl hfull⟩)
        · simp only [VM.push, if_neg hfull] at key2
          refine FSim.push (vm1 := ⟨p + 1, v :: ([u] ++ (loc.map Prod.snd ++ (fr.mid ++ sh.statics.map Prod.snd))), fr.fp, (j, c) :: fr.loops, sh.globals, w', sh.out⟩)
            (v := .bool true) key2 ?_
          have hstep : FVM.step F P Q X.code X.K ⟨⟨p + 1, .bool true :: v :: ([u] ++ (loc.map Prod.snd ++ (fr.mid ++ sh.statics.map Prod.snd))), fr.fp, (j, c) :: fr.loops, sh.globals, w', sh.out⟩, fr.nextFp, fr.frames, cls⟩
              = .next ⟨⟨p + 10, v :: ([u] ++ (loc.map Prod.snd ++ (fr.mid ++ sh.statics.map Prod.snd))), fr.fp, (j, c) :: fr.loops, sh.globals, w', sh.out⟩, fr.nextFp, fr.frames, cls⟩ := by
            rw [fstep_of g1 (step_cond .f _ g1)]
            rfl
          refine FSim.step' hstep ?_
          obtain ⟨h7, h8⟩ := ok.fpEq
          refine FSim.step (fstep_of h3 (step_lstore (i := S.own.length) (j := 0) (by omega) h3 ?_ h8)) ?_
          · simp only [List.singleton_append, List.length_cons]; omega
          · subst hsh1; exact hmain
      rw [round_bind]
      have okb : FOk ⟨x :: S.own, S.sts, S.ups⟩ { fr with loops := (j, c) :: fr.loops } ((x, v) :: loc) (sh1.statics.map Prod.fst) cls := by
        refine ⟨?_, by simpa using h128, ?_, ok1.place⟩
        · show x :: S.own = _
          rw [ok.own]; rfl
        · intro y hy
          rcases List.mem_cons.1 hy with rfl | hy
          · exact H.hP.next _ _ _ _ _ _ hnext
          · exact ok.lEnd y hy
      have hret' : RetPlace S { fr with loops := (j, c) :: fr.loops } := by
        intro hu
        obtain ⟨fr0, frs, m, a1, a2, a3, a4⟩ := hret hu
        exact ⟨fr0, frs, m, a1, a2, a3, by simp; omega⟩
      refine ((hb _ ((x, v) :: loc) sh1 cls hret' okb inv1).weaken (by omega)).bind ?_
      rintro sh2 ⟨loc2, sg⟩ m2 _ ⟨cls2, k2, inv2, hl2, he⟩
      have hshape : loc2.map Prod.fst = x :: loc.map Prod.fst → ∃ u loc3, loc2 = (x, u) :: loc3 ∧ loc3.map Prod.fst = loc.map Prod.fst ∧ loc2.leave loc.length = loc3 := by
        intro h
        cases loc2 with
        | nil => simp at h
        | cons y loc3 =>
          obtain ⟨y, u⟩ := y
          simp only [List.map_cons, List.cons.injEq] at h
          obtain ⟨rfl, h⟩ := h
          refine ⟨u, loc3, rfl, h, ?_⟩
          have : loc3.length = loc.length := by simpa using congrArg List.length h
          unfold LEnv.leave
          rw [List.length_cons, this, Nat.add_sub_cancel_left]; rfl
      have hown : loc2.map Prod.fst ++ S.base = x :: S.own → loc2.map Prod.fst = x :: loc.map Prod.fst := by
        intro h; rw [ok.own, ← List.cons_append] at h; exact List.append_cancel_right h
      have again : loc2.map Prod.fst = x :: loc.map Prod.fst →
          FSim F P Q X.code X.K k (mach { fr with loops := (j, c) :: fr.loops } sh2 cls2 p [] loc2) (floopIter P x c body k j (loc2.leave loc.length) sh2)
            (STgt X S.base L fr sh cls (p2 + 11) (loc.map Prod.fst)) := by
        intro hn
        obtain ⟨u2, loc3, rfl, h6, h7⟩ := hshape hn
        rw [h7, ← h6]
        refine STgt.from (k1.trans k2) (sim_iter H h128 hret h0 ⟨g1, g2, g3⟩ h3 hb h2 h4 h5 k j u2 loc3 sh2 cls2 (by omega) ?_ inv2)
        rw [k2.names]
        exact (ok1.keep k2.cls).same (fun q hq => hl2 q (by simp [hq])) h6
      cases sg with
      | normal =>
        obtain ⟨rfl, hn⟩ := he
        exact FSim.br H.hX h2 (again hn)
      | brk =>
        obtain ⟨l, hL, rfl, hn⟩ := he
        cases hL
        obtain ⟨u2, loc3, rfl, h6, h7⟩ := hshape (hown hn)
        dsimp only
        rw [h7]
        exact leaveL _ j u2 loc3 sh2 cls2 (k1.trans k2) inv2 (fun q hq => hl2 q (by simp [hq])) h6
      | cont =>
        obtain ⟨l, hL, rfl, hn⟩ := he
        cases hL
        exact again (hown hn)
      | ret v2 =>
        obtain ⟨hv2, fv, rest, fr0, frs, a1, a2, rfl⟩ := he
        refine FSim.done ⟨cls2, k1.trans k2, inv2, hl2, hv2, fv, rest, fr0, frs, a1, a2, ?_⟩
        have hu : S.ups ≠ none := by
          intro hu
          have hp := ok.place
          unfold FramePlace at hp
          simp only [hu] at hp
          have a1' : fr.mid = fv :: rest := a1
          rw [hp.2.1] at a1'; cases a1'
        obtain ⟨fr1, frs1, m1, b1, b2, b3, b4⟩ := hret hu
        have a2' : fr.frames = fr0 :: frs := a2
        rw [b1] at a2'; cases a2'
        show (⟨⟨_, _, _, dropLoops ((j, c) :: fr.loops) fr0.lp, _, _, _⟩, _, _, _⟩ : FVM W) = _
        rw [dropLoops_cons b4]

/-! ## Statements -/

theorem sim_done_expr {e : FExpr} {m : Bool} {call : Clo → List Val → Sh W → FRes W Val} {p : Nat} (ok : FOk S fr loc (sh.statics.map Prod.fst) cls) (inv : FInv X sh cls)
    {v : Val} (h : feval F P Q X.label call S.sts.length loc e m sh = (sh, .ok v)) :
    FSim F P Q X.code X.K n (mach fr sh cls p [] loc)
      ((feval F P Q X.label call S.sts.length loc e m sh).bind fun s _ => (s, .ok (loc, .normal)))
      (STgt X S.base L fr sh cls p (loc.map Prod.fst)) := by
  rw [h]
  exact FSim.done ⟨cls, .refl _ _, inv, ok.lEnd, rfl, rfl⟩

theorem sim_let (H : SimHyp P Q X) {call : Clo → List Val → Sh W → FRes W Val} (hcall : CallSem F P Q X call n) {e : FExpr} {m : Bool} {x : Name} {p q : Nat}
    (hc : CodeE X S e m p q) (ok : FOk S fr loc (sh.statics.map Prod.fst) cls) (inv : FInv X sh cls) :
    FSim F P Q X.code X.K n (mach fr sh cls p [] loc)
      ((feval F P Q X.label call S.sts.length loc e m sh).bind fun s v => (s, .ok ((x, v) :: loc, .normal)))
      (STgt X S.base L fr sh cls q ([x] ++ loc.map Prod.fst)) := by
  refine seqE (simE H hcall e m S fr loc sh cls p q [] hc ok inv) ok fun sh1 v cls1 k1 ok1 inv1 hv => STgt.from k1 ?_
  refine FSim.done ⟨cls1, .refl _ _, inv1, ?_, rfl, rfl⟩
  intro y hy
  rcases List.mem_cons.1 hy with rfl | hy
  · exact hv
  · exact ok1.lEnd y hy

theorem CodeL.small {top : Bool} : ∀ (ls : List FTarget) (S : SEnv) (p q : Nat), CodeL X top S ls p q → S.own.length ≤ 128 → (declsL ls).length + S.own.length ≤ 128
  | [], S, p, q, h, h2 => by simpa [declsL] using h2
  | .let_ x :: ls, S, p, q, h, h2 => by
    rw [CodeL] at h
    have := CodeL.small ls _ p q h.2 (by simpa using h.1)
    simp [declsL] at this ⊢; omega
  | .const_ x :: ls, S, p, q, h, h2 => by
    rw [CodeL] at h
    have := CodeL.small ls _ p q h.2 (by simpa using h.1)
    simp [declsL] at this ⊢; omega
  | .assign x :: ls, S, p, q, h, h2 => by
    rw [CodeL] at h
    obtain ⟨_, _, p1, _, h4⟩ := h
    exact CodeL.small ls S p1 q h4 h2

theorem CodeS.small {st : FStmt} {m : Bool} {p q : Nat} (h : CodeS X S st m L p q) (h2 : S.own.length ≤ 128) : st.decls.length + S.own.length ≤ 128 := by
  cases st with
  | let_ x e | const_ x e | fnDecl x id ps body => rw [CodeS] at h; simp [FStmt.decls]; omega
  | multi ls es => rw [CodeS] at h; obtain ⟨p1, -, -, h3⟩ := h; exact CodeL.small ls S p1 q h3 h2
  | _ => simpa [FStmt.decls] using h2

theorem sim_ret {α : Type} {T : Sh W → α → FVM W → Prop} {p1 : Nat} {v : Val} (h2 : At X.code p1 [opRET, BitVec.ofNat 8 S.own.length]) (hu : S.ups ≠ none)
    (hret : RetPlace S fr) (ok : FOk S fr loc (sh.statics.map Prod.fst) cls) (r : FRes W α)
    (hs : ∀ m', RetAt fr sh cls v m' → FSim F P Q X.code X.K n m' r T) :
    FSim F P Q X.code X.K n (mach fr sh cls p1 [v] loc) r T := by
  obtain ⟨fr0, frs, m, a1, a2, a3, a4⟩ := hret hu
  have hp := ok.place
  have ho := ok.own
  have hsm := ok.small
  unfold FramePlace at hp
  unfold SEnv.base at ho
  split at hp
  · rename_i h; exact absurd h hu
  · rename_i U hU
    simp only [hU, List.append_nil] at ho
    obtain ⟨_, _, fv, rest, b1, b2, _⟩ := hp
    refine FSim.step ?_ (hs _ ⟨fv, rest, fr0, frs, b1, a1, rfl⟩)
    have e : mach fr sh cls p1 [v] loc = ⟨⟨p1, v :: loc.map Prod.snd ++ fv :: (rest ++ sh.statics.map Prod.snd), ((rest ++ sh.statics.map Prod.snd).length : Nat), fr.loops, sh.globals, sh.world, sh.out⟩,
        fr.nextFp, fr0 :: frs, cls⟩ := by
      unfold mach
      rw [b1, b2, a1]; simp
    rw [e]
    exact fstep_ret h2 (by rw [ho]; simp) (by omega) a2

theorem fevalAll_length {call : Clo → List Val → Sh W → FRes W Val} {label : Nat → Option Nat} {vis : Nat} : ∀ {es : FExprs} {m : Bool} {s s' : Sh W} {vs : List Val},
    fevalAll F P Q label call vis loc es m s = (s', .ok vs) → vs.length = es.length
  | .nil, m, s, s', vs, h => by
    rw [fevalAll] at h; cases h; rfl
  | .cons e es, m, s, s', vs, h => by
    rw [fevalAll] at h
    rcases h1 : feval F P Q label call vis loc e m s with ⟨s1, er | v⟩
    · rw [h1] at h; cases h
    · rw [h1] at h
      rcases h2 : fevalAll F P Q label call vis loc es m s1 with ⟨s2, er | us⟩
      · simp only [FRes.bind, h2] at h; cases h
      · simp only [FRes.bind, h2] at h
        cases h
        simp [FExprs.length, fevalAll_length h2]

theorem sim_moveup {α : Type} {T : Sh W → α → FVM W → Prop} {r : FRes W α} {p : Nat} {rest : List Val} {v : Val} (h128 : S.own.length + 1 ≤ 128)
    (h : At X.code p [Opc.MOVEUP_FP.byte, BitVec.ofNat 8 S.own.length]) (ok : FOk S fr loc (sh.statics.map Prod.fst) cls)
    (hs : FSim F P Q X.code X.K n (mach fr sh cls (p + 2) (v :: rest) loc) r T) : FSim F P Q X.code X.K n (mach fr sh cls p (rest ++ [v]) loc) r T := by
  obtain ⟨h7, h8⟩ := ok.fpEq
  refine FSim.step (fstep_of h (step_moveup (i := S.own.length) (j := rest.length) (v := v) (by omega) h ?_ h8 ?_)) ?_
  · rw [List.length_append, List.length_append]; simp only [List.length_singleton]; omega
  · simp
  · have : ((rest ++ [v]) ++ (loc.map Prod.snd ++ (fr.mid ++ sh.statics.map Prod.snd))).eraseIdx rest.length = rest ++ (loc.map Prod.snd ++ (fr.mid ++ sh.statics.map Prod.snd)) := by
      rw [List.append_assoc, List.eraseIdx_append_of_length_le (Nat.le_refl _)]; simp
    rw [this]; exact hs

theorem sim_targets : ∀ (ls : List FTarget) (vs : List Val) (S : SEnv) (loc : LEnv) (sh : Sh W) (cls : List (Nat × List Nat)) (p q : Nat),
    CodeL X false S ls p q → vs.length = ls.length → (∀ v ∈ vs, v ≠ .end_) → FOk S fr loc (sh.statics.map Prod.fst) cls → FInv X sh cls →
    FSim F P Q X.code X.K n (mach fr sh cls p vs.reverse loc)
      ((assignAll S.sts.length ls vs loc sh).1, .ok ((assignAll S.sts.length ls vs loc sh).2, .normal))
      (STgt X base L fr sh cls q (declsL ls ++ loc.map Prod.fst))
  | [], [], S, loc, sh, cls, p, q, hc, _, _, ok, inv => by
    rw [CodeL] at hc; subst hc
    exact FSim.done ⟨cls, .refl _ _, inv, ok.lEnd, rfl, rfl⟩
  | .let_ x :: ls, v :: vs, S, loc, sh, cls, p, q, hc, hl, hv, ok, inv => by
    rw [CodeL] at hc
    have := sim_targets ls vs ⟨x :: S.own, S.sts, S.ups⟩ ((x, v) :: loc) sh cls p q hc.2 (by simpa using hl) (fun u hu => hv u (by simp [hu]))
      ⟨by rw [ok.own]; rfl, by simpa using hc.1, by
        intro y hy
        rcases List.mem_cons.1 hy with rfl | hy
        · exact hv v (by simp)
        · exact ok.lEnd y hy, ok.place⟩ inv
    have e : mach fr sh cls p (v :: vs).reverse loc = mach fr sh cls p vs.reverse ((x, v) :: loc) := by unfold mach; simp
    rw [e, assignAll, declsL, List.append_assoc]
    exact this
  | .const_ x :: ls, v :: vs, S, loc, sh, cls, p, q, hc, hl, hv, ok, inv => by
    rw [CodeL] at hc
    have := sim_targets ls vs ⟨x :: S.own, S.sts, S.ups⟩ ((x, v) :: loc) sh cls p q hc.2 (by simpa using hl) (fun u hu => hv u (by simp [hu]))
      ⟨by rw [ok.own]; rfl, by simpa using hc.1, by
        intro y hy
        rcases List.mem_cons.1 hy with rfl | hy
        · exact hv v (by simp)
        · exact ok.lEnd y hy, ok.place⟩ inv
    have e : mach fr sh cls p (v :: vs).reverse loc = mach fr sh cls p vs.reverse ((x, v) :: loc) := by unfold mach; simp
    rw [e, assignAll, declsL, List.append_assoc]
    exact this
  | .assign x :: ls, v :: vs, S, loc, sh, cls, p, q, hc, hl, hv, ok, inv => by
    rw [CodeL] at hc
    obtain ⟨h1, h2, p1, h3, h4⟩ := hc
    rw [List.reverse_cons]
    refine sim_moveup h1 h2 ok ?_
    obtain ⟨k2, inv2, hn, hl2, hs⟩ := sim_store (F := F) (P := P) (Q := Q) (n := n) h3 ok inv (hv v (by simp)) vs.reverse
    refine hs _ _ ?_
    have := sim_targets ls vs S _ _ cls p1 q h4 (by simpa using hl) (fun u hu => hv u (by simp [hu])) (by rw [k2.names]; exact ok.same hl2 hn) inv2
    rw [hn] at this
    rw [assignAll, declsL]
    exact STgt.from k2 this

mutual
theorem simS (H : SimHyp P Q X) {call : Clo → List Val → Sh W → FRes W Val} (hcall : CallSem F P Q X call n) :
    ∀ (st : FStmt) (m : Bool) (S : SEnv) (L : Option FLoopAt) (fr : FFrame) (loc : LEnv) (sh : Sh W) (cls : List (Nat × List Nat)) (p q : Nat),
      CodeS X S st m L p q → RetPlace S fr → FOk S fr loc (sh.statics.map Prod.fst) cls → FInv X sh cls →
      FSim F P Q X.code X.K n (mach fr sh cls p [] loc) (fexec F P Q X.label call n S.sts.length m st loc sh)
        (STgt X S.base L fr sh cls q (st.decls ++ loc.map Prod.fst))
  | .expr e, m, S, L, fr, loc, sh, cls, p, q, hc, hret, ok, inv => by
    rw [CodeS] at hc
    rw [fexec]
    rcases hc with ⟨l, rfl, rfl⟩ | ⟨x, rfl, hd, rfl⟩ | ⟨p1, h1, h2, rfl⟩
    · exact sim_done_expr ok inv (v := l.val) (by rw [feval])
    · obtain ⟨v, hv⟩ := sim_defined hd ok inv
      exact sim_done_expr ok inv (v := v) (by rw [feval, hv])
    · refine seqE (simE H hcall e m S fr loc sh cls p p1 [] h1 ok inv) ok fun sh1 v cls1 k1 ok1 inv1 hv => STgt.from k1 ?_
      exact FSim.pop h2 (FSim.done ⟨cls1, .refl _ _, inv1, ok1.lEnd, rfl, rfl⟩)
  | .let_ x e, m, S, L, fr, loc, sh, cls, p, q, hc, hret, ok, inv => by
    rw [CodeS] at hc
    rw [fexec]
    exact sim_let H hcall hc.2 ok inv
  | .const_ x e, m, S, L, fr, loc, sh, cls, p, q, hc, hret, ok, inv => by
    rw [CodeS] at hc
    rw [fexec]
    exact sim_let H hcall hc.2 ok inv
  | .multi ls es, m, S, L, fr, loc, sh, cls, p, q, hc, hret, ok, inv => by
    rw [CodeS] at hc; obtain ⟨p1, hlen, h1, h2⟩ := hc
    rw [fexec]
    refine (simEs H hcall es m S fr loc sh cls p p1 [] h1 ok inv).bind ?_
    rintro sh1 vs m1 he ⟨cls1, rfl, k1, inv1, hv⟩
    rw [List.append_nil]
    exact STgt.from k1 (sim_targets ls vs S loc sh1 cls1 p1 q h2 ((fevalAll_length he).trans hlen) hv (by rw [k1.names]; exact ok.keep k1.cls) inv1)
  | .assign x e, m, S, L, fr, loc, sh, cls, p, q, hc, hret, ok, inv => by
    rw [CodeS] at hc; obtain ⟨p1, h1, h2⟩ := hc
    rw [fexec]
    refine seqE (simE H hcall e m S fr loc sh cls p p1 [] h1 ok inv) ok fun sh1 v cls1 k1 ok1 inv1 hv => STgt.from k1 ?_
    obtain ⟨k2, inv2, hn, hl, hs⟩ := sim_store (F := F) (P := P) (Q := Q) (n := n) h2 ok1 inv1 hv []
    exact hs _ _ (FSim.done ⟨cls1, k2, inv2, hl, rfl, hn⟩)
  | .set c k e, m, S, L, fr, loc, sh, cls, p, q, hc, hret, ok, inv => by
    rw [CodeS] at hc; obtain ⟨p1, p2, p3, h1, h2, h3, h4, rfl⟩ := hc
    rw [fexec]
    refine seqE (simE H hcall c m S fr loc sh cls p p1 [] h1 ok inv) ok fun sh1 a cls1 k1 ok1 inv1 ha => STgt.from k1 ?_
    refine seqE (simE H hcall k m S fr loc sh1 cls1 p1 p2 [a] h2 ok1 inv1) ok1 fun sh2 b cls2 k2 ok2 inv2 hb => STgt.from k2 ?_
    refine seqE (simE H hcall e m S fr loc sh2 cls2 p2 p3 [b, a] h3 ok2 inv2) ok2 fun sh3 v cls3 k3 ok3 inv3 hv => STgt.from k3 ?_
    have key := fstep_of (Q := Q) (nfp := fr.nextFp) (frs := fr.frames) (cls := cls3) h4 (step_set (F := F) (P := P) (K := X.K) (a := a) (k := b) (v := v)
      (st := [] ++ (loc.map Prod.snd ++ (fr.mid ++ sh3.statics.map Prod.snd))) (fp := fr.fp) (loops := fr.loops) (g := sh3.globals) (w := sh3.world) (out := sh3.out) h4)
    rcases hs : P.set sh3.world a b v with ⟨w', er | u⟩
    · rw [hs] at key
      exact FSim.fail key ⟨rfl, rfl, rfl⟩
    · rw [hs] at key
      exact FSim.step key (FSim.done (sh := { sh3 with world := w' }) ⟨cls3, ⟨rfl, List.prefix_refl _⟩, inv3.world w', ok3.lEnd, rfl, rfl⟩)
  | .echo e, m, S, L, fr, loc, sh, cls, p, q, hc, hret, ok, inv => by
    rw [CodeS] at hc; obtain ⟨p1, b, h1, h2, rfl⟩ := hc
    rw [fexec]
    refine seqE (simE H hcall e m S fr loc sh cls p p1 [] h1 ok inv) ok fun sh1 v cls1 k1 ok1 inv1 hv => STgt.from k1 ?_
    have key := fstep_of (Q := Q) (nfp := fr.nextFp) (frs := fr.frames) (cls := cls1) h2 (step_echo (F := F) (P := P) (K := X.K) (v := v)
      (st := [] ++ (loc.map Prod.snd ++ (fr.mid ++ sh1.statics.map Prod.snd))) (fp := fr.fp) (loops := fr.loops) (g := sh1.globals) (w := sh1.world) (out := sh1.out) h2)
    rcases hs : P.tostr sh1.world v with ⟨w', er | t⟩
    · rw [hs] at key
      exact FSim.fail key ⟨rfl, rfl, rfl⟩
    · rw [hs] at key
      exact FSim.step key (FSim.done (sh := { sh1 with world := w', out := sh1.out ++ echoBytes t })
        ⟨cls1, ⟨rfl, List.prefix_refl _⟩, ⟨inv1.ncl, inv1.fns, inv1.gdef, inv1.gEnd, inv1.sEnd⟩, ok1.lEnd, rfl, rfl⟩)
  | .assert e, m, S, L, fr, loc, sh, cls, p, q, hc, hret, ok, inv => by
    rw [CodeS] at hc; obtain ⟨p1, h1, h2, rfl⟩ := hc
    rw [fexec]
    refine seqE (simE H hcall e m S fr loc sh cls p p1 [] h1 ok inv) ok fun sh1 v cls1 k1 ok1 inv1 hv => STgt.from k1 ?_
    have key := fstep_of (Q := Q) (nfp := fr.nextFp) (frs := fr.frames) (cls := cls1) h2 (step_assert (F := F) (P := P) (K := X.K) (v := v)
      (st := [] ++ (loc.map Prod.snd ++ (fr.mid ++ sh1.statics.map Prod.snd))) (fp := fr.fp) (loops := fr.loops) (g := sh1.globals) (w := sh1.world) (out := sh1.out) h2)
    by_cases hf : v.falsey = true
    · rw [if_pos hf] at key
      rw [if_pos hf]
      rcases hs : P.tostr sh1.world v with ⟨w', er | t⟩
      · rw [hs] at key
        exact FSim.fail key ⟨rfl, rfl, rfl⟩
      · rw [hs] at key
        exact FSim.fail key ⟨rfl, rfl, rfl⟩
    · rw [if_neg hf] at key
      rw [if_neg hf]
      exact FSim.step key (FSim.done ⟨cls1, .refl _ _, inv1, ok1.lEnd, rfl, rfl⟩)
  | .block ss, m, S, L, fr, loc, sh, cls, p, q, hc, hret, ok, inv => by
    rw [CodeS] at hc; obtain ⟨p1, h1, h2, rfl⟩ := hc
    rw [fexec]
    refine seqS (simSs H hcall ss m S L fr loc sh cls p p1 h1 hret ok inv) fun sh1 loc1 cls1 k1 inv1 hl hn => ?_
    have hlen : loc1.length = ss.decls.length + loc.length := by simpa using congrArg List.length hn
    have hlv : loc1.leave loc.length = loc1.drop ss.decls.length := by
      unfold LEnv.leave; rw [hlen, Nat.add_sub_cancel]
    have hst : loc1.map Prod.snd = (loc1.take ss.decls.length).map Prod.snd ++ (loc1.leave loc.length).map Prod.snd := by
      rw [hlv, ← List.map_append, List.take_append_drop]
    have htk : ((loc1.take ss.decls.length).map Prod.snd).length = ss.decls.length := by simp; omega
    have e : mach fr sh1 cls1 p1 [] loc1 = ⟨⟨p1, (loc1.take ss.decls.length).map Prod.snd ++ ((loc1.leave loc.length).map Prod.snd ++ (fr.mid ++ sh1.statics.map Prod.snd)),
        fr.fp, fr.loops, sh1.globals, sh1.world, sh1.out⟩, fr.nextFp, fr.frames, cls1⟩ := by
      unfold mach
      rw [hst]; simp
    rw [e]
    refine FSim.pops _ p1 (by rw [htk]; exact h2) ?_
    rw [htk]
    refine FSim.done ⟨cls1, k1, inv1, ?_, rfl, ?_⟩
    · rw [hlv]; exact fun q hq => hl q (List.mem_of_mem_drop hq)
    · rw [hlv, List.map_drop, hn]; simp [FStmt.decls]
  | .ifThen c t, m, S, L, fr, loc, sh, cls, p, q, hc, hret, ok, inv => by
    rw [CodeS] at hc; obtain ⟨hd, hc⟩ := hc
    rw [fexec]
    rcases hc with ⟨hc, h1⟩ | ⟨hc, rfl⟩ | ⟨p1, h1, h2, h3⟩
    · obtain ⟨v, h2, h3⟩ := truthy_feval (F := F) (P := P) (Q := Q) (label := X.label) (call := call) (vis := S.sts.length) (loc := loc) (sh := sh) m hc
      rw [h2]
      show FSim F P Q X.code X.K n _ (if v.falsey = true then _ else _) _
      rw [if_neg (by simp [h3])]
      have := simS H hcall t m S L fr loc sh cls p q h1 hret ok inv
      rwa [hd] at this
    · obtain ⟨v, h2, h3⟩ := falsey_feval (F := F) (P := P) (Q := Q) (label := X.label) (call := call) (vis := S.sts.length) (loc := loc) (sh := sh) m hc
      rw [h2]
      show FSim F P Q X.code X.K n _ (if v.falsey = true then _ else _) _
      rw [if_pos h3]
      exact FSim.done ⟨cls, .refl _ _, inv, ok.lEnd, rfl, rfl⟩
    · refine seqE (simE H hcall c m S fr loc sh cls p p1 [] h1 ok inv) ok fun sh1 v cls1 k1 ok1 inv1 hv => STgt.from k1 ?_
      refine FSim.cond .f H.hX h2 ?_ ?_
      · intro hf
        rw [if_pos hf]
        exact FSim.done ⟨cls1, .refl _ _, inv1, ok1.lEnd, rfl, rfl⟩
      · intro hf
        rw [if_neg (by simp [hf])]
        have := simS H hcall t m S L fr loc sh1 cls1 (p1 + 9) q h3 hret ok1 inv1
        rwa [hd] at this
  | .ifElse c t e, m, S, L, fr, loc, sh, cls, p, q, hc, hret, ok, inv => by
    rw [CodeS] at hc; obtain ⟨⟨hd, hd2⟩, hc⟩ := hc
    rw [fexec]
    rcases hc with ⟨hc, h1⟩ | ⟨hc, h1⟩ | ⟨p1, p2, h1, h2, h3, h4, h5⟩
    · obtain ⟨v, h2, h3⟩ := truthy_feval (F := F) (P := P) (Q := Q) (label := X.label) (call := call) (vis := S.sts.length) (loc := loc) (sh := sh) m hc
      rw [h2]
      show FSim F P Q X.code X.K n _ (if v.falsey = true then _ else _) _
      rw [if_neg (by simp [h3])]
      have := simS H hcall t m S L fr loc sh cls p q h1 hret ok inv
      rwa [hd] at this
    · obtain ⟨v, h2, h3⟩ := falsey_feval (F := F) (P := P) (Q := Q) (label := X.label) (call := call) (vis := S.sts.length) (loc := loc) (sh := sh) m hc
      rw [h2]
      show FSim F P Q X.code X.K n _ (if v.falsey = true then _ else _) _
      rw [if_pos h3]
      have := simS H hcall e m S L fr loc sh cls p q h1 hret ok inv
      rwa [hd2] at this
    · refine seqE (simE H hcall c m S fr loc sh cls p p1 [] h1 ok inv) ok fun sh1 v cls1 k1 ok1 inv1 hv => STgt.from k1 ?_
      refine FSim.cond .f H.hX h2 ?_ ?_
      · intro hf
        rw [if_pos hf]
        have := simS H hcall e m S L fr loc sh1 cls1 (p2 + 9) q h5 hret ok1 inv1
        rwa [hd2] at this
      · intro hf
        rw [if_neg (by simp [hf])]
        have := simS H hcall t m S L fr loc sh1 cls1 (p1 + 9) p2 h3 hret ok1 inv1
        rw [hd] at this
        have h6 := seqS (k := fun s l => (s, .ok (l, .normal))) (q' := q) (names' := loc.map Prod.fst) this fun sh2 loc2 cls2 k2 inv2 hl2 hn2 =>
          FSim.br H.hX h4 (FSim.done ⟨cls2, k2, inv2, hl2, rfl, hn2⟩)
        have e : ∀ r : FSRes W, (r.andThen fun s l => (s, .ok (l, .normal))) = r := by
          rintro ⟨s, e | ⟨l, sg⟩⟩
          · rfl
          · cases sg <;> rfl
        rwa [e] at h6
  | .while_ c body, m, S, L, fr, loc, sh, cls, p, q, hc, hret, ok, inv => by
    rw [CodeS] at hc; obtain ⟨hd, hc⟩ := hc
    rw [fexec]
    rcases hc with ⟨hc, rfl⟩ | ⟨p1, p2, h1, h2, h3, h4, rfl⟩
    · cases n with
      | zero => exact .inr ⟨0, _, Nat.le_refl _, rfl, rfl, rfl, rfl⟩
      | succ n =>
        obtain ⟨v, h2, h3⟩ := falsey_feval (F := F) (P := P) (Q := Q) (label := X.label) (call := call) (vis := S.sts.length) (loc := loc) (sh := sh) m hc
        rw [floop, h2]
        show FSim F P Q X.code X.K _ _ (if v.falsey = true then _ else _) _
        rw [if_pos h3]
        exact FSim.done ⟨cls, .refl _ _, inv, ok.lEnd, rfl, rfl⟩
    · refine sim_while H (fun loc sh cls ok inv => simE H hcall c m S fr loc sh cls p p1 [] h1 ok inv) (fun loc sh cls ok inv => ?_) h2 h4 n loc sh cls (Nat.le_refl _) ok inv
      have := simS H hcall body m S (some ⟨p1, p, S.own⟩) fr loc sh cls (p1 + 9) p2 h3 hret ok inv
      rwa [hd] at this
  | .loop c body post, m, S, L, fr, loc, sh, cls, p, q, hc, hret, ok, inv => by
    rw [CodeS] at hc; obtain ⟨⟨hd, hdp⟩, hc⟩ := hc
    rw [fexec]
    rcases hc with ⟨hc, rfl⟩ | ⟨pc, p1, p2, h0, h0', h1, h2, h3, h4, rfl⟩
    · cases n with
      | zero => exact .inr ⟨0, _, Nat.le_refl _, rfl, rfl, rfl, rfl⟩
      | succ n =>
        obtain ⟨v, h2, h3⟩ := falsey_feval (F := F) (P := P) (Q := Q) (label := X.label) (call := call) (vis := S.sts.length) (loc := loc) (sh := sh) m hc
        rw [floopP, h2]
        show FSim F P Q X.code X.K _ _ (if v.falsey = true then _ else _) _
        rw [if_pos h3]
        exact FSim.done ⟨cls, .refl _ _, inv, ok.lEnd, rfl, rfl⟩
    · refine FSim.br H.hX h0 (sim_post H (p0 := p + 9) (fun loc sh cls ok inv => simE H hcall c m S fr loc sh cls pc p1 [] h1 ok inv) (fun loc sh cls ok inv => ?_)
        (fun loc sh cls ok inv => ?_) h2 h4 n loc sh cls (Nat.le_refl _) ok inv)
      · have := simS H hcall body m S (some ⟨p1, p + 9, S.own⟩) fr loc sh cls (p1 + 9) p2 h3 hret ok inv
        rwa [hd] at this
      · have := simS H hcall post m S none fr loc sh cls (p + 9) pc h0' hret ok inv
        rwa [hdp] at this
  | .forIter x coll body, m, S, L, fr, loc, sh, cls, p, q, hc, hret, ok, inv => by
    rw [CodeS] at hc; obtain ⟨hd, h128, p1, p2, h1, h2, h3, h4, h5, h6, h7, h8, h9, h10, rfl⟩ := hc
    rw [fexec]
    refine seqE (simE H hcall coll m S fr loc sh cls p p1 [] h1 ok inv) ok fun sh1 c cls1 k1 ok1 inv1 hv => STgt.from k1 ?_
    by_cases hfull : fr.loops.length < numLoopFrames
    · refine FSim.step (fstep_of h2 (step_initfor h2 hfull)) ?_
      refine FSim.push (fstep_of h3 (stepv_push .END .end_ (by simp) h3)) ?_
      refine sim_iter H (p := p1 + 2) h128 hret h4 h5 h6 (fun fr' loc sh cls hret' ok inv => ?_) h8 h9 h10 n 0 .end_ loc sh1 cls1 (Nat.le_refl _) ok1 inv1
      have := simS H hcall body m ⟨x :: S.own, S.sts, S.ups⟩ (some ⟨p1 + 3, p1 + 2, x :: S.own⟩) fr' loc sh cls (p1 + 14) p2 h7 hret' ok inv
      rw [hd] at this
      exact this
    · exact FSim.limit (fstep_of h2 (stepv_initfor_full h2 hfull)) (.inr ⟨rfl, by simpa using hfull⟩)
  | .brk, m, S, L, fr, loc, sh, cls, p, q, hc, hret, ok, inv => by
    rw [CodeS] at hc; obtain ⟨l, rfl, h1, h2, h3, rfl⟩ := hc
    rw [fexec]
    refine FSim.push (fstep_of h2 (stepv_push .BCONST_F (.bool false) (by simp) h2)) ?_
    exact FSim.br H.hX h3 (FSim.done ⟨cls, .refl _ _, inv, ok.lEnd, l, rfl, rfl, by rw [← h1, ok.own]⟩)
  | .cont, m, S, L, fr, loc, sh, cls, p, q, hc, hret, ok, inv => by
    rw [CodeS] at hc; obtain ⟨l, rfl, h1, h2, rfl⟩ := hc
    rw [fexec]
    exact FSim.br H.hX h2 (FSim.done ⟨cls, .refl _ _, inv, ok.lEnd, l, rfl, rfl, by rw [← h1, ok.own]⟩)
  | .ret e, m, S, L, fr, loc, sh, cls, p, q, hc, hret, ok, inv => by
    rw [CodeS] at hc; obtain ⟨p1, hu, h1, h2, rfl⟩ := hc
    rw [fexec]
    refine seqE (simE H hcall e m S fr loc sh cls p p1 [] h1 ok inv) ok fun sh1 v cls1 k1 ok1 inv1 hv => STgt.from k1 ?_
    exact sim_ret h2 hu hret ok1 _ fun m' hm' => FSim.done ⟨cls1, .refl _ _, inv1, ok1.lEnd, hv, hm'⟩
  | .fnDecl x id ps body, m, S, L, fr, loc, sh, cls, p, q, hc, hret, ok, inv => by
    rw [CodeS] at hc
    rw [fexec]
    refine seqE (sim_fn hc.2 ok inv []) ok fun sh1 v cls1 k1 ok1 inv1 hv => STgt.from k1 ?_
    refine FSim.done ⟨cls1, .refl _ _, inv1, ?_, rfl, rfl⟩
    intro y hy
    rcases List.mem_cons.1 hy with rfl | hy
    · exact hv
    · exact ok1.lEnd y hy
theorem simSs (H : SimHyp P Q X) {call : Clo → List Val → Sh W → FRes W Val} (hcall : CallSem F P Q X call n) :
    ∀ (ss : FStmts) (m : Bool) (S : SEnv) (L : Option FLoopAt) (fr : FFrame) (loc : LEnv) (sh : Sh W) (cls : List (Nat × List Nat)) (p q : Nat),
      CodeSs X S ss m L p q → RetPlace S fr → FOk S fr loc (sh.statics.map Prod.fst) cls → FInv X sh cls →
      FSim F P Q X.code X.K n (mach fr sh cls p [] loc) (fexecAll F P Q X.label call n S.sts.length m ss loc sh)
        (STgt X S.base L fr sh cls q (ss.decls ++ loc.map Prod.fst))
  | .nil, m, S, L, fr, loc, sh, cls, p, q, hc, hret, ok, inv => by
    rw [CodeSs] at hc; subst hc
    rw [fexecAll]
    exact FSim.done ⟨cls, .refl _ _, inv, ok.lEnd, rfl, rfl⟩
  | .cons st ss, m, S, L, fr, loc, sh, cls, p, q, hc, hret, ok, inv => by
    rw [CodeSs] at hc; obtain ⟨p1, h1, h2⟩ := hc
    rw [fexecAll]
    refine seqS (simS H hcall st m S L fr loc sh cls p p1 h1 hret ok inv) fun sh1 loc1 cls1 k1 inv1 hl hn => STgt.from k1 ?_
    have ok1 : FOk ⟨st.decls ++ S.own, S.sts, S.ups⟩ fr loc1 (sh1.statics.map Prod.fst) cls1 := by
      rw [k1.names]
      exact (ok.keep k1.cls).enter hl hn (CodeS.small h1 ok.small)
    have := simSs H hcall ss m ⟨st.decls ++ S.own, S.sts, S.ups⟩ L fr loc1 sh1 cls1 p1 q h2 hret ok1 inv1
    rw [hn] at this
    rw [show (FStmts.cons st ss).decls ++ loc.map Prod.fst = ss.decls ++ (st.decls ++ loc.map Prod.fst) by simp [FStmts.decls]]
    exact this
end
end
end Yasl
