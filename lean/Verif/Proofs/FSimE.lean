import Verif.Proofs.FSimFn
set_option autoImplicit false
/-! # Expressions with functions -/
namespace Yasl

section
variable {W : Type} {F : FloatOps} {P : Prims W} {Q : W → Val → List Val → PRes W (List Val)} {X : FX} {S : SEnv} {fr : FFrame} {loc : LEnv}
  {sh : Sh W} {cls : List (Nat × List Nat)} {n : Nat} {α : Type} {T : Sh W → α → FVM W → Prop}

theorem seqE {m : FVM W} {r : FRes W Val} {q : Nat} {temps : List Val} {f : Sh W → Val → FRes W α}
    (h : FSim F P Q X.code X.K n m r (ETgt X fr sh cls q temps loc)) (ok : FOk S fr loc (sh.statics.map Prod.fst) cls)
    (h' : ∀ sh1 v cls1, FKeeps sh sh1 cls cls1 → FOk S fr loc (sh1.statics.map Prod.fst) cls1 → FInv X sh1 cls1 → v ≠ .end_ →
      FSim F P Q X.code X.K n (mach fr sh1 cls1 q (v :: temps) loc) (f sh1 v) T) : FSim F P Q X.code X.K n m (r.bind f) T := by
  refine h.bind ?_
  rintro sh1 v m1 _ ⟨cls1, rfl, k1, inv1, hv⟩
  exact h' sh1 v cls1 k1 (by rw [k1.names]; exact ok.keep k1.cls) inv1 hv

theorem seqEs {m : FVM W} {r : FRes W (List Val)} {q : Nat} {temps : List Val} {f : Sh W → List Val → FRes W α}
    (h : FSim F P Q X.code X.K n m r (EsTgt X fr sh cls q temps loc)) (ok : FOk S fr loc (sh.statics.map Prod.fst) cls)
    (h' : ∀ sh1 vs cls1, FKeeps sh sh1 cls cls1 → FOk S fr loc (sh1.statics.map Prod.fst) cls1 → FInv X sh1 cls1 → (∀ v ∈ vs, v ≠ .end_) →
      FSim F P Q X.code X.K n (mach fr sh1 cls1 q (vs.reverse ++ temps) loc) (f sh1 vs) T) : FSim F P Q X.code X.K n m (r.bind f) T := by
  refine h.bind ?_
  rintro sh1 v m1 _ ⟨cls1, rfl, k1, inv1, hv⟩
  exact h' sh1 v cls1 k1 (by rw [k1.names]; exact ok.keep k1.cls) inv1 hv

theorem ETgt.from {sh1 : Sh W} {cls1 : List (Nat × List Nat)} {m : FVM W} {r : FRes W Val} {q : Nat} {temps : List Val} (k : FKeeps sh sh1 cls cls1)
    (h : FSim F P Q X.code X.K n m r (ETgt X fr sh1 cls1 q temps loc)) : FSim F P Q X.code X.K n m r (ETgt X fr sh cls q temps loc) :=
  h.mono fun _ _ _ _ ⟨cls2, h1, h2, h3, h4⟩ => ⟨cls2, h1, k.trans h2, h3, h4⟩

theorem EsTgt.from {sh1 : Sh W} {cls1 : List (Nat × List Nat)} {m : FVM W} {r : FRes W (List Val)} {q : Nat} {temps : List Val} (k : FKeeps sh sh1 cls cls1)
    (h : FSim F P Q X.code X.K n m r (EsTgt X fr sh1 cls1 q temps loc)) : FSim F P Q X.code X.K n m r (EsTgt X fr sh cls q temps loc) :=
  h.mono fun _ _ _ _ ⟨cls2, h1, h2, h3, h4⟩ => ⟨cls2, h1, k.trans h2, h3, h4⟩

theorem sim_res {p p1 : Nat} {temps temps' : List Val} {r : PRes W Val} (inv : FInv X sh cls)
    (hs : FVM.step F P Q X.code X.K (mach fr sh cls p temps' loc) = (mach fr sh cls p temps' loc).lift ((mach fr sh cls p1 temps loc).vm.pushRes r))
    (hr : ∀ w v, r = (w, .ok v) → v ≠ .end_) : FSim F P Q X.code X.K n (mach fr sh cls p temps' loc) (sh.prim r) (ETgt X fr sh cls p1 temps loc) := by
  refine FSim.pushRes hs rfl rfl ?_
  intro w v hv
  exact ⟨cls, rfl, ⟨rfl, List.prefix_refl _⟩, inv.world w, hr w v hv⟩

theorem At.lt_length {code : List Byte} {p : Nat} {b : Byte} {c : List Byte} (h : At code p (b :: c)) : p < code.length := by
  have := h.head
  by_contra hc
  rw [List.getElem?_eq_none (by omega)] at this
  simp at this

theorem FSim.br {r : FRes W α} {p q : Nat} {st : List Val} {fp : Int} {loops : List (Nat × Val)} {g : Name → Option Val} {w : W} {out : List Byte}
    {nfp : Int} {frs : List CFrame} (hX : X.code.length < 2 ^ 63) (h : JumpAt X .BR_8 p q)
    (hs : FSim F P Q X.code X.K n ⟨⟨q, st, fp, loops, g, w, out⟩, nfp, frs, cls⟩ r T) :
    FSim F P Q X.code X.K n ⟨⟨p, st, fp, loops, g, w, out⟩, nfp, frs, cls⟩ r T := by
  obtain ⟨h1, h2, h3⟩ := h
  have h4 := h1.length_le h3
  simp at h4
  refine FSim.step ?_ hs
  rw [fstep_of h1 (step_br h1), jumpBy_to (q := q) (by simp only; omega) (by omega) (by omega)]
  rfl

theorem FSim.cond {r : FRes W α} {o : Opc} {test : Val → Bool} (ho : BrTest o test) {a : Val} {p q : Nat} {st : List Val} {fp : Int} {loops : List (Nat × Val)}
    {g : Name → Option Val} {w : W} {out : List Byte} {nfp : Int} {frs : List CFrame} (hX : X.code.length < 2 ^ 63) (h : JumpAt X o p q)
    (ht : test a = true → FSim F P Q X.code X.K n ⟨⟨q, st, fp, loops, g, w, out⟩, nfp, frs, cls⟩ r T)
    (hf : test a = false → FSim F P Q X.code X.K n ⟨⟨p + 9, st, fp, loops, g, w, out⟩, nfp, frs, cls⟩ r T) :
    FSim F P Q X.code X.K n ⟨⟨p, a :: st, fp, loops, g, w, out⟩, nfp, frs, cls⟩ r T := by
  obtain ⟨h1, h2, h3⟩ := h
  have h4 := h1.length_le h3
  simp at h4
  cases hta : test a with
  | true =>
    refine FSim.step ?_ (ht hta)
    rw [fstep_of h1 (step_cond ho a h1), if_pos hta, jumpBy_to (q := q) (by simp only; omega) (by omega) (by omega)]
    rfl
  | false =>
    refine FSim.step ?_ (hf hta)
    rw [fstep_of h1 (step_cond ho a h1), if_neg (by simp [hta])]
    rfl

theorem FSim.pop {r : FRes W α} {a : Val} {p : Nat} {st : List Val} {fp : Int} {loops : List (Nat × Val)} {g : Name → Option Val} {w : W} {out : List Byte}
    {nfp : Int} {frs : List CFrame} {c : List Byte} (h : At X.code p (Opc.POP.byte :: c))
    (hs : FSim F P Q X.code X.K n ⟨⟨p + 1, st, fp, loops, g, w, out⟩, nfp, frs, cls⟩ r T) :
    FSim F P Q X.code X.K n ⟨⟨p, a :: st, fp, loops, g, w, out⟩, nfp, frs, cls⟩ r T :=
  FSim.step (by rw [fstep_of h (step_pop a h)]; rfl) hs

theorem wants_toInt (m : Bool) : (BitVec.ofInt 8 (wants m)).toInt = wants m := by cases m <;> decide

theorem sim_const {v : Val} {p q : Nat} (h : ConstAt X v p q) (inv : FInv X sh cls) (hv : v ≠ .end_) (temps : List Val) :
    FSim F P Q X.code X.K n (mach fr sh cls p temps loc) (sh, .ok v) (ETgt X fr sh cls q temps loc) := by
  rcases h with ⟨i, h1, h2, h3, rfl⟩ | ⟨i, h1, h2, h3, rfl⟩
  · exact FSim.push (fstep_of h3 (stepv_lit h1 h3 h2)) (FSim.done ⟨cls, rfl, .refl _ _, inv, hv⟩)
  · exact FSim.push (fstep_of h3 (stepv_lit8 h1 h3 h2)) (FSim.done ⟨cls, rfl, .refl _ _, inv, hv⟩)

theorem sim_lit {l : FLit} {p q : Nat} (h : LitAt X l p q) (inv : FInv X sh cls) (temps : List Val) :
    FSim F P Q X.code X.K n (mach fr sh cls p temps loc) (sh, .ok l.val) (ETgt X fr sh cls q temps loc) := by
  cases l with
  | undef =>
    obtain ⟨h, rfl⟩ := h
    exact FSim.push (fstep_of h (stepv_push .NCONST .undef (by simp) h)) (FSim.done ⟨cls, rfl, .refl _ _, inv, by simp [FLit.val]⟩)
  | bool b =>
    obtain ⟨h, rfl⟩ := h
    cases b
    · exact FSim.push (fstep_of h (stepv_push .BCONST_F (.bool false) (by simp) h)) (FSim.done ⟨cls, rfl, .refl _ _, inv, by simp [FLit.val]⟩)
    · exact FSim.push (fstep_of h (stepv_push .BCONST_T (.bool true) (by simp) h)) (FSim.done ⟨cls, rfl, .refl _ _, inv, by simp [FLit.val]⟩)
  | int i => exact sim_const h inv (by simp [FLit.val]) temps
  | float i => exact sim_const h inv (by simp [FLit.val]) temps
  | str i => exact sim_const h inv (by simp [FLit.val]) temps

/-- What is supposed about the rest of the system. -/
structure SimHyp (P : Prims W) (Q : W → Val → List Val → PRes W (List Val)) (X : FX) : Prop where
  hP : P.NoEnd
  hQ : ∀ w v args w' rs, Q w v args = (w', .ok rs) → ∀ u ∈ rs, u ≠ Val.end_
  hX : X.code.length < 2 ^ 63

theorem sim_short {o : Opc} {test : Val → Bool} (ho : BrTest o test) {p1 q : Nat} {a : Val} {temps : List Val} {r : FRes W Val} (H : SimHyp P Q X)
    (h1 : At X.code p1 [Opc.DUP.byte]) (h2 : JumpAt X o (p1 + 1) q) (h3 : At X.code (p1 + 10) [Opc.POP.byte]) (inv : FInv X sh cls) (ha : a ≠ .end_)
    (hr : FSim F P Q X.code X.K n (mach fr sh cls (p1 + 11) temps loc) r (ETgt X fr sh cls q temps loc)) :
    FSim F P Q X.code X.K n (mach fr sh cls p1 (a :: temps) loc) (if test a then (sh, .ok a) else r) (ETgt X fr sh cls q temps loc) := by
  refine FSim.push (fstep_of h1 (stepv_dup a h1)) ?_
  refine FSim.cond ho H.hX h2 ?_ ?_
  · intro ht
    rw [if_pos ht]
    exact FSim.done ⟨cls, rfl, .refl _ _, inv, ha⟩
  · intro ht
    rw [if_neg (by simp [ht])]
    exact FSim.pop h3 hr

theorem FRes.bind_eta {β : Type} (r : FRes W α) (k : Sh W → α → FRes W β) : (match r with
  | (s, .ok a) => k s a
  | (s, .error e) => (s, .error e)) = r.bind k := rfl

theorem checkFn_eq {β : Type} (f : Val) (s : Sh W) (k : Sh W → FRes W β) (h : f.isFn) : checkFn f s k = k s := if_pos h

theorem FSim.of_eq {m m' : FVM W} {r : FRes W α} (h : m = m') (h' : FSim F P Q X.code X.K n m' r T) : FSim F P Q X.code X.K n m r T := h ▸ h'

/-- The arguments of a call, then the call. -/
theorem sim_args (H : SimHyp P Q X) {call : Clo → List Val → Sh W → FRes W Val} (hcall : CallSem F P Q X call n) {ret p q : Nat} {m : Bool} {f : Val}
    {temps : List Val} {r : FRes W (List Val)} {pre : List Val} {g : List Val → List Val} (ok : FOk S fr loc (sh.statics.map Prod.fst) cls)
    (hr : ∀ fr', FOk S fr' loc (sh.statics.map Prod.fst) cls → FSim F P Q X.code X.K n (mach fr' sh cls p (pre ++ f :: temps) loc) r
      (EsTgt X fr' sh cls q (pre ++ f :: temps) loc)) (h4 : At X.code q [opCALL])
    (hpre : (pre = [] ∧ g = id) ∨ ∃ v, pre = [v] ∧ g = List.cons v ∧ v ≠ .end_) (hfn : f.isFn) :
    FSim F P Q X.code X.K n
      ⟨⟨p, (pre ++ f :: temps) ++ (loc.map Prod.snd ++ (fr.mid ++ sh.statics.map Prod.snd)), fr.fp, fr.loops, sh.globals, sh.world, sh.out⟩,
        ((temps ++ (loc.map Prod.snd ++ (fr.mid ++ sh.statics.map Prod.snd))).length : Nat),
        ⟨ret, fr.fp, fr.nextFp, (fr.loops.length : Int) - 1, wants m⟩ :: fr.frames, cls⟩
      (r.bind fun s vs => apply Q call m f (g vs) s) (ETgt X fr sh cls (q + 1) temps loc) := by
  have ok' : FOk S ⟨fr.fp, fr.loops, fr.mid, ((temps ++ (loc.map Prod.snd ++ (fr.mid ++ sh.statics.map Prod.snd))).length : Nat),
    ⟨ret, fr.fp, fr.nextFp, (fr.loops.length : Int) - 1, wants m⟩ :: fr.frames⟩ loc (sh.statics.map Prod.fst) cls :=
    ⟨ok.own, ok.small, ok.lEnd, ok.place⟩
  refine seqEs (hr _ ok') ok' fun sh2 vs cls2 k2 ok2 inv2 hvs => ETgt.from k2 ?_
  have hlen : sh2.statics.length = sh.statics.length := by
    have := congrArg List.length k2.names
    simpa using this
  have := sim_apply (fr := fr) (loc := loc) (temps := temps) (ret := ret) (m := m) (args := g vs) H.hQ hcall h4 inv2 (by
    rcases hpre with ⟨_, rfl⟩ | ⟨v, _, rfl, hv⟩
    · exact hvs
    · intro u hu
      rcases List.mem_cons.1 hu with rfl | hu
      · exact hv
      · exact hvs u hu) hfn
  refine FSim.of_eq ?_ this
  have e1 : (vs.reverse ++ (pre ++ f :: temps)) ++ (loc.map Prod.snd ++ (fr.mid ++ sh2.statics.map Prod.snd)) =
      (g vs).reverse ++ f :: (temps ++ (loc.map Prod.snd ++ (fr.mid ++ sh2.statics.map Prod.snd))) := by
    rcases hpre with ⟨rfl, rfl⟩ | ⟨v, rfl, rfl, hv⟩ <;> simp
  have e2 : (temps ++ (loc.map Prod.snd ++ (fr.mid ++ sh.statics.map Prod.snd))).length =
      (temps ++ (loc.map Prod.snd ++ (fr.mid ++ sh2.statics.map Prod.snd))).length := by simp [hlen]
  show (⟨⟨q, (vs.reverse ++ (pre ++ f :: temps)) ++ _, _, _, _, _, _⟩, _, _, _⟩ : FVM W) = _
  rw [e1, e2]

mutual
theorem simE (H : SimHyp P Q X) {call : Clo → List Val → Sh W → FRes W Val} (hcall : CallSem F P Q X call n) :
    ∀ (e : FExpr) (m : Bool) (S : SEnv) (fr : FFrame) (loc : LEnv) (sh : Sh W) (cls : List (Nat × List Nat)) (p q : Nat) (temps : List Val),
      CodeE X S e m p q → FOk S fr loc (sh.statics.map Prod.fst) cls → FInv X sh cls →
      FSim F P Q X.code X.K n (mach fr sh cls p temps loc) (feval F P Q X.label call S.sts.length loc e m sh) (ETgt X fr sh cls q temps loc)
  | .lit l, m, S, fr, loc, sh, cls, p, q, temps, hc, ok, inv => by
    rw [feval]; exact sim_lit (by simpa only [CodeE] using hc) inv temps
  | .var x, m, S, fr, loc, sh, cls, p, q, temps, hc, ok, inv => by
    rw [CodeE] at hc
    obtain ⟨v, h1, h2, h3⟩ := sim_load (F := F) (P := P) (Q := Q) (n := n) hc ok inv temps
    rw [feval, h1]
    exact h3 _ _ (FSim.done ⟨cls, rfl, .refl _ _, inv, h2⟩)
  | .un o e, m, S, fr, loc, sh, cls, p, q, temps, hc, ok, inv => by
    rw [CodeE] at hc; obtain ⟨p1, h1, h2, rfl⟩ := hc
    rw [feval]
    refine seqE (simE H hcall e m S fr loc sh cls p p1 temps h1 ok inv) ok fun sh1 v cls1 k1 ok1 inv1 hv => ETgt.from k1 ?_
    exact sim_res inv1 (fstep_of h2 (step_un o v h2)) fun w u hu => applyUn_noEnd H.hP hu
  | .bin (.op o) l r, m, S, fr, loc, sh, cls, p, q, temps, hc, ok, inv => by
    rw [CodeE] at hc; obtain ⟨p1, p2, h1, h2, h3, rfl⟩ := hc
    rw [feval]
    refine seqE (simE H hcall l m S fr loc sh cls p p1 temps h1 ok inv) ok fun sh1 a cls1 k1 ok1 inv1 ha => ETgt.from k1 ?_
    refine seqE (simE H hcall r m S fr loc sh1 cls1 p1 p2 (a :: temps) h2 ok1 inv1) ok1 fun sh2 b cls2 k2 ok2 inv2 hb => ETgt.from k2 ?_
    exact sim_res inv2 (fstep_of h3 (step_bin o a b h3)) fun w u hu => applyBin_noEnd H.hP hu
  | .bin .ne l r, m, S, fr, loc, sh, cls, p, q, temps, hc, ok, inv => by
    rw [CodeE] at hc; obtain ⟨p1, p2, h1, h2, h3, h4, rfl⟩ := hc
    rw [feval]
    have h5 : FSim F P Q X.code X.K n (mach fr sh cls p temps loc)
        ((feval F P Q X.label call S.sts.length loc l m sh).bind fun s a => (feval F P Q X.label call S.sts.length loc r m s).bind fun s b =>
          s.prim (applyBin F P s.world .eq a b)) (ETgt X fr sh cls (p2 + 1) temps loc) := by
      refine seqE (simE H hcall l m S fr loc sh cls p p1 temps h1 ok inv) ok fun sh1 a cls1 k1 ok1 inv1 ha => ETgt.from k1 ?_
      refine seqE (simE H hcall r m S fr loc sh1 cls1 p1 p2 (a :: temps) h2 ok1 inv1) ok1 fun sh2 b cls2 k2 ok2 inv2 hb => ETgt.from k2 ?_
      exact sim_res inv2 (fstep_of (o := .EQ) h3 (step_bin .eq a b h3)) fun w u hu => applyBin_noEnd H.hP hu
    refine seqE h5 ok fun sh1 v cls1 k1 ok1 inv1 hv => ETgt.from k1 ?_
    exact FSim.push (fstep_of (o := .NOT) h4 (step_un .not v h4)) (FSim.done ⟨cls1, rfl, .refl _ _, inv1, by simp⟩)
  | .bin .nid l r, m, S, fr, loc, sh, cls, p, q, temps, hc, ok, inv => by
    rw [CodeE] at hc; obtain ⟨p1, p2, h1, h2, h3, h4, rfl⟩ := hc
    rw [feval]
    have h5 : FSim F P Q X.code X.K n (mach fr sh cls p temps loc)
        ((feval F P Q X.label call S.sts.length loc l m sh).bind fun s a => (feval F P Q X.label call S.sts.length loc r m s).bind fun s b =>
          s.prim (applyBin F P s.world .id a b)) (ETgt X fr sh cls (p2 + 1) temps loc) := by
      refine seqE (simE H hcall l m S fr loc sh cls p p1 temps h1 ok inv) ok fun sh1 a cls1 k1 ok1 inv1 ha => ETgt.from k1 ?_
      refine seqE (simE H hcall r m S fr loc sh1 cls1 p1 p2 (a :: temps) h2 ok1 inv1) ok1 fun sh2 b cls2 k2 ok2 inv2 hb => ETgt.from k2 ?_
      exact sim_res inv2 (fstep_of (o := .ID) h3 (step_bin .id a b h3)) fun w u hu => applyBin_noEnd H.hP hu
    refine seqE h5 ok fun sh1 v cls1 k1 ok1 inv1 hv => ETgt.from k1 ?_
    exact FSim.push (fstep_of (o := .NOT) h4 (step_un .not v h4)) (FSim.done ⟨cls1, rfl, .refl _ _, inv1, by simp⟩)
  | .bin .and l r, m, S, fr, loc, sh, cls, p, q, temps, hc, ok, inv => by
    rw [CodeE] at hc; obtain ⟨p1, h1, h2, h3, h4, h5⟩ := hc
    rw [feval]
    refine seqE (simE H hcall l m S fr loc sh cls p p1 temps h1 ok inv) ok fun sh1 a cls1 k1 ok1 inv1 ha => ETgt.from k1 ?_
    exact sim_short .f H h2 h3 h4 inv1 ha (simE H hcall r m S fr loc sh1 cls1 _ q temps h5 ok1 inv1)
  | .bin .or l r, m, S, fr, loc, sh, cls, p, q, temps, hc, ok, inv => by
    rw [CodeE] at hc; obtain ⟨p1, h1, h2, h3, h4, h5⟩ := hc
    rw [feval]
    refine seqE (simE H hcall l m S fr loc sh cls p p1 temps h1 ok inv) ok fun sh1 a cls1 k1 ok1 inv1 ha => ETgt.from k1 ?_
    have := sim_short .t H h2 h3 h4 inv1 ha (simE H hcall r m S fr loc sh1 cls1 _ q temps h5 ok1 inv1)
    cases hf : a.falsey <;> simpa [hf] using this
  | .bin .coalesce l r, m, S, fr, loc, sh, cls, p, q, temps, hc, ok, inv => by
    rw [CodeE] at hc; obtain ⟨p1, h1, h2, h3, h4, h5⟩ := hc
    rw [feval]
    refine seqE (simE H hcall l m S fr loc sh cls p p1 temps h1 ok inv) ok fun sh1 a cls1 k1 ok1 inv1 ha => ETgt.from k1 ?_
    have := sim_short .n H h2 h3 h4 inv1 ha (simE H hcall r m S fr loc sh1 cls1 _ q temps h5 ok1 inv1)
    by_cases hf : a = .undef <;> simpa [hf] using this
  | .tri c a b, m, S, fr, loc, sh, cls, p, q, temps, hc, ok, inv => by
    rw [CodeE] at hc; obtain ⟨p1, p2, h1, h2, h3, h4, h5⟩ := hc
    rw [feval]
    refine seqE (simE H hcall c m S fr loc sh cls p p1 temps h1 ok inv) ok fun sh1 v cls1 k1 ok1 inv1 hv => ETgt.from k1 ?_
    refine FSim.cond .f H.hX h2 ?_ ?_
    · intro ht
      rw [if_pos ht]
      exact simE H hcall b m S fr loc sh1 cls1 _ q temps h5 ok1 inv1
    · intro ht
      rw [if_neg (by simp [ht])]
      have h : FSim F P Q X.code X.K n (mach fr sh1 cls1 (p1 + 9) temps loc)
          ((feval F P Q X.label call S.sts.length loc a m sh1).bind fun s v => (s, .ok v)) (ETgt X fr sh1 cls1 q temps loc) :=
        seqE (simE H hcall a m S fr loc sh1 cls1 _ p2 temps h3 ok1 inv1) ok1 fun sh2 u cls2 k2 ok2 inv2 hu =>
          FSim.br H.hX h4 (FSim.done ⟨cls2, rfl, k2, inv2, hu⟩)
      have e : ∀ r : FRes W Val, (r.bind fun s v => (s, .ok v)) = r := by
        rintro ⟨s, e | v⟩ <;> rfl
      rwa [e] at h
  | .list es, m, S, fr, loc, sh, cls, p, q, temps, hc, ok, inv => by
    rw [CodeE] at hc; obtain ⟨p1, h1, h2, h3, rfl⟩ := hc
    rw [feval]
    refine FSim.push (fstep_of h1 (stepv_push .END .end_ (by simp) h1)) ?_
    refine seqEs (simEs H hcall es m S fr loc sh cls (p + 1) p1 (.end_ :: temps) h2 ok inv) ok fun sh1 vs cls1 k1 ok1 inv1 hvs => ETgt.from k1 ?_
    refine sim_res inv1 (fstep_of h3 ?_) fun w u hu => H.hP.newList _ _ _ _ hu
    have := step_newlist (F := F) (P := P) (K := X.K) (st := temps ++ (loc.map Prod.snd ++ (fr.mid ++ sh1.statics.map Prod.snd)))
      (fp := fr.fp) (loops := fr.loops) (g := sh1.globals) (w := sh1.world) (out := sh1.out) (vs := vs.reverse) h3 (by simpa using hvs)
    rw [List.reverse_reverse] at this
    rw [show (vs.reverse ++ Val.end_ :: temps) ++ (loc.map Prod.snd ++ (fr.mid ++ sh1.statics.map Prod.snd)) =
      vs.reverse ++ Val.end_ :: (temps ++ (loc.map Prod.snd ++ (fr.mid ++ sh1.statics.map Prod.snd))) by simp]
    exact this
  | .table es, m, S, fr, loc, sh, cls, p, q, temps, hc, ok, inv => by
    rw [CodeE] at hc; obtain ⟨p1, h1, h2, h3, rfl⟩ := hc
    rw [feval]
    refine FSim.push (fstep_of h1 (stepv_push .END .end_ (by simp) h1)) ?_
    refine seqEs (simEs H hcall es m S fr loc sh cls (p + 1) p1 (.end_ :: temps) h2 ok inv) ok fun sh1 vs cls1 k1 ok1 inv1 hvs => ETgt.from k1 ?_
    refine sim_res inv1 (fstep_of h3 ?_) fun w u hu => H.hP.newTable _ _ _ _ hu
    have := step_newtable (F := F) (P := P) (K := X.K) (st := temps ++ (loc.map Prod.snd ++ (fr.mid ++ sh1.statics.map Prod.snd)))
      (fp := fr.fp) (loops := fr.loops) (g := sh1.globals) (w := sh1.world) (out := sh1.out) (vs := vs.reverse) h3 (by simpa using hvs)
    rw [List.reverse_reverse] at this
    rw [show (vs.reverse ++ Val.end_ :: temps) ++ (loc.map Prod.snd ++ (fr.mid ++ sh1.statics.map Prod.snd)) =
      vs.reverse ++ Val.end_ :: (temps ++ (loc.map Prod.snd ++ (fr.mid ++ sh1.statics.map Prod.snd))) by simp]
    exact this
  | .get c k, m, S, fr, loc, sh, cls, p, q, temps, hc, ok, inv => by
    rw [CodeE] at hc; obtain ⟨p1, p2, h1, h2, h3, rfl⟩ := hc
    rw [feval]
    refine seqE (simE H hcall c m S fr loc sh cls p p1 temps h1 ok inv) ok fun sh1 a cls1 k1 ok1 inv1 ha => ETgt.from k1 ?_
    refine seqE (simE H hcall k m S fr loc sh1 cls1 p1 p2 (a :: temps) h2 ok1 inv1) ok1 fun sh2 b cls2 k2 ok2 inv2 hb => ETgt.from k2 ?_
    exact sim_res inv2 (fstep_of h3 (step_get h3)) fun w u hu => H.hP.get _ _ _ _ _ hu
  | .slice c a b, m, S, fr, loc, sh, cls, p, q, temps, hc, ok, inv => by
    rw [CodeE] at hc; obtain ⟨p1, p2, p3, h1, h2, h3, h4, rfl⟩ := hc
    rw [feval]
    refine seqE (simE H hcall c m S fr loc sh cls p p1 temps h1 ok inv) ok fun sh1 x cls1 k1 ok1 inv1 hx => ETgt.from k1 ?_
    refine seqE (simE H hcall a m S fr loc sh1 cls1 p1 p2 (x :: temps) h2 ok1 inv1) ok1 fun sh2 y cls2 k2 ok2 inv2 hy => ETgt.from k2 ?_
    refine seqE (simE H hcall b m S fr loc sh2 cls2 p2 p3 (y :: x :: temps) h3 ok2 inv2) ok2 fun sh3 z cls3 k3 ok3 inv3 hz => ETgt.from k3 ?_
    exact sim_res inv3 (fstep_of h4 (step_slice h4)) fun w u hu => H.hP.slice _ _ _ _ _ _ hu
  | .fn id ps body, m, S, fr, loc, sh, cls, p, q, temps, hc, ok, inv => by
    rw [CodeE] at hc
    rw [feval]
    exact sim_fn hc ok inv temps
  | .call f args, m, S, fr, loc, sh, cls, p, q, temps, hc, ok, inv => by
    rw [CodeE] at hc; obtain ⟨p1, p2, h1, h2, h3, h4, rfl⟩ := hc
    rw [feval]
    refine seqE (simE H hcall f m S fr loc sh cls p p1 temps h1 ok inv) ok fun sh1 v cls1 k1 ok1 inv1 hv => ETgt.from k1 ?_
    by_cases hfn : v.isFn
    · rw [checkFn_eq _ _ _ hfn]
      refine FSim.initCall h2 hfn ?_
      rw [wants_toInt]
      exact sim_args H hcall ok1 (fun fr' ok' => simEs H hcall args m S fr' loc sh1 cls1 (p1 + 2) p2 (v :: temps) h3 ok' inv1) (pre := []) (g := id) h4 (.inl ⟨rfl, rfl⟩) hfn
    · rw [checkFn, if_neg hfn]
      exact FSim.initCall_err h2 hfn rfl rfl rfl
  | .mcall obj name args, m, S, fr, loc, sh, cls, p, q, temps, hc, ok, inv => by
    rw [CodeE] at hc; obtain ⟨p1, p2, i, h1, hi, hK, h2, h3, h4, rfl⟩ := hc
    rw [feval]
    refine seqE (simE H hcall obj m S fr loc sh cls p p1 temps h1 ok inv) ok fun sh1 v cls1 k1 ok1 inv1 hv => ETgt.from k1 ?_
    refine FSim.initMc (fun f s => (fevalAll F P Q X.label call S.sts.length loc args m s).bind fun s vs => apply Q call m f (v :: vs) s) hi h2 hK rfl rfl rfl ?_
    intro w' f hget hfn
    rw [wants_toInt]
    exact ETgt.from (sh1 := { sh1 with world := w' }) ⟨rfl, List.prefix_refl _⟩ (sim_args (sh := { sh1 with world := w' }) H hcall ok1
      (fun fr' ok' => simEs H hcall args m S fr' loc { sh1 with world := w' } cls1 (p1 + 10) p2 (v :: f :: temps) h3 ok' (inv1.world w')) h4
      (pre := [v]) (g := List.cons v) (.inr ⟨v, rfl, rfl, hv⟩) hfn)
  | .ctx all e, m, S, fr, loc, sh, cls, p, q, temps, hc, ok, inv => by
    rw [CodeE] at hc
    rw [feval]
    exact simE H hcall e all S fr loc sh cls p q temps hc ok inv
theorem simEs (H : SimHyp P Q X) {call : Clo → List Val → Sh W → FRes W Val} (hcall : CallSem F P Q X call n) :
    ∀ (es : FExprs) (m : Bool) (S : SEnv) (fr : FFrame) (loc : LEnv) (sh : Sh W) (cls : List (Nat × List Nat)) (p q : Nat) (temps : List Val),
      CodeEs X S es m p q → FOk S fr loc (sh.statics.map Prod.fst) cls → FInv X sh cls →
      FSim F P Q X.code X.K n (mach fr sh cls p temps loc) (fevalAll F P Q X.label call S.sts.length loc es m sh) (EsTgt X fr sh cls q temps loc)
  | .nil, m, S, fr, loc, sh, cls, p, q, temps, hc, ok, inv => by
    rw [CodeEs] at hc; subst hc
    rw [fevalAll]
    exact FSim.done ⟨cls, rfl, .refl _ _, inv, by simp⟩
  | .cons e es, m, S, fr, loc, sh, cls, p, q, temps, hc, ok, inv => by
    rw [CodeEs] at hc; obtain ⟨p1, h1, h2⟩ := hc
    rw [fevalAll]
    refine seqE (simE H hcall e m S fr loc sh cls p p1 temps h1 ok inv) ok fun sh1 a cls1 k1 ok1 inv1 ha => EsTgt.from k1 ?_
    refine seqEs (simEs H hcall es m S fr loc sh1 cls1 p1 q (a :: temps) h2 ok1 inv1) ok1 fun sh2 vs cls2 k2 ok2 inv2 hvs => ?_
    refine FSim.done ⟨cls2, by simp [mach], k2, inv2, ?_⟩
    intro v hv
    rcases List.mem_cons.1 hv with rfl | hv
    · exact ha
    · exact hvs v hv
end
end
end Yasl
