import Verif.Proofs.FSimVar
set_option autoImplicit false
/-! # Function literals -/
namespace Yasl

section
variable {W : Type} {F : FloatOps} {P : Prims W} {Q : W → Val → List Val → PRes W (List Val)} {X : FX} {S : SEnv} {fr : FFrame} {loc : LEnv}
  {sh : Sh W} {cls : List (Nat × List Nat)} {n : Nat}

/-- Captured variables can be found. -/
def CapOk (S : SEnv) (fr : FFrame) (len : Nat) (cls : List (Nat × List Nat)) : Prop :=
  match S.ups with
  | none => fr.fp = -1
  | some U => ∃ fv rest, fr.mid = fv :: rest ∧ fr.fp = rest.length + len ∧
      (U = [] ∨ ∃ i e slots, fv = .ref .closure i ∧ cls[i]? = some (e, slots) ∧ SlotsOk S.sts U slots)

theorem FOk.cap {names : List Name} (h : FOk S fr loc names cls) : CapOk S fr names.length cls := by
  have hp := h.place
  unfold FramePlace at hp
  unfold CapOk
  split at hp
  · rename_i hu; simp only [hu]; exact hp.2.2
  · rename_i U hu
    simp only [hu]
    obtain ⟨h1, h2, fv, rest, h3, h4, h8⟩ := hp
    exact ⟨fv, rest, h3, h4, h8⟩

theorem capture_ok (hc : CapOk S fr sh.statics.length cls) (p : Nat) (temps : List Val) :
    ∀ (U : List Name) (us : List Byte), us.length = U.length →
      (∀ (k : Nat) (x : Name), U[k]? = some x → ∃ b, us[k]? = some b ∧ UpByte S x b) →
      ∃ slots, (mach fr sh cls p temps loc).capture us = some slots ∧ SlotsOk S.sts U slots
  | [], us, hl, _ => by
    have : us = [] := List.length_eq_zero_iff.1 (by simpa using hl)
    subst this
    exact ⟨[], rfl, rfl, by simp⟩
  | x :: U, [], hl, _ => by simp at hl
  | x :: U, b :: us, hl, h => by
    obtain ⟨slots, h1, h2, h3⟩ := capture_ok hc p temps U us (by simpa using hl) (fun k y hk => by simpa using h (k + 1) y (by simpa using hk))
    obtain ⟨b', hb', hub⟩ := h 0 x (by simp)
    simp at hb'; subst hb'
    have : ∃ s j, (if 0 ≤ b.toInt then (if 0 ≤ fr.fp + 1 then some ((fr.fp + 1).toNat + b.toNat) else none)
      else ((mach fr sh cls p temps loc).upvalues.getD [])[(~~~b).toNat]?) = some s ∧ PosOf S.sts x j ∧ s + j + 1 = S.sts.length := by
      unfold CapOk at hc
      unfold UpByte at hub
      split at hub
      · rename_i hu
        simp only [hu] at hc
        obtain ⟨i, j, h4, h5, h6, rfl⟩ := hub
        refine ⟨i, j, ?_, h4, h5⟩
        have e1 : (BitVec.ofNat 8 i).toInt = i := by rw [BitVec.toInt_eq_toNat_of_lt] <;> simp <;> omega
        have e2 : (BitVec.ofNat 8 i).toNat = i := by simp; omega
        rw [if_pos (by rw [e1]; omega), hc, if_pos (by omega), e2]
        simp
      · rename_i V hu
        simp only [hu] at hc
        obtain ⟨k, h4, h5, rfl⟩ := hub
        obtain ⟨fv, rest, h6, h7, h8⟩ := hc
        rcases h8 with rfl | ⟨i, e, slots0, h9, h10, h11, h12⟩
        · simp at h4
        · obtain ⟨s, j, h13, h14, h15⟩ := h12 k x h4
          refine ⟨s, j, ?_, h14, h15⟩
          have e1 : ¬ 0 ≤ (~~~ BitVec.ofNat 8 k).toInt :=
            (by decide +kernel : ∀ k : Fin 128, ¬ 0 ≤ (~~~ BitVec.ofNat 8 k.1).toInt) ⟨k, h5⟩
          have e2 : (~~~ ~~~ BitVec.ofNat 8 k).toNat = k := by simp; omega
          rw [if_neg e1, e2]
          have : (mach fr sh cls p temps loc).upvalues = some slots0 := by
            unfold FVM.upvalues
            have := slot_fv (loc := loc) (temps := temps) p h6 h7
            show (match VM.slot (mach fr sh cls p temps loc).vm fr.fp with | some (.ref .closure i) => _ | _ => _) = _
            rw [show VM.slot (mach fr sh cls p temps loc).vm fr.fp = some fv from this, h9]
            show (cls[i]?).map Prod.snd = _
            rw [h10]; rfl
          rw [this]
          exact h13
    obtain ⟨s, j, h4, h5, h6⟩ := this
    refine ⟨s :: slots, ?_, by simp [h2], ?_⟩
    · show (match (if 0 ≤ b.toInt then (if 0 ≤ fr.fp + 1 then some ((fr.fp + 1).toNat + b.toNat) else none)
        else ((mach fr sh cls p temps loc).upvalues.getD [])[(~~~b).toNat]?), (mach fr sh cls p temps loc).capture us with
        | some s, some ss => some (s :: ss)
        | _, _ => none) = _
      rw [h4, h1]
    · intro k y hk
      cases k with
      | zero => simp at hk; subst hk; exact ⟨s, j, by simp, h5, h6⟩
      | succ k =>
        obtain ⟨i, j, h7, h8, h9⟩ := h3 k y (by simpa using hk)
        exact ⟨i, j, by simpa using h7, h8, h9⟩

theorem sim_fn0 {id p q : Nat} {ps : List Name} {body : FStmts} {m : Bool}
    (h : FnAt X S id ps.length body.decls.length (fun U p q => CodeSs X ⟨ps.reverse, S.sts, some U⟩ body m none p q) p q)
    (hc : CapOk S fr sh.statics.length cls) (hn : sh.ncl = cls.length) (temps : List Val) :
    ∃ v cls', sh.mkFn (X.label id) ⟨ps, body, S.sts.length, m⟩ =
        ({ sh with fns := fun u => if u = v then some ⟨ps, body, S.sts.length, m⟩ else sh.fns u, ncl := cls'.length }, .ok v) ∧
      v ≠ .end_ ∧ cls <+: cls' ∧ (∀ pre, FnOk X (pre ++ S.sts) cls' v ⟨ps, body, S.sts.length, m⟩) ∧
      ∀ {α : Type} (r : FRes W α) (T : Sh W → α → FVM W → Prop),
        FSim F P Q X.code X.K n (mach fr sh cls' q (v :: temps) loc) r T → FSim F P Q X.code X.K n (mach fr sh cls p temps loc) r T := by
  obtain ⟨U, d, h1, h2, h3, h4⟩ := h
  rcases h4 with ⟨rfl, h5, h6, rfl⟩ | ⟨h5, us, h6, h7, h8, rfl, h9⟩
  · refine ⟨.ref .fn (p + 9), cls, ?_, by simp, List.prefix_refl _, ?_, fun r T hs => FSim.fconst h2 h6 hs⟩
    · simp only [Sh.mkFn, h5]; rw [← hn]
    · intro pre
      exact ⟨[], p + 9, pre, S.sts, rfl, rfl, by simp, .inl ⟨rfl, rfl⟩, h3⟩
  · obtain ⟨slots, h10, h11⟩ := capture_ok (sh := sh) (loc := loc) hc (p + 9 + d + 1) temps U us h6 h9
    refine ⟨.ref .closure cls.length, cls ++ [(p + 9, slots)], ?_, by simp, List.prefix_append _ _, ?_, fun r T hs => FSim.cconst h2 (by omega) h7 h8 h10 hs⟩
    · simp only [Sh.mkFn, h5]; simp [hn]
    · intro pre
      exact ⟨U, p + 9, pre, S.sts, rfl, rfl, h1, .inr ⟨cls.length, slots, rfl, by simp, h11⟩, h3⟩

/-- The target of an expression. -/
def ETgt (X : FX) (fr : FFrame) (sh : Sh W) (cls : List (Nat × List Nat)) (q : Nat) (temps : List Val) (loc : LEnv) : Sh W → Val → FVM W → Prop :=
  fun sh' v m' => ∃ cls', m' = mach fr sh' cls' q (v :: temps) loc ∧ FKeeps sh sh' cls cls' ∧ FInv X sh' cls' ∧ v ≠ .end_

/-- The target of several expressions. -/
def EsTgt (X : FX) (fr : FFrame) (sh : Sh W) (cls : List (Nat × List Nat)) (q : Nat) (temps : List Val) (loc : LEnv) : Sh W → List Val → FVM W → Prop :=
  fun sh' vs m' => ∃ cls', m' = mach fr sh' cls' q (vs.reverse ++ temps) loc ∧ FKeeps sh sh' cls cls' ∧ FInv X sh' cls' ∧ ∀ v ∈ vs, v ≠ .end_

theorem FInv.mkFn {v : Val} {c : Clo} {cls' : List (Nat × List Nat)} (inv : FInv X sh cls) (h1 : cls <+: cls')
    (h2 : FnOk X (sh.statics.map Prod.fst) cls' v c) :
    FInv X { sh with fns := fun u => if u = v then some c else sh.fns u, ncl := cls'.length } cls' := by
  refine ⟨rfl, ?_, inv.gdef, inv.gEnd, inv.sEnd⟩
  intro u d hu
  dsimp only at hu ⊢
  split at hu
  · rename_i huv; cases hu; subst huv; exact h2
  · exact (inv.fns u d hu).keep h1

theorem sim_fn {id p q : Nat} {ps : List Name} {body : FStmts} {m : Bool}
    (h : FnAt X S id ps.length body.decls.length (fun U p q => CodeSs X ⟨ps.reverse, S.sts, some U⟩ body m none p q) p q)
    (ok : FOk S fr loc (sh.statics.map Prod.fst) cls) (inv : FInv X sh cls) (temps : List Val) :
    FSim F P Q X.code X.K n (mach fr sh cls p temps loc) (sh.mkFn (X.label id) ⟨ps, body, S.sts.length, m⟩) (ETgt X fr sh cls q temps loc) := by
  have hc := ok.cap
  rw [List.length_map] at hc
  obtain ⟨v, cls', h1, h2, h3, h4, h5⟩ := sim_fn0 (F := F) (P := P) (Q := Q) (n := n) (loc := loc) h hc inv.ncl temps
  rw [h1]
  obtain ⟨pre, hpre⟩ := ok.pre
  refine h5 _ _ (FSim.done ⟨cls', rfl, ⟨rfl, h3⟩, ?_, h2⟩)
  exact inv.mkFn h3 (by rw [hpre]; exact h4 pre)

/-! ## Calls -/

variable (F P Q X)

/-- The machine calls functions of the program as `call` says. -/
def CallSem (call : Clo → List Val → Sh W → FRes W Val) (n : Nat) : Prop :=
  ∀ (c : Clo) (args : List Val) (sh : Sh W) (cls : List (Nat × List Nat)) (fv : Val) (rest : List Val) (p : Nat) (fp : Int) (loops : List (Nat × Val))
    (fr0 : CFrame) (frs : List CFrame) (m : Bool), FnOk X (sh.statics.map Prod.fst) cls fv c → FInv X sh cls → (∀ v ∈ args, v ≠ .end_) →
    At X.code p [opCALL] → fr0.numReturns = wants m → fr0.lp = (loops.length : Int) - 1 →
    FSim F P Q X.code X.K n
      ⟨⟨p, args.reverse ++ fv :: (rest ++ sh.statics.map Prod.snd), fp, loops, sh.globals, sh.world, sh.out⟩, rest.length + sh.statics.length, fr0 :: frs, cls⟩
      (call c args sh) (fun sh' v m' => ∃ cls',
        m' = ⟨⟨p + 1, v :: (rest ++ sh'.statics.map Prod.snd), fr0.prevFp, loops, sh'.globals, sh'.world, sh'.out⟩, fr0.currFp, frs, cls'⟩ ∧
        FKeeps sh sh' cls cls' ∧ FInv X sh' cls' ∧ v ≠ .end_)

variable {F P Q X}

theorem FInv.world (inv : FInv X sh cls) (w : W) : FInv X { sh with world := w } cls := ⟨inv.ncl, inv.fns, inv.gdef, inv.gEnd, inv.sEnd⟩

theorem sim_apply (hQ : ∀ w v args w' rs, Q w v args = (w', .ok rs) → ∀ u ∈ rs, u ≠ Val.end_) {call : Clo → List Val → Sh W → FRes W Val}
    (hcall : CallSem F P Q X call n) {p : Nat} {m : Bool} {args : List Val} {f : Val} {temps : List Val} {ret : Nat} (hp : At X.code p [opCALL])
    (inv : FInv X sh cls) (ha : ∀ v ∈ args, v ≠ .end_) (hf : f.isFn) :
    FSim F P Q X.code X.K n
      ⟨⟨p, args.reverse ++ f :: (temps ++ (loc.map Prod.snd ++ (fr.mid ++ sh.statics.map Prod.snd))), fr.fp, fr.loops, sh.globals, sh.world, sh.out⟩,
        ((temps ++ (loc.map Prod.snd ++ (fr.mid ++ sh.statics.map Prod.snd))).length : Nat),
        ⟨ret, fr.fp, fr.nextFp, (fr.loops.length : Int) - 1, wants m⟩ :: fr.frames, cls⟩
      (apply Q call m f args sh) (ETgt X fr sh cls (p + 1) temps loc) := by
  by_cases hcf : ∃ a, f = .ref .cfn a
  · obtain ⟨a, rfl⟩ := hcf
    refine FSim.callC hp rfl rfl rfl rfl rfl rfl call ?_
    intro w' rs v hq hv
    refine ⟨cls, rfl, ⟨rfl, List.prefix_refl _⟩, inv.world w', ?_⟩
    rcases hv with hv | rfl
    · exact hQ _ _ _ _ _ hq v hv
    · simp
  · have happ : apply Q call m f args sh = match sh.fns f with
        | some c => call c args sh
        | none => (sh, .error .outside) := by
      unfold apply
      split
      · exact absurd ⟨_, rfl⟩ hcf
      · rfl
    rw [happ]
    split
    · rename_i c hc
      have hfn := inv.fns f c hc
      have := hcall c args sh cls f (temps ++ (loc.map Prod.snd ++ fr.mid)) p fr.fp fr.loops
        ⟨ret, fr.fp, fr.nextFp, (fr.loops.length : Int) - 1, wants m⟩ fr.frames m hfn inv ha hp rfl rfl
      have e : ∀ (s : Sh W), temps ++ (loc.map Prod.snd ++ fr.mid) ++ s.statics.map Prod.snd = temps ++ (loc.map Prod.snd ++ (fr.mid ++ s.statics.map Prod.snd)) := by
        intro s; simp
      simp only [e] at this
      have e2 : ((temps ++ (loc.map Prod.snd ++ (fr.mid ++ sh.statics.map Prod.snd))).length : Int) =
          ((temps ++ (loc.map Prod.snd ++ fr.mid)).length : Int) + sh.statics.length := by simp; omega
      rw [e2]
      refine this.mono ?_
      rintro sh' v m' _ ⟨cls', rfl, h1, h2, h3⟩
      exact ⟨cls', rfl, h1, h2, h3⟩
    · exact .inr trivial

end
end Yasl
