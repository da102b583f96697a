import Verif.Proofs.FSimS
set_option autoImplicit false
/-! # Calls of functions of the program, and whole programs -/
namespace Yasl

section
variable {W : Type} {F : FloatOps} {P : Prims W} {Q : W → Val → List Val → PRes W (List Val)} {X : FX}

theorem bindArgs_noEnd : ∀ (ps : List Name) (vs : List Val) (acc : LEnv), (∀ v ∈ vs, v ≠ .end_) → (∀ q ∈ acc, q.2 ≠ Val.end_) →
    ∀ q ∈ bindArgs ps vs acc, q.2 ≠ Val.end_
  | [], _, acc, _, h2 => h2
  | x :: xs, [], acc, h1, h2 => bindArgs_noEnd xs [] _ h1 (by
    intro q hq
    rcases List.mem_cons.1 hq with rfl | hq
    · simp
    · exact h2 q hq)
  | x :: xs, v :: vs, acc, h1, h2 => bindArgs_noEnd xs vs _ (fun u hu => h1 u (by simp [hu])) (by
    intro q hq
    rcases List.mem_cons.1 hq with rfl | hq
    · exact h1 v (by simp)
    · exact h2 q hq)

theorem dropLoops_all (loops : List (Nat × Val)) {lp : Int} (h : lp = (loops.length : Int) - 1) : dropLoops loops lp = loops := by
  unfold dropLoops; rw [h]; simp

theorem callSem (H : SimHyp P Q X) : ∀ n, CallSem F P Q X (callF F P Q X.label n) n
  | 0 => by
    intro c args sh cls fv rest p fp loops fr0 frs m hfn inv ha hp hnr hlp
    exact .inr ⟨0, _, Nat.le_refl _, rfl, rfl, rfl, rfl⟩
  | n + 1 => by
    intro c args sh cls fv rest p fp loops fr0 frs m hfn inv ha hp hnr hlp
    obtain ⟨U, entry, pre, sts, h1, h2, h3, h4, pe, h5, h6, h7, h8, h9⟩ := hfn
    rw [callF]
    refine FSim.callNative (entry := entry) (k := c.params.length) hp ?_ ?_ h6.head (by omega) ?_
    · simp
    · rcases h4 with ⟨h4, _⟩ | ⟨i, slots, h4, h10, _⟩
      · exact .inl h4
      · exact .inr ⟨i, slots, h4, h10⟩
    have ok : FOk ⟨c.params.reverse, sts, some U⟩ ⟨((rest ++ sh.statics.map Prod.snd).length : Nat), loops, fv :: rest, rest.length + sh.statics.length, { fr0 with pc := p + 1 } :: frs⟩
        (bindArgs c.params args []) (sh.statics.map Prod.fst) cls := by
      refine ⟨?_, ?_, bindArgs_noEnd _ _ _ ha (by simp), ⟨pre, h1⟩, h3, fv, rest, rfl, by simp, ?_⟩
      · rw [bindArgs_names]; simp [SEnv.base]
      · simp; omega
      · rcases h4 with ⟨_, h4⟩ | ⟨i, slots, h4, h10, h11⟩
        · exact .inl h4
        · exact .inr ⟨i, entry, slots, h4, h10, h11⟩
    have hret : RetPlace ⟨c.params.reverse, sts, some U⟩ ⟨((rest ++ sh.statics.map Prod.snd).length : Nat), loops, fv :: rest, rest.length + sh.statics.length, { fr0 with pc := p + 1 } :: frs⟩ := by
      intro _
      exact ⟨_, _, m, rfl, hnr, by simp only; omega, by simp only; omega⟩
    have hsim := simSs H (callSem H n) c.body c.multi _ none _ _ sh cls (entry + 1) pe h7 hret ok inv
    have e0 : (⟨⟨entry + 1, (padArgs c.params.length args).reverse ++ fv :: (rest ++ sh.statics.map Prod.snd), ((rest ++ sh.statics.map Prod.snd).length : Nat), loops, sh.globals, sh.world, sh.out⟩,
        rest.length + sh.statics.length, { fr0 with pc := p + 1 } :: frs, cls⟩ : FVM W) =
        mach ⟨((rest ++ sh.statics.map Prod.snd).length : Nat), loops, fv :: rest, rest.length + sh.statics.length, { fr0 with pc := p + 1 } :: frs⟩ sh cls (entry + 1) []
          (bindArgs c.params args []) := by
      unfold mach
      rw [bindArgs_vals]; simp
    rw [e0, h2]
    refine hsim.bind ?_
    rintro sh1 ⟨loc1, sg⟩ m1 _ ⟨cls1, k1, inv1, hl, he⟩
    have hfinal : ∀ (v : Val) (m' : FVM W), v ≠ .end_ →
        RetAt ⟨((rest ++ sh.statics.map Prod.snd).length : Nat), loops, fv :: rest, rest.length + sh.statics.length, { fr0 with pc := p + 1 } :: frs⟩ sh1 cls1 v m' →
        FSim F P Q X.code X.K n m' ((sh1, .ok v) : FRes W Val) (fun sh' v m' => ∃ cls',
          m' = ⟨⟨p + 1, v :: (rest ++ sh'.statics.map Prod.snd), fr0.prevFp, loops, sh'.globals, sh'.world, sh'.out⟩, fr0.currFp, frs, cls'⟩ ∧
          FKeeps sh sh' cls cls' ∧ FInv X sh' cls' ∧ v ≠ .end_) := by
      rintro v m' hv ⟨fv', rest', fr', frs', a1, a2, rfl⟩
      cases a1; cases a2
      refine FSim.done ⟨cls1, ?_, k1, inv1, hv⟩
      dsimp only
      rw [dropLoops_all loops hlp]
    cases sg with
    | brk => obtain ⟨l, hL, _⟩ := he; cases hL
    | cont => obtain ⟨l, hL, _⟩ := he; cases hL
    | ret v =>
      obtain ⟨hv, hr⟩ := he
      exact hfinal v m1 hv hr
    | normal =>
      obtain ⟨rfl, hn⟩ := he
      show FSim F P Q X.code X.K n _ (sh1, .ok Val.undef) _
      refine FSim.push (fstep_of h8 (stepv_push .NCONST .undef (by simp) h8)) ?_
      have ok1 : FOk ⟨c.body.decls ++ c.params.reverse, sts, some U⟩ ⟨((rest ++ sh.statics.map Prod.snd).length : Nat), loops, fv :: rest, rest.length + sh.statics.length, { fr0 with pc := p + 1 } :: frs⟩
          loc1 (sh1.statics.map Prod.fst) cls1 := by
        rw [k1.names]
        exact (ok.keep k1.cls).enter hl hn (by simp; omega)
      refine sim_ret (S := ⟨c.body.decls ++ c.params.reverse, sts, some U⟩) (loc := loc1) ?_ (by simp) hret ok1 _ fun m' hm' => hfinal .undef m' (by simp) hm'
      have : (c.body.decls ++ c.params.reverse).length = c.params.length + c.body.decls.length := by simp; omega
      rw [this]; exact h9

/-! ## The file -/

/-- The code of a statement of the file. -/
def CodeT (X : FX) (sts : List Name) (st : FStmt) (p q : Nat) : Prop :=
  match st with
  | .let_ _ e | .const_ _ e => sts.length + 1 ≤ 128 ∧ CodeE X ⟨sts, sts, none⟩ e false p q
  | .multi ls es => ∃ p1, es.length = ls.length ∧ CodeEs X ⟨sts, sts, none⟩ es false p p1 ∧ CodeL X true ⟨sts, sts, none⟩ ls p1 q
  | .fnDecl x id ps body => sts.length + 1 ≤ 128 ∧
    FnAt X ⟨x :: sts, x :: sts, none⟩ id ps.length body.decls.length (fun U p q => CodeSs X ⟨ps.reverse, x :: sts, some U⟩ body false none p q) p q
  | st => CodeS X ⟨sts, sts, none⟩ st false none p q

/-- The code of the statements of the file. -/
def CodeTop (X : FX) : List Name → FStmts → Nat → Nat → Prop
  | _, .nil, p, q => q = p
  | sts, .cons st ss, p, q => ∃ p1, CodeT X sts st p p1 ∧ CodeTop X (st.decls ++ sts) ss p1 q

/-- The frame of the file. -/
def topFrame (nfp : Int) : FFrame := ⟨-1, [], [], nfp, []⟩

/-- The target of a statement of the file. -/
def TTgt (X : FX) (nfp : Int) (q : Nat) (names : List Name) : Sh W → Unit → FVM W → Prop :=
  fun sh _ m => ∃ cls, m = mach (topFrame nfp) sh cls q [] [] ∧ sh.statics.map Prod.fst = names ∧ FInv X sh cls

theorem topOk {sh : Sh W} {cls : List (Nat × List Nat)} {sts : List Name} (nfp : Int) (hs : sh.statics.map Prod.fst = sts) (hl : sts.length ≤ 128) :
    FOk ⟨sts, sts, none⟩ (topFrame nfp) [] (sh.statics.map Prod.fst) cls :=
  ⟨rfl, hl, by simp, hs.symm, rfl, rfl⟩

theorem FInv.addStatic {sh : Sh W} {cls : List (Nat × List Nat)} (inv : FInv X sh cls) (x : Name) {v : Val} (hv : v ≠ .end_) :
    FInv X { sh with statics := (x, v) :: sh.statics } cls := by
  refine ⟨inv.ncl, fun u c hu => (inv.fns u c hu).cons x, inv.gdef, inv.gEnd, ?_⟩
  intro q hq
  rcases List.mem_cons.1 hq with rfl | hq
  · exact hv
  · exact inv.sEnd q hq

theorem sim_topLet (H : SimHyp P Q X) {n : Nat} {sh : Sh W} {cls : List (Nat × List Nat)} {sts : List Name} {nfp : Int} {x : Name} {e : FExpr} {p q : Nat}
    (hs : sh.statics.map Prod.fst = sts) (hl : sts.length ≤ 128) (hc : CodeE X ⟨sts, sts, none⟩ e false p q) (inv : FInv X sh cls) :
    FSim F P Q X.code X.K n (mach (topFrame nfp) sh cls p [] [])
      ((feval F P Q X.label (callF F P Q X.label n) sh.statics.length [] e false sh).bind fun s v => ({ s with statics := (x, v) :: s.statics }, .ok ()))
      (TTgt X nfp q ([x] ++ sts)) := by
  have hlen : sh.statics.length = sts.length := by rw [← hs]; simp
  rw [hlen]
  refine seqE (simE H (callSem H n) e false ⟨sts, sts, none⟩ (topFrame nfp) [] sh cls p q [] hc (topOk nfp hs hl) inv) (topOk nfp hs hl) ?_
  intro sh1 v cls1 k1 ok1 inv1 hv
  refine FSim.done ⟨cls1, rfl, ?_, inv1.addStatic x hv⟩
  rw [List.map_cons, k1.names, hs]; rfl

theorem sim_topTargets {n : Nat} {nfp : Int} : ∀ (ls : List FTarget) (vs : List Val) (sts : List Name) (sh : Sh W) (cls : List (Nat × List Nat)) (p q : Nat),
    CodeL X true ⟨sts, sts, none⟩ ls p q → vs.length = ls.length → (∀ v ∈ vs, v ≠ .end_) → sh.statics.map Prod.fst = sts → sts.length ≤ 128 → FInv X sh cls →
    FSim F P Q X.code X.K n (mach (topFrame nfp) sh cls p vs.reverse []) (assignTop ls vs sh, .ok ()) (TTgt X nfp q (declsL ls ++ sts))
  | [], [], sts, sh, cls, p, q, hc, _, _, hs, _, inv => by
    rw [CodeL] at hc; subst hc
    exact FSim.done ⟨cls, rfl, hs, inv⟩
  | .let_ x :: ls, v :: vs, sts, sh, cls, p, q, hc, hl, hv, hs, h128, inv => by
    rw [CodeL] at hc
    have := sim_topTargets (nfp := nfp) (n := n) ls vs (x :: sts) { sh with statics := (x, v) :: sh.statics } cls p q hc.2 (by simpa using hl) (fun u hu => hv u (by simp [hu]))
      (by rw [← hs]; rfl) (by simpa using hc.1) (inv.addStatic x (hv v (by simp)))
    have e : mach (topFrame nfp) sh cls p (v :: vs).reverse [] = mach (topFrame nfp) { sh with statics := (x, v) :: sh.statics } cls p vs.reverse [] := by
      unfold mach topFrame; simp
    rw [e, assignTop, declsL, List.append_assoc]
    exact this
  | .const_ x :: ls, v :: vs, sts, sh, cls, p, q, hc, hl, hv, hs, h128, inv => by
    rw [CodeL] at hc
    have := sim_topTargets (nfp := nfp) (n := n) ls vs (x :: sts) { sh with statics := (x, v) :: sh.statics } cls p q hc.2 (by simpa using hl) (fun u hu => hv u (by simp [hu]))
      (by rw [← hs]; rfl) (by simpa using hc.1) (inv.addStatic x (hv v (by simp)))
    have e : mach (topFrame nfp) sh cls p (v :: vs).reverse [] = mach (topFrame nfp) { sh with statics := (x, v) :: sh.statics } cls p vs.reverse [] := by
      unfold mach topFrame; simp
    rw [e, assignTop, declsL, List.append_assoc]
    exact this
  | .assign x :: ls, v :: vs, sts, sh, cls, p, q, hc, hl, hv, hs, h128, inv => by
    rw [CodeL] at hc
    obtain ⟨h1, h2, p1, h3, h4⟩ := hc
    rw [List.reverse_cons]
    have ok := topOk (cls := cls) nfp hs h128
    refine sim_moveup h1 h2 ok ?_
    obtain ⟨k2, inv2, hn, hl2, hr⟩ := sim_store (F := F) (P := P) (Q := Q) (n := n) h3 ok inv (hv v (by simp)) vs.reverse
    refine hr _ _ ?_
    have hlen : sts.length = sh.statics.length := by rw [← hs]; simp
    have hnil : (sh.assign sts.length [] x v).2 = [] := by
      generalize (sh.assign sts.length [] x v).2 = l at hn
      cases l <;> simp at hn ⊢
    dsimp only at hnil k2 inv2 ⊢
    rw [hnil, assignTop, declsL, ← hlen]
    exact sim_topTargets ls vs sts _ cls p1 q h4 (by simpa using hl) (fun u hu => hv u (by simp [hu])) (by rw [k2.names, hs]) h128 inv2

theorem sim_topStmt (H : SimHyp P Q X) {n : Nat} {sh : Sh W} {cls : List (Nat × List Nat)} {sts : List Name} {nfp : Int} {st : FStmt} {p q : Nat}
    (hd : st.decls = []) (hs : sh.statics.map Prod.fst = sts) (hl : sts.length ≤ 128) (hc : CodeS X ⟨sts, sts, none⟩ st false none p q) (inv : FInv X sh cls) :
    FSim F P Q X.code X.K n (mach (topFrame nfp) sh cls p [] [])
      ((fexec F P Q X.label (callF F P Q X.label n) n sh.statics.length false st [] sh).bind fun s _ => (s, .ok ()))
      (TTgt X nfp q (st.decls ++ sts)) := by
  have hlen : sh.statics.length = sts.length := by rw [← hs]; simp
  rw [hlen]
  refine (simS H (callSem H n) st false ⟨sts, sts, none⟩ none (topFrame nfp) [] sh cls p q hc (fun h => absurd rfl h) (topOk nfp hs hl) inv).bind ?_
  rintro sh1 ⟨loc1, sg⟩ m1 _ ⟨cls1, k1, inv1, hl1, he⟩
  cases sg with
  | brk => obtain ⟨l, hL, _⟩ := he; cases hL
  | cont => obtain ⟨l, hL, _⟩ := he; cases hL
  | ret v => obtain ⟨_, fv, rest, fr0, frs, a1, _⟩ := he; cases a1
  | normal =>
    obtain ⟨rfl, hn⟩ := he
    rw [hd] at hn
    have : loc1 = [] := by cases loc1 <;> simp at hn ⊢
    subst this
    refine FSim.done ⟨cls1, rfl, ?_, inv1⟩
    rw [k1.names, hs, hd]; rfl

theorem simT (H : SimHyp P Q X) {n : Nat} {sh : Sh W} {cls : List (Nat × List Nat)} {sts : List Name} {nfp : Int} {st : FStmt} {p q : Nat}
    (hc : CodeT X sts st p q) (hs : sh.statics.map Prod.fst = sts) (hl : sts.length ≤ 128) (inv : FInv X sh cls) :
    FSim F P Q X.code X.K n (mach (topFrame nfp) sh cls p [] []) (ftop F P Q X.label n st sh) (TTgt X nfp q (st.decls ++ sts)) := by
  cases st with
  | let_ x e => exact sim_topLet H hs hl hc.2 inv
  | const_ x e => exact sim_topLet H hs hl hc.2 inv
  | multi ls es =>
    have hlen : sh.statics.length = sts.length := by rw [← hs]; simp
    obtain ⟨p1, h1, h2, h3⟩ := hc
    show FSim F P Q X.code X.K n _ ((fevalAll F P Q X.label (callF F P Q X.label n) sh.statics.length [] es false sh).bind fun s vs => (assignTop ls vs s, .ok ())) _
    rw [hlen]
    refine (simEs H (callSem H n) es false ⟨sts, sts, none⟩ (topFrame nfp) [] sh cls p p1 [] h2 (topOk nfp hs hl) inv).bind ?_
    rintro sh1 vs m1 he ⟨cls1, rfl, k1, inv1, hv⟩
    rw [List.append_nil]
    exact sim_topTargets ls vs sts sh1 cls1 p1 q h3 ((fevalAll_length he).trans h1) hv (by rw [k1.names, hs]) hl inv1
  | fnDecl x id ps body =>
    have hlen : sh.statics.length = sts.length := by rw [← hs]; simp
    obtain ⟨h1, h2⟩ := hc
    obtain ⟨v, cls', h3, h4, h5, h6, h7⟩ := sim_fn0 (F := F) (P := P) (Q := Q) (S := ⟨x :: sts, x :: sts, none⟩) (fr := topFrame nfp) (sh := sh) (cls := cls) (loc := []) (n := n) h2 rfl inv.ncl []
    show FSim F P Q X.code X.K n _ ((sh.mkFn (X.label id) ⟨ps, body, sh.statics.length + 1, false⟩).bind _) _
    rw [show sh.statics.length + 1 = (x :: sts).length by simp [hlen]]
    dsimp only at h3
    rw [h3]
    refine h7 _ _ (FSim.done ⟨cls', rfl, by rw [← hs]; rfl, ⟨rfl, ?_, inv.gdef, inv.gEnd, ?_⟩⟩)
    · intro u c hu
      dsimp only at hu ⊢
      rw [List.map_cons, hs]
      split at hu
      · rename_i huv; cases hu; subst huv
        exact h6 []
      · have := ((inv.fns u c hu).keep h5).cons x
        rwa [hs] at this
    · intro q hq
      rcases List.mem_cons.1 hq with rfl | hq
      · exact h4
      · exact inv.sEnd q hq
  | _ => exact sim_topStmt H rfl hs hl hc inv

theorem CodeT.small {sts : List Name} {st : FStmt} {p q : Nat} (h : CodeT X sts st p q) (hl : sts.length ≤ 128) : (st.decls ++ sts).length ≤ 128 := by
  cases st with
  | let_ x e | const_ x e | fnDecl x id ps body => have := h.1; simp [FStmt.decls]; omega
  | multi ls es => obtain ⟨p1, _, _, h3⟩ := h; simpa [FStmt.decls] using CodeL.small ls _ p1 q h3 hl
  | _ => exact hl

theorem simTop (H : SimHyp P Q X) {n : Nat} {nfp : Int} : ∀ (ss : FStmts) (sts : List Name) (sh : Sh W) (cls : List (Nat × List Nat)) (p q : Nat),
    CodeTop X sts ss p q → sh.statics.map Prod.fst = sts → sts.length ≤ 128 → FInv X sh cls →
    FSim F P Q X.code X.K n (mach (topFrame nfp) sh cls p [] []) (fprog F P Q X.label n ss sh)
      (fun sh' _ m' => ∃ cls', m' = mach (topFrame nfp) sh' cls' q [] [])
  | .nil, sts, sh, cls, p, q, hc, hs, hl, inv => by
    cases hc
    exact FSim.done ⟨cls, rfl⟩
  | .cons st ss, sts, sh, cls, p, q, hc, hs, hl, inv => by
    obtain ⟨p1, h1, h2⟩ := hc
    rw [fprog]
    refine (simT H h1 hs hl inv).bind ?_
    rintro sh1 u m1 _ ⟨cls1, rfl, hn, inv1⟩
    exact simTop H ss _ sh1 cls1 p1 q h2 hn (h1.small hl) inv1

end
end Yasl
