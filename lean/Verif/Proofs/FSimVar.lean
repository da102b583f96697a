import Verif.Proofs.FCode
set_option autoImplicit false
/-! # Variables: the machine reads and writes what the program means -/
namespace Yasl

section
variable {W : Type} {F : FloatOps} {P : Prims W} {Q : W → Val → List Val → PRes W (List Val)} {X : FX} {S : SEnv} {fr : FFrame} {loc : LEnv}
  {sh : Sh W} {cls : List (Nat × List Nat)} {n : Nat}

theorem FOk.pre {names : List Name} (h : FOk S fr loc names cls) : ∃ pre, names = pre ++ S.sts := by
  have hp := h.place
  unfold FramePlace at hp
  split at hp
  · exact ⟨[], by simp [hp.1]⟩
  · exact hp.1

theorem FOk.fpEq (h : FOk S fr loc (sh.statics.map Prod.fst) cls) :
    fr.fp + 1 + S.own.length = (loc.map Prod.snd ++ (fr.mid ++ sh.statics.map Prod.snd)).length ∧ 0 ≤ fr.fp + 1 := by
  have hp := h.place
  have ho := h.own
  unfold FramePlace SEnv.base at *
  split at hp
  · rename_i hu
    obtain ⟨h1, h2, h3⟩ := hp
    rw [hu] at ho
    rw [ho, h1, h2, h3]
    simp
  · rename_i U hu
    obtain ⟨h1, h2, fv, rest, h3, h4, h8⟩ := hp
    rw [hu] at ho
    rw [ho, h3, h4]
    simp
    omega

theorem dropStatics {pre sts : List Name} (h : sh.statics.map Prod.fst = pre ++ sts) :
    (sh.statics.drop (sh.statics.length - sts.length)).map Prod.fst = sts ∧ sh.statics.length = pre.length + sts.length := by
  have hl : sh.statics.length = pre.length + sts.length := by
    have := congrArg List.length h; simpa using this
  refine ⟨?_, hl⟩
  rw [List.map_drop, h, hl]
  rw [show pre.length + sts.length - sts.length = pre.length by omega]
  simp

/-- A variable in the frame: its value, and where it is. -/
theorem FOk.ownGet (h : FOk S fr loc (sh.statics.map Prod.fst) cls) {x : Name} {j : Nat} (hx : PosOf S.own x j) :
    ∃ v, sh.look S.sts.length loc x = some v ∧ (loc.map Prod.snd ++ (fr.mid ++ sh.statics.map Prod.snd))[j]? = some v ∧
      ((∃ y, (y, v) ∈ loc) ∨ ∃ y, (y, v) ∈ sh.statics) := by
  have ho := h.own
  by_cases hm : x ∈ loc.map Prod.fst
  · obtain ⟨j', hj'⟩ := PosOf.of_mem hm
    have hj : j = j' := PosOf.unique (by rw [← ho]; exact hx) (PosOf.append_left hj')
    subst hj
    obtain ⟨v, h1, h2, h3⟩ := hj'.find
    refine ⟨v, by simp [Sh.look, h1], ?_, .inl ⟨x, h3⟩⟩
    rw [List.getElem?_append_left (by simpa using hj'.lt)]
    exact h2
  · have hp := h.place
    unfold FramePlace at hp
    unfold SEnv.base at ho
    split at hp
    · rename_i hu
      rw [hu] at ho
      obtain ⟨h1, h2, h3⟩ := hp
      simp only [h1] at ho
      have hxm : x ∈ sh.statics.map Prod.fst := by
        have := hx.mem
        rw [ho] at this
        rcases List.mem_append.1 this with h | h
        · exact absurd h hm
        · exact h
      obtain ⟨j', hj'⟩ := PosOf.of_mem hxm
      have hj : j = (loc.map Prod.fst).length + j' := PosOf.unique (by rw [← ho]; exact hx) (PosOf.append_right hm hj')
      obtain ⟨v, h4, h5, h6⟩ := hj'.find
      refine ⟨v, ?_, ?_, .inr ⟨x, h6⟩⟩
      · simp only [Sh.look, find_none hm, h1]
        simp [h4]
      · subst hj
        rw [h2]
        rw [List.getElem?_append_right (by simp)]
        simpa using h5
    · rename_i U hu
      rw [hu] at ho
      simp at ho
      exact absurd (by rw [← ho]; exact hx.mem) hm

/-- A captured variable. -/
theorem FOk.upGet (h : FOk S fr loc (sh.statics.map Prod.fst) cls) {U : List Name} (hU : S.ups = some U) {x : Name} {k : Nat} (hk : U[k]? = some x)
    (hx : x ∉ S.own) :
    ∃ fv rest i e slots s j v, fr.mid = fv :: rest ∧ fr.fp = rest.length + sh.statics.length ∧ fv = .ref .closure i ∧ cls[i]? = some (e, slots) ∧
      slots[k]? = some s ∧ k < 128 ∧ s + j + 1 = sh.statics.length ∧ (sh.statics.map Prod.snd)[j]? = some v ∧
      sh.look S.sts.length loc x = some v ∧ (∃ y, (y, v) ∈ sh.statics) ∧
      ∀ u, (sh.assign S.sts.length loc x u).2 = loc ∧ (sh.assign S.sts.length loc x u).1.statics.map Prod.snd = (sh.statics.map Prod.snd).set j u ∧
        (sh.assign S.sts.length loc x u).1.statics.map Prod.fst = sh.statics.map Prod.fst ∧
        (sh.assign S.sts.length loc x u).1 = { sh with statics := (sh.assign S.sts.length loc x u).1.statics } ∧
        ((∀ q ∈ sh.statics, q.2 ≠ Val.end_) → u ≠ .end_ → ∀ q ∈ (sh.assign S.sts.length loc x u).1.statics, q.2 ≠ Val.end_) := by
  have ho := h.own
  have hp := h.place
  unfold FramePlace at hp
  unfold SEnv.base at ho
  rw [hU] at hp ho
  obtain ⟨⟨pre, h1⟩, h2, fv, rest, h3, h4, h8⟩ := hp
  have hm : x ∉ loc.map Prod.fst := by simpa [ho] using hx
  obtain ⟨hd, hl⟩ := dropStatics h1
  have hkU : k < U.length := by rw [List.getElem?_eq_some_iff] at hk; exact hk.1
  rcases h8 with rfl | ⟨i, e, slots, h9, h10, h11, h12⟩
  · simp at hk
  · obtain ⟨s, j, h13, h14, h15⟩ := h12 k x hk
    have hpos : PosOf ((sh.statics.drop (sh.statics.length - S.sts.length)).map Prod.fst) x j := by rw [hd]; exact h14
    obtain ⟨v, h16, h17, h18⟩ := hpos.find
    refine ⟨fv, rest, i, e, slots, s, pre.length + j, v, h3, by simpa using h4, h9, h10, h13, by omega, by omega, ?_, ?_, ⟨x, List.mem_of_mem_drop h18⟩, ?_⟩
    · rw [List.map_drop, List.getElem?_drop] at h17
      rw [← h17]; congr 1; omega
    · simp only [Sh.look, find_none hm, h16]
    · intro u
      simp only [Sh.assign, find_none hm, h16]
      refine ⟨trivial, ?_, ?_, trivial, ?_⟩
      · rw [List.map_append, hpos.update]
        conv => rhs; rw [← List.take_append_drop (sh.statics.length - S.sts.length) sh.statics, List.map_append]
        rw [List.set_append_right _ _ (by simp; omega)]
        congr 2
        simp; omega
      · rw [List.map_append, update_names, ← List.map_append, List.take_append_drop]
      · intro hs hu q hq
        rcases List.mem_append.1 hq with hq | hq
        · exact hs q (List.mem_of_mem_take hq)
        · exact update_noEnd _ _ _ (fun q hq => hs q (List.mem_of_mem_drop hq)) hu q hq

theorem look_global (h : FOk S fr loc (sh.statics.map Prod.fst) cls) {x : Name} (hx : x ∉ S.own) (hx2 : x ∉ S.sts) :
    sh.look S.sts.length loc x = sh.globals x ∧ ∀ u, sh.assign S.sts.length loc x u = ({ sh with globals := fun y => if y = x then some u else sh.globals y }, loc) := by
  obtain ⟨pre, h1⟩ := h.pre
  obtain ⟨hd, hl⟩ := dropStatics h1
  have hm : x ∉ loc.map Prod.fst := by rw [h.own] at hx; simp at hx ⊢; exact hx.1
  have h2 : LEnv.find (sh.statics.drop (sh.statics.length - S.sts.length)) x = none := find_none (by rw [hd]; exact hx2)
  constructor
  · simp only [Sh.look, find_none hm, h2]
  · intro u
    simp only [Sh.assign, find_none hm, h2]

theorem slot_fv {temps : List Val} {fv : Val} {rest : List Val} (p : Nat) (hm : fr.mid = fv :: rest) (hf : fr.fp = rest.length + sh.statics.length) :
    VM.slot (⟨p, temps ++ (loc.map Prod.snd ++ (fr.mid ++ sh.statics.map Prod.snd)), fr.fp, fr.loops, sh.globals, sh.world, sh.out⟩ : VM W) fr.fp = some fv := by
  have := slot_mid (⟨p, temps ++ (loc.map Prod.snd ++ (fr.mid ++ sh.statics.map Prod.snd)), fr.fp, fr.loops, sh.globals, sh.world, sh.out⟩ : VM W)
    (temps ++ loc.map Prod.snd) (rest ++ sh.statics.map Prod.snd) fv (by simp [hm])
  rw [← this]
  congr 1
  rw [hf]; simp

theorem sim_load {x : Name} {p q : Nat} (hl : LoadAt X S x p q) (ok : FOk S fr loc (sh.statics.map Prod.fst) cls) (inv : FInv X sh cls)
    (temps : List Val) :
    ∃ v, sh.look S.sts.length loc x = some v ∧ v ≠ .end_ ∧ ∀ {α : Type} (r : FRes W α) (T : Sh W → α → FVM W → Prop),
      FSim F P Q X.code X.K n (mach fr sh cls q (v :: temps) loc) r T → FSim F P Q X.code X.K n (mach fr sh cls p temps loc) r T := by
  rcases hl with ⟨i, j, h1, h2, h3, rfl⟩ | ⟨hx, U, k, hU, hk, h3, rfl⟩ | ⟨hx, hx2, hg, i, hi, hK, h3, rfl⟩
  · obtain ⟨v, h4, h5, h6⟩ := ok.ownGet h1
    obtain ⟨h7, h8⟩ := ok.fpEq
    refine ⟨v, h4, ?_, fun r T hs => ?_⟩
    · rcases h6 with ⟨y, hy⟩ | ⟨y, hy⟩
      · exact ok.lEnd _ hy
      · exact inv.sEnd _ hy
    · have := ok.small
      refine FSim.push (fstep_of h3 (stepv_lload (i := i) (j := temps.length + j) (v := v) (by omega) h3 ?_ h8 ?_)) hs
      · rw [List.length_append]
        omega
      · rw [List.getElem?_append_right (by omega)]
        simpa using h5
  · obtain ⟨fv, rest, c, e, slots, s, j, v, h4, h5, h6, h7, h8, hk2, h9, h10, h11, ⟨y, hy⟩, _⟩ := ok.upGet hU hk hx
    refine ⟨v, h11, inv.sEnd _ hy, fun r T hs => ?_⟩
    refine FSim.uload (i := k) (s := s) (j := temps.length + (loc.length + (fr.mid.length + j))) (cl := c) (e := e) (slots := slots) (v := v)
      (by omega) h3 ?_ h7 h8 ?_ ?_ hs
    · rw [slot_fv _ h4 h5, h6]
    · simp; omega
    · rw [List.getElem?_append_right (by omega), List.getElem?_append_right (by simp), List.getElem?_append_right (by simp)]
      rw [← h10]
      congr 1; simp
  · obtain ⟨h4, _⟩ := look_global ok hx hx2
    obtain ⟨v, hv⟩ := Option.ne_none_iff_exists'.1 (inv.gdef x hg)
    refine ⟨v, by rw [h4, hv], inv.gEnd _ _ hv, fun r T hs => ?_⟩
    exact FSim.push (fstep_of h3 (stepv_gload hi h3 hK hv)) hs

theorem sim_defined {x : Name} (hd : DefinedAt X S x) (ok : FOk S fr loc (sh.statics.map Prod.fst) cls) (inv : FInv X sh cls) :
    ∃ v, sh.look S.sts.length loc x = some v := by
  by_cases hx : x ∈ S.own
  · obtain ⟨j, hj⟩ := PosOf.of_mem hx
    obtain ⟨v, hv, _⟩ := ok.ownGet hj
    exact ⟨v, hv⟩
  · by_cases hx2 : x ∈ S.sts
    · obtain ⟨pre, h1⟩ := ok.pre
      obtain ⟨hd, hl⟩ := dropStatics h1
      have hm : x ∉ loc.map Prod.fst := by have := ok.own; rw [this] at hx; simp at hx ⊢; exact hx.1
      obtain ⟨j, hj⟩ := PosOf.of_mem hx2
      obtain ⟨v, hv, _⟩ := PosOf.find (env := sh.statics.drop (sh.statics.length - S.sts.length)) (by rw [hd]; exact hj)
      exact ⟨v, by simp only [Sh.look, find_none hm, hv]⟩
    · rw [(look_global ok hx hx2).1]
      have : X.gs x := by
        rcases hd with h | h | h
        · exact absurd h hx
        · exact absurd h hx2
        · exact h
      obtain ⟨v, hv⟩ := Option.ne_none_iff_exists'.1 (inv.gdef x this)
      exact ⟨v, hv⟩

theorem FInv.assigned {sh' : Sh W} (inv : FInv X sh cls) (h1 : sh'.statics.map Prod.fst = sh.statics.map Prod.fst) (h2 : sh'.fns = sh.fns) (h3 : sh'.ncl = sh.ncl)
    (h4 : ∀ x, X.gs x → sh'.globals x ≠ none) (h5 : ∀ x v, sh'.globals x = some v → v ≠ .end_) (h6 : ∀ q ∈ sh'.statics, q.2 ≠ .end_) : FInv X sh' cls :=
  ⟨h3.trans inv.ncl, by rw [h2, h1]; exact inv.fns, h4, h5, h6⟩

theorem sim_store {x : Name} {p q : Nat} (hl : StoreAt X S x p q) (ok : FOk S fr loc (sh.statics.map Prod.fst) cls) (inv : FInv X sh cls)
    {v : Val} (hv : v ≠ .end_) (temps : List Val) :
    FKeeps sh (sh.assign S.sts.length loc x v).1 cls cls ∧ FInv X (sh.assign S.sts.length loc x v).1 cls ∧
      (sh.assign S.sts.length loc x v).2.map Prod.fst = loc.map Prod.fst ∧ (∀ q ∈ (sh.assign S.sts.length loc x v).2, q.2 ≠ .end_) ∧
      ∀ {α : Type} (r : FRes W α) (T : Sh W → α → FVM W → Prop),
      FSim F P Q X.code X.K n (mach fr (sh.assign S.sts.length loc x v).1 cls q temps (sh.assign S.sts.length loc x v).2) r T →
      FSim F P Q X.code X.K n (mach fr sh cls p (v :: temps) loc) r T := by
  rcases hl with ⟨i, j, h1, h2, h3, rfl⟩ | ⟨hx, U, k, hU, hk, h3, rfl⟩ | ⟨hx, hx2, hg, i, hi, hK, h3, rfl⟩
  · obtain ⟨h7, h8⟩ := ok.fpEq
    have hsm := ok.small
    have hrun : ∀ {α : Type} (r : FRes W α) (T : Sh W → α → FVM W → Prop),
        FSim F P Q X.code X.K n ⟨⟨p + 2, temps ++ (loc.map Prod.snd ++ (fr.mid ++ sh.statics.map Prod.snd)).set j v, fr.fp, fr.loops, sh.globals, sh.world, sh.out⟩,
          fr.nextFp, fr.frames, cls⟩ r T → FSim F P Q X.code X.K n (mach fr sh cls p (v :: temps) loc) r T := by
      intro α r T hs
      refine FSim.step (fstep_of h3 (step_lstore (i := i) (j := temps.length + j) (v := v) (by omega) h3 ?_ h8)) ?_
      · show fr.fp + i + 1 + (temps.length + j : Nat) + 1 = ((temps ++ (loc.map Prod.snd ++ (fr.mid ++ sh.statics.map Prod.snd))).length : Int)
        rw [List.length_append]; omega
      · rw [List.append_eq, List.set_append_right _ _ (by omega), Nat.add_sub_cancel_left]; exact hs
    have ho := ok.own
    by_cases hm : x ∈ loc.map Prod.fst
    · obtain ⟨j', hj'⟩ := PosOf.of_mem hm
      have hj : j = j' := PosOf.unique (by rw [← ho]; exact h1) (PosOf.append_left hj')
      subst hj
      obtain ⟨u, hu, _, _⟩ := hj'.find
      have ha : sh.assign S.sts.length loc x v = (sh, loc.update x v) := by simp only [Sh.assign, hu]
      rw [ha]
      refine ⟨.refl _ _, inv, update_names _ _ _, update_noEnd _ _ _ ok.lEnd hv, fun r T hs => hrun r T ?_⟩
      simp only [mach, hj'.update] at hs
      rw [List.set_append_left _ _ (by simpa using hj'.lt)]
      exact hs
    · have hp := ok.place
      unfold FramePlace at hp
      unfold SEnv.base at ho
      split at hp
      · rename_i hu
        rw [hu] at ho
        obtain ⟨h4, h5, h6⟩ := hp
        simp only [h4] at ho
        have hxm : x ∈ sh.statics.map Prod.fst := by
          have := h1.mem
          rw [ho] at this
          rcases List.mem_append.1 this with h | h
          · exact absurd h hm
          · exact h
        obtain ⟨j', hj'⟩ := PosOf.of_mem hxm
        have hj : j = (loc.map Prod.fst).length + j' := PosOf.unique (by rw [← ho]; exact h1) (PosOf.append_right hm hj')
        obtain ⟨u, hu2, _, _⟩ := hj'.find
        have ha : sh.assign S.sts.length loc x v = ({ sh with statics := sh.statics.update x v }, loc) := by
          simp only [Sh.assign, find_none hm, h4]
          simp [hu2]
        rw [ha]
        refine ⟨⟨update_names _ _ _, List.prefix_refl _⟩, inv.assigned (update_names _ _ _) rfl rfl inv.gdef inv.gEnd (update_noEnd _ _ _ inv.sEnd hv), rfl,
          ok.lEnd, fun r T hs => hrun r T ?_⟩
        simp only [mach, hj'.update, h5] at hs
        rw [h5]
        rw [List.set_append_right _ _ (by rw [hj]; simp)]
        rw [show j - (loc.map Prod.snd).length = j' by simp [hj]]
        exact hs
      · rename_i U hu
        rw [hu] at ho
        simp at ho
        exact absurd (by rw [← ho]; exact h1.mem) hm
  · obtain ⟨fv, rest, c, e, slots, s, j, u, h4, h5, h6, h7, h8, hk2, h9, h10, h11, _, h12⟩ := ok.upGet hU hk hx
    obtain ⟨h13, h14, h15, h16, h17⟩ := h12 v
    refine ⟨⟨h15, List.prefix_refl _⟩, ?_, by rw [h13], by rw [h13]; exact ok.lEnd, fun r T hs => ?_⟩
    · exact inv.assigned h15 (by rw [h16]) (by rw [h16]) (by rw [h16]; exact inv.gdef) (by rw [h16]; exact inv.gEnd) (h17 inv.sEnd hv)
    · refine FSim.ustore (i := k) (s := s) (j := (temps.length + (loc.length + (fr.mid.length + j)))) (cl := c) (e := e) (slots := slots) (v := v)
        (by omega) h3 ?_ h7 h8 ?_ ?_
      · have := slot_fv (sh := sh) (loc := loc) (temps := v :: temps) (p + 2) h4 h5
        rw [h6] at this
        exact this
      · simp; omega
      · unfold mach at hs
        rw [h13, h14, h16] at hs
        simp only [List.append_eq] at hs ⊢
        rw [List.set_append_right _ _ (by omega), List.set_append_right _ _ (by simp), List.set_append_right _ _ (by simp)]
        simp only [List.length_map]
        rw [show temps.length + (loc.length + (fr.mid.length + j)) - temps.length - loc.length - fr.mid.length = j by omega]
        exact hs
  · obtain ⟨_, h4⟩ := look_global ok hx hx2
    rw [h4 v]
    refine ⟨⟨rfl, List.prefix_refl _⟩, ?_, rfl, ok.lEnd, fun r T hs => ?_⟩
    · refine inv.assigned rfl rfl rfl ?_ ?_ inv.sEnd
      · intro y hy
        dsimp only
        split
        · simp
        · exact inv.gdef y hy
      · intro y u hyu
        dsimp only at hyu
        split at hyu
        · cases hyu; exact hv
        · exact inv.gEnd y u hyu
    · exact FSim.step (fstep_of h3 (step_gstore hi h3 hK)) hs

end
end Yasl
