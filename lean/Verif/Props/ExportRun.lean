import Verif.Model.ExportRun
import Verif.Spec.ExportRun
import Verif.Props.Functions
set_option autoImplicit false
/-! # C126: what a file exports -/
namespace Yasl

variable {W : Type} {F : FloatOps} {P : Prims W} {Q : W → Val → List Val → PRes W (List Val)} {X : FX}

theorem FStmts.decls_cons (st : FStmt) (ss : FStmts) (sts : List Name) : ss.decls ++ (st.decls ++ sts) = (FStmts.cons st ss).decls ++ sts := by
  rw [FStmts.decls, List.append_assoc]

/-- The state of the compiler after the statements of the file. -/
theorem compileFAll_rel : ∀ (ss : FStmts) {s : FState} {sts : List Name} {sc : Scope} (code : List Byte), (compileFAll ss s code).1.c.ok = true → FRel s (VTop sts) →
    s.c.scopes = [sc] → s.c.buffer = [] → FFitsTop sts ss →
    ∃ c, (compileFAll ss s code).2 = code ++ c ∧ FRel (compileFAll ss s code).1 (VTop (ss.decls ++ sts)) ∧ (∃ sc', (compileFAll ss s code).1.c.scopes = [sc']) ∧
      (compileFAll ss s code).1.c.buffer = [] ∧ (compileFAll ss s code).1.origin = s.origin + c.length
  | .nil, s, sts, sc, code, hok, h, hst, hb, hf => by
    rw [compileFAll]
    exact ⟨[], by simp, h, ⟨sc, hst⟩, hb, rfl⟩
  | .cons st ss, s, sts, sc, code, hok, h, hst, hb, hf => by
    rw [compileFAll] at hok ⊢
    dsimp only at hok ⊢
    have hok1 := compileFAll_ok ss _ _ hok
    obtain ⟨c1, g1, l1, o1, r1, ⟨sc1, hs1⟩, k1⟩ := visitFS_top st hok1 h hst ⟨hf.1, trivial⟩
    have hlen : (visitFS st s).len = c1.length := by unfold FState.len; rw [g1.buffer, hb]; rfl
    have hbuf : (visitFS st s).c.buffer = c1 := by rw [g1.buffer, hb]; rfl
    have hrel : FRel { (visitFS st s) with c := { (visitFS st s).c with buffer := [] }, origin := (visitFS st s).origin + (visitFS st s).len } (VTop (st.decls ++ sts)) :=
      r1.of rfl rfl rfl rfl rfl rfl rfl rfl
    obtain ⟨c2, e1, e2, e3, e4, e5⟩ := compileFAll_rel ss (code ++ (visitFS st s).c.buffer) hok hrel hs1 rfl hf.2
    rw [FStmts.decls_cons] at e2
    exact ⟨c1 ++ c2, by rw [e1, hbuf]; simp, e2, e3, e4, by rw [e5]; dsimp only; rw [o1, hlen, List.length_append]; omega⟩

theorem compileFAll_below : ∀ (ss : FStmts) (s : FState) (code : List Byte), s.c.buffer = [] →
    s.origin ≤ (compileFAll ss s code).1.origin ∧
    ∃ l, (compileFAll ss s code).1.log = s.log ++ l ∧ ∀ p ∈ l.filterMap Prod.snd, p < (compileFAll ss s code).1.origin
  | .nil, s, code, _ => by rw [compileFAll]; exact ⟨Nat.le_refl _, [], by simp, by simp⟩
  | .cons st ss, s, code, hb => by
    rw [compileFAll]
    obtain ⟨a1, a2, l1, a3, a4, a5, a6⟩ := visitFS_logs st s
    have hs : s.len = 0 := by unfold FState.len; rw [hb]; rfl
    dsimp only
    obtain ⟨b1, l2, b3, b6⟩ := compileFAll_below ss { (visitFS st s) with c := { (visitFS st s).c with buffer := [] }, origin := (visitFS st s).origin + (visitFS st s).len }
      (code ++ (visitFS st s).c.buffer) rfl
    dsimp only at b1 b3
    refine ⟨by omega, l1 ++ l2, by rw [b3, a3]; simp, ?_⟩
    intro p hp
    rw [List.filterMap_append, List.mem_append] at hp
    rcases hp with hp | hp
    · have := a6 p hp; omega
    · exact b6 p hp

/-- `simTop`, with what is known of the variables of the file at the end. -/
theorem simTopEnd (H : SimHyp P Q X) {n : Nat} {nfp : Int} : ∀ (ss : FStmts) (sts : List Name) (sh : Sh W) (cls : List (Nat × List Nat)) (p q : Nat),
    CodeTop X sts ss p q → sh.statics.map Prod.fst = sts → sts.length ≤ 128 → FInv X sh cls →
    FSim F P Q X.code X.K n (mach (topFrame nfp) sh cls p [] []) (fprog F P Q X.label n ss sh) (TTgt X nfp q (ss.decls ++ sts))
  | .nil, sts, sh, cls, p, q, hc, hs, hl, inv => by
    cases hc
    exact FSim.done ⟨cls, rfl, hs, inv⟩
  | .cons st ss, sts, sh, cls, p, q, hc, hs, hl, inv => by
    obtain ⟨p1, h1, h2⟩ := hc
    rw [fprog, ← FStmts.decls_cons]
    refine (simT H h1 hs hl inv).bind ?_
    rintro sh1 u m1 _ ⟨cls1, rfl, hn, inv1⟩
    exact simTopEnd H ss _ sh1 cls1 p1 q h2 hn (h1.small hl) inv1

/-- The statements of the file, and then an expression. -/
theorem simModule (H : SimHyp P Q X) {n : Nat} {nfp : Int} {prog : FStmts} {e : FExpr} {sh : Sh W} {cls : List (Nat × List Nat)} {p p1 q : Nat}
    (hc : CodeTop X [] prog p p1) (he : CodeE X ⟨prog.decls, prog.decls, none⟩ e false p1 q) (hs : sh.statics = []) (hl : prog.decls.length ≤ 128)
    (inv : FInv X sh cls) :
    FSim F P Q X.code X.K n (mach (topFrame nfp) sh cls p [] []) (fmodule F P Q X.label n prog e sh)
      (fun sh' v m' => ∃ cls', m' = mach (topFrame nfp) sh' cls' q [v] []) := by
  unfold fmodule
  refine (simTopEnd H prog [] sh cls p p1 hc (by rw [hs]; rfl) (by simp) inv).bind ?_
  rintro sh1 u m1 _ ⟨cls1, rfl, hn, inv1⟩
  rw [List.append_nil] at hn
  have hlen : sh1.statics.length = prog.decls.length := by rw [← hn]; simp
  rw [hlen]
  refine (simE (F := F) H (callSem H n) e false ⟨prog.decls, prog.decls, none⟩ (topFrame nfp) [] sh1 cls1 p1 q [] he (topOk nfp hn hl) inv1).mono ?_
  rintro sh2 v m2 - ⟨cls2, rfl, -, -, -⟩
  exact ⟨cls2, rfl⟩

/-- C126: a file `prog; export e; rest` that the compiler accepts, within the limits of C96, can be loaded, and running it does what `prog` means and then
evaluates `e`, unless a limit is reached at run time:

- if both end, the machine reaches the `export` with the value of `e` on the top of its stack, above the variables of the file, and that is the exported value:
  nothing of `rest` is executed;
- if one of them stops with an error, the machine stops with that error, and exports nothing;
- in both cases with the same output, the same values of the global variables, and the same state of the world;
- if it is still running after `n` nested calls or rounds of a loop, the machine is still running after at least that many steps. -/
theorem C126_export_value {W : Type} (F : FloatOps) (P : Prims W) (hP : P.NoEnd) (Q : W → Val → List Val → PRes W (List Val))
    (hQ : ∀ w v args w' rs, Q w v args = (w', .ok rs) → ∀ u ∈ rs, u ≠ Val.end_) (globals : List Name) (prog : FStmts) (e : FExpr) (rest : FStmts)
    (lines image : List Byte) (hc : compileExport globals prog e rest lines = some image) (hlen : image.length < 2 ^ 63) (hF : FFitsTop [] prog)
    (hFe : FFitsE [] [] e) (hFr : FFitsTop prog.decls rest) (hids : (prog.ids ++ (e.ids ++ rest.ids)).Nodup) (G : Name → Option Val)
    (hG : ∀ x ∈ globals, G x ≠ none) (hE : ∀ x v, G x = some v → v ≠ .end_) :
    ∃ label : Nat → Option Nat, (∀ i j a, label i = some a → label j = some a → i = j) ∧ ∀ (w : W) (nextFp : Int),
    ∃ m K, FVM.load image G w nextFp = some (m, K) ∧ ∀ n,
      (∃ k m' e, FVM.run F P Q image K k m = .stop m' e ∧ LimitStop m' e) ∨
      match fmodule F P Q label n prog e ⟨[], G, w, [], fun _ => none, 0⟩ with
      | (t, .ok v) => ∃ k m', FVM.run F P Q image K k m = .next m' ∧ m'.exports image = some v ∧ m'.vm.out = t.out ∧ m'.vm.globals = t.globals ∧
          m'.vm.world = t.world ∧ m'.vm.stack = v :: t.statics.map Prod.snd
      | (t, .error (.err e)) => ∃ k m', FVM.run F P Q image K k m = .stop m' e ∧ m'.vm.out = t.out ∧ m'.vm.globals = t.globals ∧ m'.vm.world = t.world
      | (_, .error .timeout) => ∃ k m', n ≤ k ∧ FVM.run F P Q image K k m = .next m'
      | (_, .error .outside) => True := by
  simp only [compileExport] at hc
  split at hc
  swap
  · cases hc
  rename_i hok
  simp only [Option.some.injEq] at hc
  obtain ⟨hgo, hge, hgs, hgb, hgc, hgh⟩ := declGlobals_spec globals CState.initial (by simp [PoolOk, CState.initial, Scope.get])
    (by simp [CState.HOk, CState.initial])
  replace hge : ∀ x, (CState.initial.declGlobals globals).globals.get x ≠ none → x ∈ globals := by
    intro x hx
    rcases hge x hx with h | h
    · exact h
    · simp [CState.initial, Scope.get] at h
  generalize hs : FState.initial globals = s at hc hok
  have hsc : s.c.scopes = [[]] := by rw [← hs]; show [] :: (CState.initial.declGlobals globals).scopes = _; rw [hgs]; rfl
  have hsg : s.c.globals = (CState.initial.declGlobals globals).globals := by rw [← hs]; rfl
  have hsb : s.c.buffer = [] := by rw [← hs]; exact hgb
  have hlog0 : s.log = [] := by rw [← hs]; rfl
  have horg : s.origin = 0 := by rw [← hs]; rfl
  have hrel : FRel s (VTop []) := by
    refine ⟨?_, ?_, ?_, by simp [VTop.own], by simp [VTop], ?_, ?_, ?_, ?_, ?_, ?_, ?_⟩
    · rw [hsc]; trivial
    · rw [hsc]; rfl
    · rw [hsc]; simp
    · rw [← hs]; rfl
    · rw [← hs]; exact hgo
    · rw [← hs]; exact hgh
    · rw [← hs]; trivial
    · rw [← hs]; rfl
    · rw [← hs]; rfl
    · refine ⟨by rw [← hs]; rfl, rfl, [], [], hsc, rfl, by simp [VTop]⟩
  -- the three parts of the file
  have hok2 := compileFAll_ok rest _ _ hok
  have hok1 : (visitFE e (compileFAll prog s []).1).c.ok = true := hok2
  have hok0 := (visitFE_keep e _).ok hok1
  obtain ⟨c1, hcode1, ⟨hp1, hg1⟩, hl1, -, hspec1⟩ := compileFAll_spec prog [] hok0 hrel hsc hsb hF
  obtain ⟨c1', hcode1', hrel1, ⟨sc1, hsc1⟩, hb1, ho1⟩ := compileFAll_rel prog [] hok0 hrel hsc hsb hF
  obtain ⟨l1, hL1, hL2, hL3, hL4⟩ := compileFAll_logs prog s [] hsb
  obtain ⟨-, l1', hL5, hL6⟩ := compileFAll_below prog s [] hsb
  obtain rfl : l1' = l1 := List.append_cancel_left (hL5.symm.trans hL1)
  rw [List.nil_append] at hcode1 hcode1'
  obtain rfl : c1' = c1 := by rw [← hcode1, ← hcode1']
  rw [List.append_nil] at hrel1
  generalize hr : compileFAll prog s [] = r at *
  obtain ⟨c2, ext, hrel2, hspec2⟩ := (visitFE_spec e hok1 hrel1 hFe).andThen fun h => VRes.emit h opEXPORT
  obtain ⟨hE1, hE2, l2, hE3, hE4, hE5, hE6⟩ := (visitFE_logs e r.1).emit opEXPORT
  have hrl : r.1.len = 0 := by unfold FState.len; rw [hb1]; rfl
  have hve : visitExport e r.1 = (visitFE e r.1).emit opEXPORT := rfl
  rw [hve] at hc hok
  generalize hs2 : (visitFE e r.1).emit opEXPORT = s2 at *
  have hbuf2 : s2.c.buffer = c2 := by rw [ext.grow.buffer, hb1]; rfl
  have hlen2 : s2.len = c2.length := by unfold FState.len; rw [hbuf2]
  have horg2 : s2.origin = c1'.length := by rw [hE1, ho1, horg]; omega
  have hrel3 : FRel { s2 with c := { s2.c with buffer := [] }, origin := s2.origin + s2.len } (VTop prog.decls) :=
    hrel2.of rfl rfl rfl rfl rfl rfl rfl rfl
  have hsc3 : s2.c.scopes = [sc1] := by rw [ext.scopes0, hsc1]
  obtain ⟨c3, hcode3, ⟨hp3, hg3⟩, hl3, hhok, -⟩ := compileFAll_spec rest (r.2 ++ s2.c.buffer) hok hrel3 hsc3 rfl hFr
  obtain ⟨l3, hM1, hM2, hM3, hM4⟩ := compileFAll_logs rest { s2 with c := { s2.c with buffer := [] }, origin := s2.origin + s2.len } (r.2 ++ s2.c.buffer) rfl
  dsimp only at hM1 hM4 hp3 hg3 hl3
  generalize ht : compileFAll rest { s2 with c := { s2.c with buffer := [] }, origin := s2.origin + s2.len } (r.2 ++ s2.c.buffer) = t at *
  rw [hcode1, hbuf2] at hcode3
  have hlog : t.1.log = l1' ++ (l2 ++ l3) := by rw [hM1, hE3, hL1, hlog0]; simp
  have hnd : (t.1.log.map Prod.fst).Nodup := by
    rw [hlog, List.map_append, List.map_append]
    exact hids.sublist (hL2.append (hE4.append hM2))
  have hpos : (t.1.log.filterMap Prod.snd).Nodup := by
    rw [hlog, List.filterMap_append, List.filterMap_append, List.nodup_append, List.nodup_append]
    refine ⟨hL3, ⟨hE5, hM3, fun x hx y hy => ?_⟩, fun x hx y hy => ?_⟩
    · have h1 := hE6 x hx; have h2 := hM4 y hy; omega
    · have h1 := hL6 x hx
      rcases List.mem_append.1 hy with hy | hy
      · have := hE6 y hy; omega
      · have := hM4 y hy; omega
  rw [hcode3, returnBytes, hhok.1] at hc
  generalize hhd : t.1.c.pool.flatMap headerEntry = hd at hc
  have hi1 : image = bytes8 (BitVec.ofNat 64 (hd.length + 24)) ++ (bytes8 (BitVec.ofNat 64 ((c1' ++ c2 ++ c3).length + (hd.length + 24) + 1)) ++
    (bytes8 (BitVec.ofNat 64 t.1.c.pool.length) ++ (hd ++ (c1' ++ (c2 ++ (c3 ++ ([Opc.HALT.byte] ++ lines))))))) := by rw [← hc]; simp
  have hlen' : image.length = hd.length + 24 + c1'.length + c2.length + c3.length + 1 + lines.length := by rw [← hc]; simp; omega
  have hpl : t.1.c.pool.length ≤ hd.length := by rw [← hhd]; exact pool_le_header _ hhok.2
  have hd16 : image.drop 16 = bytes8 (BitVec.ofNat 64 t.1.c.pool.length) ++ (hd ++ (c1' ++ (c2 ++ (c3 ++ ([Opc.HALT.byte] ++ lines))))) := by
    rw [hi1, ← List.append_assoc, List.drop_left' (by simp)]
  have hd24 : image.drop 24 = hd ++ (c1' ++ (c2 ++ (c3 ++ ([Opc.HALT.byte] ++ lines)))) := by
    rw [show 24 = 16 + 8 from rfl, ← List.drop_drop, hd16, List.drop_left' (by simp)]
  have hdc : image.drop (hd.length + 24) = c1' ++ (c2 ++ (c3 ++ ([Opc.HALT.byte] ++ lines))) := by
    rw [Nat.add_comm, ← List.drop_drop, hd24, List.drop_left' (by simp)]
  refine ⟨labelOf t.1.log (hd.length + 24), fun i j a => labelOf_inj hpos, fun w nextFp => ?_⟩
  have hload : VM.load image G w = some ((⟨hd.length + 24, [], -1, [], G, w, []⟩ : VM W), t.1.c.pool) := by
    have h1 : readInt8 image = some (BitVec.ofNat 64 (hd.length + 24)) := by rw [hi1]; exact C19_int_roundtrip _ _
    have h2 : readInt8 (image.drop 16) = some (BitVec.ofNat 64 t.1.c.pool.length) := by rw [hd16]; exact C19_int_roundtrip _ _
    have h3 : (BitVec.ofNat 64 (hd.length + 24)).toNat = hd.length + 24 := by rw [BitVec.toNat_ofNat]; omega
    have h4 : (BitVec.ofNat 64 t.1.c.pool.length).toNat = t.1.c.pool.length := by rw [BitVec.toNat_ofNat]; omega
    simp only [VM.load, h1, h2, h3, h4]
    rw [hd24, ← hhd, readConstants_pool _ hhok.2 _ (by rw [hhd]; omega)]
    rfl
  refine ⟨⟨⟨hd.length + 24, [], -1, [], G, w, []⟩, nextFp, [], []⟩, t.1.c.pool, by rw [FVM.load, hload]; rfl, fun n => ?_⟩
  have hA1 : At image (hd.length + 24) c1' := by unfold At; rw [hdc]; exact List.prefix_append _ _
  have hA2 : At image (hd.length + 24 + c1'.length) c2 := by
    unfold At; rw [← List.drop_drop, hdc, List.drop_left' rfl]; exact List.prefix_append _ _
  have hgs0 : s2.c.globals = s.c.globals := ext.grow.globals.trans hg1
  have hX2 : XOk ⟨image, t.1.c.pool, labelOf t.1.log (hd.length + 24), fun x => t.1.c.globals.get x ≠ none⟩ (hd.length + 24) s2 false none :=
    ⟨hp3, by dsimp only; omega, hlen, fun q hq => labelOf_mem hnd _ q (hl3.subset hq), fun x => by dsimp only; rw [hg3], rfl⟩
  have hX1 : XOk ⟨image, t.1.c.pool, labelOf t.1.log (hd.length + 24), fun x => t.1.c.globals.get x ≠ none⟩ (hd.length + 24) r.1 false none :=
    ⟨ext.grow.prefix.trans hp3, by dsimp only; omega, hlen, fun q hq => labelOf_mem hnd _ q (hl3.subset (ext.log.subset hq)),
      fun x => by dsimp only; rw [hg3, ext.grow.globals], rfl⟩
  have hT := hspec1 _ (hd.length + 24) (hd.length + 24) hX1 (by rw [horg]) (by dsimp only; omega) hA1
  obtain ⟨p1, hCE, hAx, -⟩ := hspec2 _ (hd.length + 24) (hd.length + 24 + c1'.length) none hX2 (by rw [ho1, horg, hrl]; omega) (by dsimp only; omega) hA2
  have := simModule (F := F) (P := P) (Q := Q) ⟨hP, hQ, hlen⟩ (n := n) (nfp := nextFp) (prog := prog) (e := e) (sh := ⟨[], G, w, [], fun _ => none, 0⟩) (cls := [])
    hT hCE rfl hrel1.small ⟨rfl, by simp, fun x hx => hG x (hge x (by rw [← hsg, ← hgs0, ← hg3]; exact hx)), hE, by simp⟩
  rcases this with h | h
  · exact .inl h
  right
  dsimp only at h ⊢
  rcases hx : fmodule F P Q (labelOf t.1.log (hd.length + 24)) n prog e ⟨[], G, w, [], fun _ => none, 0⟩ with ⟨t', e' | v⟩
  · rw [hx] at h
    cases e' with
    | err e =>
      obtain ⟨k, m', hk, h1, h2, h3⟩ := h
      exact ⟨k, m', hk, h2, h3, h1⟩
    | timeout =>
      obtain ⟨k, m', hle, hk, -⟩ := h
      exact ⟨k, m', hle, hk⟩
    | outside => trivial
  · rw [hx] at h
    obtain ⟨k, m', hk, cls', rfl⟩ := h
    refine ⟨k, _, hk, ?_, rfl, rfl, rfl, by simp [mach, topFrame]⟩
    have hb : image[p1]? = some opEXPORT := hAx.head
    simp only [FVM.exports, mach, hb, if_true]
    rfl

/-- At an `export` the model of the machine cannot go on. -/
theorem FVM.exports_step {W : Type} {F : FloatOps} {P : Prims W} {Q : W → Val → List Val → PRes W (List Val)} {code : List Byte} {K : List Val} {m : FVM W} {v : Val}
    (h : m.exports code = some v) : ∃ m', FVM.step F P Q code K m = .stop m' .other := by
  unfold FVM.exports at h
  split at h
  swap
  · cases h
  rename_i b hb
  split at h
  swap
  · cases h
  rename_i hx
  subst hx
  unfold FVM.step FVM.readByte
  rw [hb]
  exact ⟨_, rfl⟩

/-- C126, the converse: whenever the machine reaches an `export`, with a value on the top of its stack, this is the value that the file means, with the output,
the global variables and the world of its meaning (or the program is one about which nothing is said, or an operation of the world failed with `RtErr.other`,
which stands for what is not modelled). -/
theorem C126_machine_exports {W : Type} (F : FloatOps) (P : Prims W) (hP : P.NoEnd) (Q : W → Val → List Val → PRes W (List Val))
    (hQ : ∀ w v args w' rs, Q w v args = (w', .ok rs) → ∀ u ∈ rs, u ≠ Val.end_) (globals : List Name) (prog : FStmts) (e : FExpr) (rest : FStmts)
    (lines image : List Byte) (hc : compileExport globals prog e rest lines = some image) (hlen : image.length < 2 ^ 63) (hF : FFitsTop [] prog)
    (hFe : FFitsE [] [] e) (hFr : FFitsTop prog.decls rest) (hids : (prog.ids ++ (e.ids ++ rest.ids)).Nodup) (G : Name → Option Val)
    (hG : ∀ x ∈ globals, G x ≠ none) (hE : ∀ x v, G x = some v → v ≠ .end_) :
    ∃ label : Nat → Option Nat, (∀ i j a, label i = some a → label j = some a → i = j) ∧ ∀ (w : W) (nextFp : Int) (m : FVM W) (K : List Val)
      (_ : FVM.load image G w nextFp = some (m, K)) (k : Nat) (m' : FVM W) (v : Val), FVM.run F P Q image K k m = .next m' → m'.exports image = some v →
      ∃ n t, (fmodule F P Q label n prog e ⟨[], G, w, [], fun _ => none, 0⟩ = (t, .ok v) ∧ m'.vm.out = t.out ∧ m'.vm.globals = t.globals ∧
          m'.vm.world = t.world ∧ m'.vm.stack = v :: t.statics.map Prod.snd) ∨
        fmodule F P Q label n prog e ⟨[], G, w, [], fun _ => none, 0⟩ = (t, .error .outside) ∨
        fmodule F P Q label n prog e ⟨[], G, w, [], fun _ => none, 0⟩ = (t, .error (.err .other)) := by
  obtain ⟨label, hinj, h⟩ := C126_export_value F P hP Q hQ globals prog e rest lines image hc hlen hF hFe hFr hids G hG hE
  refine ⟨label, hinj, fun w nextFp m K hload k m' v hrun hv => ?_⟩
  obtain ⟨m0, K0, h1, h2⟩ := h w nextFp
  rw [hload] at h1
  simp only [Option.some.injEq, Prod.mk.injEq] at h1
  obtain ⟨rfl, rfl⟩ := h1
  obtain ⟨m2, hstep⟩ := FVM.exports_step (F := F) (P := P) (Q := Q) (K := K) hv
  have hstop : FVM.run F P Q image K (k + 1) m = .stop m2 .other := by rw [FVM.run_add, hrun]; simp only [FVM.run_one, hstep]
  rcases h2 (k + 2) with ⟨j, m1, e1, h3, h4⟩ | h2
  · obtain ⟨rfl, rfl⟩ := FVM.run_stop_unique hstop h3
    exact absurd h4 (by simp [LimitStop])
  · rcases hx : fmodule F P Q label (k + 2) prog e ⟨[], G, w, [], fun _ => none, 0⟩ with ⟨t, (e1 | _ | _) | u⟩
    · rw [hx] at h2
      obtain ⟨j, m1, h3, h4⟩ := h2
      obtain ⟨rfl, rfl⟩ := FVM.run_stop_unique hstop h3
      exact ⟨k + 2, t, .inr (.inr hx)⟩
    · rw [hx] at h2
      obtain ⟨j, m1, h3, h4⟩ := h2
      obtain ⟨d, rfl⟩ := Nat.exists_eq_add_of_le h3
      rw [show k + 2 + d = (k + 1) + (1 + d) by omega, FVM.run_add, hstop] at h4
      cases h4
    · exact ⟨k + 2, t, .inr (.inl hx)⟩
    · rw [hx] at h2
      obtain ⟨j, m1, h3, hv1, h4⟩ := h2
      obtain ⟨m3, hstep1⟩ := FVM.exports_step (F := F) (P := P) (Q := Q) (K := K) hv1
      have hjk : j = k := by
        rcases Nat.lt_trichotomy j k with hlt | heq | hgt
        · obtain ⟨d, rfl⟩ := Nat.exists_eq_add_of_lt hlt
          rw [Nat.add_assoc, FVM.run_add, h3, Nat.add_comm d 1] at hrun
          dsimp only at hrun
          rw [FVM.run_add] at hrun
          simp only [FVM.run_one, hstep1] at hrun
          cases hrun
        · exact heq
        · obtain ⟨d, rfl⟩ := Nat.exists_eq_add_of_lt hgt
          rw [show k + d + 1 = (k + 1) + d by omega, FVM.run_add, hstop] at h3
          cases h3
      subst hjk
      rw [hrun] at h3
      cases h3
      rw [hv] at hv1
      cases hv1
      exact ⟨j + 2, t, .inl ⟨hx, h4⟩⟩

/-- C126: a file without an `export` exports nothing (`require` then reports an error): its machine never reaches one, even with a value on the stack (unless the
program is one about which nothing is said, or an operation of the world failed with `RtErr.other`, which stands for what is not modelled). -/
theorem C126_no_export {W : Type} (F : FloatOps) (P : Prims W) (hP : P.NoEnd) (Q : W → Val → List Val → PRes W (List Val))
    (hQ : ∀ w v args w' rs, Q w v args = (w', .ok rs) → ∀ u ∈ rs, u ≠ Val.end_) (globals : List Name) (prog : FStmts) (lines image : List Byte)
    (hc : compileF globals prog lines = some image) (hlen : image.length < 2 ^ 63) (hF : FFitsTop [] prog) (hids : prog.ids.Nodup) (G : Name → Option Val)
    (hG : ∀ x ∈ globals, G x ≠ none) (hE : ∀ x v, G x = some v → v ≠ .end_) :
    ∃ label : Nat → Option Nat, (∀ i j a, label i = some a → label j = some a → i = j) ∧ ∀ (w : W) (nextFp : Int) (m : FVM W) (K : List Val)
      (_ : FVM.load image G w nextFp = some (m, K)) (k : Nat) (m' : FVM W), FVM.run F P Q image K k m = .next m' → m'.exports image ≠ none →
      ∃ n t, fprog F P Q label n prog ⟨[], G, w, [], fun _ => none, 0⟩ = (t, .error .outside) ∨
        fprog F P Q label n prog ⟨[], G, w, [], fun _ => none, 0⟩ = (t, .error (.err .other)) := by
  obtain ⟨label, hinj, h⟩ := C96_machine_stops F P hP Q hQ globals prog lines image hc hlen hF hids G hG hE
  refine ⟨label, hinj, fun w nextFp m K hload k m' hrun hv => ?_⟩
  obtain ⟨v, hv⟩ := Option.ne_none_iff_exists'.1 hv
  obtain ⟨m2, hstep⟩ := FVM.exports_step (F := F) (P := P) (Q := Q) (K := K) hv
  have hstop : FVM.run F P Q image K (k + 1) m = .stop m2 .other := by rw [FVM.run_add, hrun]; simp only [FVM.run_one, hstep]
  obtain ⟨n, t, h1 | ⟨h1 | ⟨h1, -⟩, -⟩⟩ := h w nextFp m K hload (k + 1) m2 .other hstop (by simp [LimitStop])
  · exact ⟨n, t, .inl h1⟩
  · exact ⟨n, t, .inr h1⟩
  · cases h1

/-! ## Examples -/

/-- `let k = 4; fn f(n) { k = k + 1; return n * k; }` -/
def demoMod : FStmts := .of [
  .let_ [107] (.lit (.int 4)),
  .fnDecl [102] 0 [[110]] (.of [
    .assign [107] (.bin (.op .add) (.var [107]) (.lit (.int 1))),
    .ret (.ctx true (.bin (.op .mul) (.var [110]) (.var [107])))])]

/-- `f(3) + k` -/
def demoModE : FExpr := .bin (.op .add) (.call (.var [102]) (.of [.lit (.int 3)])) (.var [107])

/-- Compile a module, load it and run it for some steps: what was printed, and what is exported. -/
def demoRunMod (prog : FStmts) (e : FExpr) (rest : FStmts) (steps : Nat) : Option (List Byte × Option Val) :=
  (compileExport [[99]] prog e rest []).bind fun image => (FVM.load image demoGlobF () 0).bind fun (m, K) =>
    match FVM.run demoFloat demoPrims demoQ image K steps m with
    | .stop _ _ => none
    | .next m => some (m.vm.out, m.exports image)

/-- What it exports according to its meaning. -/
def demoMeaningMod (prog : FStmts) (e : FExpr) (n : Nat) : Option Val :=
  match fmodule demoFloat demoPrims demoQ (fun _ => none) n prog e ⟨[], demoGlobF, (), [], fun _ => none, 0⟩ with
  | (_, .ok v) => some v
  | _ => none

/-- The number of steps after which the machine is at the `export`. -/
def demoModSteps (prog : FStmts) (e : FExpr) (rest : FStmts) (bound : Nat) : Option Nat :=
  (List.range bound).find? fun k => match demoRunMod prog e rest k with
    | some (_, some _) => true
    | _ => false

/-- The module `let k = 4; fn f(n) { … } export f(3) + k; echo k; fn g() { return 1; }` meets the conditions of `C126_export_value`; it exports 3 * 5 + 5
and prints nothing. -/
example :
    let rest : FStmts := .of [.echo (.var [107]), .fnDecl [103] 1 [] (.of [.ret (.ctx true (.lit (.int 1)))])]
    FFitsTop [] demoMod ∧ FFitsE [] [] demoModE ∧ FFitsTop demoMod.decls rest ∧ (demoMod.ids ++ (demoModE.ids ++ rest.ids)).Nodup ∧
    (compileExport [[99]] demoMod demoModE rest []).isSome = true ∧ demoMeaningMod demoMod demoModE 20 = some (.int 20) ∧
    (demoModSteps demoMod demoModE rest 100).bind (demoRunMod demoMod demoModE rest) = some ([], some (.int 20)) := by
  refine ⟨?_, ?_, ?_, by decide +kernel, by decide +kernel, by decide +kernel, by decide +kernel⟩
  · simp [demoMod, FStmts.of, FFitsTop, FFitsS, FFitsSs, FFitsE, FStmts.decls, FStmt.decls]
  · simp [demoModE, FExprs.of, FFitsE, FFitsEs]
  · simp [demoMod, FStmts.of, FFitsTop, FFitsS, FFitsSs, FFitsE, FStmts.decls, FStmt.decls]

end Yasl
