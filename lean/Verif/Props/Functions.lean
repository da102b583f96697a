import Verif.Proofs.FLogs
import Verif.Props.Compile
set_option autoImplicit false
/-! # Programs with functions run as written: C96 -/
namespace Yasl

/-- The positions of the functions, from the log of the compiler. -/
def labelOf (log : List (Nat × Option Nat)) (base : Nat) (id : Nat) : Option Nat := (log.find? fun q => q.1 = id).bind fun q => q.2.map (base + ·)

theorem find_nodup : ∀ {log : List (Nat × Option Nat)}, (log.map Prod.fst).Nodup → ∀ q ∈ log, log.find? (fun p => p.1 = q.1) = some q
  | [], _, q, hq => by simp at hq
  | p :: log, h, q, hq => by
    rw [List.map_cons, List.nodup_cons] at h
    rw [List.find?_cons]
    rcases List.mem_cons.1 hq with rfl | hq
    · simp
    · have hne : p.1 ≠ q.1 := by
        intro he; apply h.1; rw [he]; exact List.mem_map_of_mem hq
      simp only [hne, decide_false]
      exact find_nodup h.2 q hq

theorem labelOf_mem {log : List (Nat × Option Nat)} (h : (log.map Prod.fst).Nodup) (base : Nat) : ∀ q ∈ log, labelOf log base q.1 = q.2.map (base + ·) := by
  intro q hq
  rw [labelOf, find_nodup h q hq]; rfl

theorem snd_unique : ∀ {log : List (Nat × Option Nat)}, (log.filterMap Prod.snd).Nodup → ∀ p q (a : Nat), p ∈ log → q ∈ log → p.2 = some a → q.2 = some a → p = q
  | [], _, p, q, a, hp, _, _, _ => by simp at hp
  | r :: log, h, p, q, a, hp, hq, h1, h2 => by
    have key : ∀ s ∈ log, s.2 = some a → r.2 = some a → False := by
      intro s hs h3 h4
      rw [List.filterMap_cons, h4] at h
      simp only [List.nodup_cons] at h
      exact h.1 (List.mem_filterMap.2 ⟨s, hs, h3⟩)
    rcases List.mem_cons.1 hp with rfl | hp' <;> rcases List.mem_cons.1 hq with rfl | hq'
    · rfl
    · exact (key q hq' h2 h1).elim
    · exact (key p hp' h1 h2).elim
    · have hn : (log.filterMap Prod.snd).Nodup := by
        cases hr : r.2 with
        | none => rw [List.filterMap_cons, hr] at h; exact h
        | some b => rw [List.filterMap_cons, hr] at h; exact (List.nodup_cons.1 h).2
      exact snd_unique hn p q a hp' hq' h1 h2

theorem labelOf_inj {log : List (Nat × Option Nat)} (h2 : (log.filterMap Prod.snd).Nodup) {base i j a : Nat}
    (hi : labelOf log base i = some a) (hj : labelOf log base j = some a) : i = j := by
  unfold labelOf at hi hj
  rw [Option.bind_eq_some_iff] at hi hj
  obtain ⟨p, hp, hp2⟩ := hi
  obtain ⟨q, hq, hq2⟩ := hj
  rw [Option.map_eq_some_iff] at hp2 hq2
  obtain ⟨b, hb, hb2⟩ := hp2
  obtain ⟨c, hc, hc2⟩ := hq2
  have hbc : b = c := by omega
  subst hbc
  have := snd_unique h2 p q b (List.mem_of_find?_eq_some hp) (List.mem_of_find?_eq_some hq) hb hc
  have e1 := List.find?_some hp
  have e2 := List.find?_some hq
  simp only [decide_eq_true_eq] at e1 e2
  rw [← e1, ← e2, this]

/-- C96: if the compiler accepts a program with functions which respects the limits of the implementation (`FFitsTop`: in particular functions use only their
own variables, those of the file, and globals), then the bytecode can be loaded, and running it does what the program means, whatever the operations of the
world and the C functions do, unless a limit is reached at run time: the stack is full, 1000 calls or 16 loops over collections are active (`LimitStop`).

- If the program ends, the machine halts, with the values of the variables of the file on the stack and nothing else;
- if the program stops with an error, the machine stops with that error;
- in both cases with the same output, the same values of the global variables, and the same state of the world;
- if the program is still running after `n` nested calls or rounds of a loop, the machine is still running after at least that many steps;
- nothing is said about a program that calls a function value which it did not make, and about C functions which return several values where
  all of them are taken (`FErr.outside`).

`label` says which function literals have a fixed value; different ones have different values. -/
theorem C96_functions {W : Type} (F : FloatOps) (P : Prims W) (hP : P.NoEnd) (Q : W → Val → List Val → PRes W (List Val))
    (hQ : ∀ w v args w' rs, Q w v args = (w', .ok rs) → ∀ u ∈ rs, u ≠ Val.end_) (globals : List Name) (prog : FStmts) (lines image : List Byte)
    (hc : compileF globals prog lines = some image) (hlen : image.length < 2 ^ 63) (hF : FFitsTop [] prog) (hids : prog.ids.Nodup) (G : Name → Option Val)
    (hG : ∀ x ∈ globals, G x ≠ none) (hE : ∀ x v, G x = some v → v ≠ .end_) :
    ∃ label : Nat → Option Nat, (∀ i j a, label i = some a → label j = some a → i = j) ∧ ∀ (w : W) (nextFp : Int),
    ∃ m K, FVM.load image G w nextFp = some (m, K) ∧ ∀ n,
      (∃ k m' e, FVM.run F P Q image K k m = .stop m' e ∧ LimitStop m' e) ∨
      match fprog F P Q label n prog ⟨[], G, w, [], fun _ => none, 0⟩ with
      | (t, .ok ()) => ∃ k m', FVM.run F P Q image K k m = .stop m' .halt ∧ m'.vm.out = t.out ∧ m'.vm.globals = t.globals ∧ m'.vm.world = t.world ∧
          m'.vm.stack = t.statics.map Prod.snd
      | (t, .error (.err e)) => ∃ k m', FVM.run F P Q image K k m = .stop m' e ∧ m'.vm.out = t.out ∧ m'.vm.globals = t.globals ∧ m'.vm.world = t.world
      | (_, .error .timeout) => ∃ k m', n ≤ k ∧ FVM.run F P Q image K k m = .next m'
      | (_, .error .outside) => True := by
  simp only [compileF] at hc
  split at hc
  swap
  · cases hc
  rename_i hok
  simp only [Option.some.injEq] at hc
  obtain ⟨hgo, hge, hgs, hgb, hgc, hgh⟩ := declGlobals_spec globals CState.initial (by simp [PoolOk, CState.initial, Scope.get])
    (by simp [CState.HOk, CState.initial])
  replace hge : ∀ x, (CState.initial.declGlobals globals).globals.get x ≠ none → x ∈ globals := by
    intro x hx
    rcases hge x hx with h | h
    · exact h
    · simp [CState.initial, Scope.get] at h
  generalize hs : FState.initial globals = s at hc hok
  have hsc : s.c.scopes = [[]] := by rw [← hs]; show [] :: (CState.initial.declGlobals globals).scopes = _; rw [hgs]; rfl
  have hsg : s.c.globals = (CState.initial.declGlobals globals).globals := by rw [← hs]; rfl
  have hsb : s.c.buffer = [] := by rw [← hs]; exact hgb
  have hlog0 : s.log = [] := by rw [← hs]; rfl
  have horg : s.origin = 0 := by rw [← hs]; rfl
  have hrel : FRel s (VTop []) := by
    refine ⟨?_, ?_, ?_, by simp [VTop.own], by simp [VTop], ?_, ?_, ?_, ?_, ?_, ?_, ?_⟩
    · rw [hsc]; trivial
    · rw [hsc]; rfl
    · rw [hsc]; simp
    · rw [← hs]; rfl
    · rw [← hs]; exact hgo
    · rw [← hs]; exact hgh
    · rw [← hs]; trivial
    · rw [← hs]; rfl
    · rw [← hs]; rfl
    · refine ⟨by rw [← hs]; rfl, rfl, [], [], hsc, rfl, by simp [VTop]⟩
  obtain ⟨c, hcode, ⟨hpp, hgg⟩, -, hhok, hspec⟩ := compileFAll_spec prog [] hok hrel hsc hsb hF
  obtain ⟨l, hl1, hl2, hl3, hl4⟩ := compileFAll_logs prog s [] hsb
  rw [hlog0, List.nil_append] at hl1
  rw [List.nil_append] at hcode
  generalize hr : compileFAll prog s [] = r at *
  rw [hcode, returnBytes, hhok.1] at hc
  generalize hhd : r.1.c.pool.flatMap headerEntry = hd at hc
  have hlen' : image.length = hd.length + 24 + c.length + 1 + lines.length := by rw [← hc]; simp; omega
  have hpl : r.1.c.pool.length ≤ hd.length := by rw [← hhd]; exact pool_le_header _ hhok.2
  have hi1 : image = bytes8 (BitVec.ofNat 64 (hd.length + 24)) ++ (bytes8 (BitVec.ofNat 64 (c.length + (hd.length + 24) + 1)) ++
    (bytes8 (BitVec.ofNat 64 r.1.c.pool.length) ++ (hd ++ (c ++ ([Opc.HALT.byte] ++ lines))))) := by rw [← hc]; simp
  have hd16 : image.drop 16 = bytes8 (BitVec.ofNat 64 r.1.c.pool.length) ++ (hd ++ (c ++ ([Opc.HALT.byte] ++ lines))) := by
    rw [hi1, ← List.append_assoc, List.drop_left' (by simp)]
  have hd24 : image.drop 24 = hd ++ (c ++ ([Opc.HALT.byte] ++ lines)) := by
    rw [show 24 = 16 + 8 from rfl, ← List.drop_drop, hd16, List.drop_left' (by simp)]
  have hdc : image.drop (hd.length + 24) = c ++ ([Opc.HALT.byte] ++ lines) := by
    rw [Nat.add_comm, ← List.drop_drop, hd24, List.drop_left' (by simp)]
  have hids' : (r.1.log.map Prod.fst).Nodup := by rw [hl1]; exact hids.sublist hl2
  refine ⟨labelOf r.1.log (hd.length + 24), fun i j a => labelOf_inj (by rw [hl1]; exact hl3), fun w nextFp => ?_⟩
  have hload : VM.load image G w = some ((⟨hd.length + 24, [], -1, [], G, w, []⟩ : VM W), r.1.c.pool) := by
    have h1 : readInt8 image = some (BitVec.ofNat 64 (hd.length + 24)) := by rw [hi1]; exact C19_int_roundtrip _ _
    have h2 : readInt8 (image.drop 16) = some (BitVec.ofNat 64 r.1.c.pool.length) := by rw [hd16]; exact C19_int_roundtrip _ _
    have h3 : (BitVec.ofNat 64 (hd.length + 24)).toNat = hd.length + 24 := by rw [BitVec.toNat_ofNat]; omega
    have h4 : (BitVec.ofNat 64 r.1.c.pool.length).toNat = r.1.c.pool.length := by rw [BitVec.toNat_ofNat]; omega
    simp only [VM.load, h1, h2, h3, h4]
    rw [hd24, ← hhd, readConstants_pool _ hhok.2 _ (by rw [hhd]; omega)]
    rfl
  refine ⟨⟨⟨hd.length + 24, [], -1, [], G, w, []⟩, nextFp, [], []⟩, r.1.c.pool, by rw [FVM.load, hload]; rfl, fun n => ?_⟩
  have hAc : At image (hd.length + 24) c := by unfold At; rw [hdc]; exact List.prefix_append _ _
  have hAh : At image (hd.length + 24 + c.length) (Opc.HALT.byte :: lines) := by
    unfold At; rw [← List.drop_drop, hdc, List.drop_left' rfl]; exact List.prefix_rfl
  have hX := hspec ⟨image, r.1.c.pool, labelOf r.1.log (hd.length + 24), fun x => r.1.c.globals.get x ≠ none⟩ (hd.length + 24) (hd.length + 24)
    ⟨List.prefix_refl _, by dsimp only; omega, hlen, labelOf_mem hids' _, fun x => Iff.rfl, rfl⟩ (by rw [horg]) (by dsimp only; omega) hAc
  have := simTop (F := F) (P := P) (Q := Q) ⟨hP, hQ, hlen⟩ (n := n) (nfp := nextFp) prog [] ⟨[], G, w, [], fun _ => none, 0⟩ [] _ _ hX rfl (by simp)
    ⟨rfl, by simp, fun x hx => hG x (hge x (by rw [← hsg, ← hgg]; exact hx)), hE, by simp⟩
  rcases this with h | h
  · exact .inl h
  right
  dsimp only at h ⊢
  rcases hx : fprog F P Q (labelOf r.1.log (hd.length + 24)) n prog ⟨[], G, w, [], fun _ => none, 0⟩ with ⟨t, e | u⟩
  · rw [hx] at h
    cases e with
    | err e =>
      obtain ⟨k, m', hk, h1, h2, h3⟩ := h
      exact ⟨k, m', hk, h2, h3, h1⟩
    | timeout =>
      obtain ⟨k, m', hle, hk, -⟩ := h
      exact ⟨k, m', hle, hk⟩
    | outside => trivial
  · rw [hx] at h
    obtain ⟨k, m', hk, cls', rfl⟩ := h
    have hrun := FVM.run_add (F := F) (P := P) (Q := Q) (code := image) (K := r.1.c.pool) k 1 ⟨⟨hd.length + 24, [], -1, [], G, w, []⟩, nextFp, [], []⟩
    have hk' : FVM.run F P Q image r.1.c.pool k ⟨⟨hd.length + 24, [], -1, [], G, w, []⟩, nextFp, [], []⟩ = _ := hk
    rw [hk'] at hrun
    simp only [FVM.run_one, mach] at hrun
    rw [fstep_of hAh (step_halt hAh)] at hrun
    exact ⟨k + 1, _, hrun, rfl, rfl, rfl, by simp [topFrame]⟩

theorem FVM.run_stop_unique {W : Type} {F : FloatOps} {P : Prims W} {Q : W → Val → List Val → PRes W (List Val)} {code : List Byte} {K : List Val} {m m1 m2 : FVM W}
    {e1 e2 : RtErr} {k j : Nat} (h1 : FVM.run F P Q code K k m = .stop m1 e1) (h2 : FVM.run F P Q code K j m = .stop m2 e2) : m1 = m2 ∧ e1 = e2 := by
  rcases Nat.le_total k j with h | h
  · obtain ⟨d, rfl⟩ := Nat.exists_eq_add_of_le h
    rw [FVM.run_add, h1] at h2
    simpa using h2
  · obtain ⟨d, rfl⟩ := Nat.exists_eq_add_of_le h
    rw [FVM.run_add, h2] at h1
    simp at h1
    exact ⟨h1.1.symm, h1.2.symm⟩

/-- C96, the converse: whenever the machine stops, and not because of a limit, the program has stopped in the same way, with the same output, globals and
world (or is one about which nothing is said). -/
theorem C96_machine_stops {W : Type} (F : FloatOps) (P : Prims W) (hP : P.NoEnd) (Q : W → Val → List Val → PRes W (List Val))
    (hQ : ∀ w v args w' rs, Q w v args = (w', .ok rs) → ∀ u ∈ rs, u ≠ Val.end_) (globals : List Name) (prog : FStmts) (lines image : List Byte)
    (hc : compileF globals prog lines = some image) (hlen : image.length < 2 ^ 63) (hF : FFitsTop [] prog) (hids : prog.ids.Nodup) (G : Name → Option Val)
    (hG : ∀ x ∈ globals, G x ≠ none) (hE : ∀ x v, G x = some v → v ≠ .end_) :
    ∃ label : Nat → Option Nat, (∀ i j a, label i = some a → label j = some a → i = j) ∧ ∀ (w : W) (nextFp : Int) (m : FVM W) (K : List Val)
      (_ : FVM.load image G w nextFp = some (m, K)) (k : Nat) (m' : FVM W) (e : RtErr), FVM.run F P Q image K k m = .stop m' e → ¬ LimitStop m' e →
      ∃ n t, (fprog F P Q label n prog ⟨[], G, w, [], fun _ => none, 0⟩ = (t, .error .outside)) ∨
        ((fprog F P Q label n prog ⟨[], G, w, [], fun _ => none, 0⟩ = (t, .error (.err e)) ∨
          (e = .halt ∧ fprog F P Q label n prog ⟨[], G, w, [], fun _ => none, 0⟩ = (t, .ok ()))) ∧
        m'.vm.out = t.out ∧ m'.vm.globals = t.globals ∧ m'.vm.world = t.world) := by
  obtain ⟨label, hinj, h⟩ := C96_functions F P hP Q hQ globals prog lines image hc hlen hF hids G hG hE
  refine ⟨label, hinj, fun w nextFp m K hload k m' e hrun hlim => ?_⟩
  obtain ⟨m0, K0, h1, h2⟩ := h w nextFp
  rw [hload] at h1
  simp only [Option.some.injEq, Prod.mk.injEq] at h1
  obtain ⟨rfl, rfl⟩ := h1
  rcases h2 (k + 1) with ⟨j, m1, e1, h3, h4⟩ | h2
  · obtain ⟨rfl, rfl⟩ := FVM.run_stop_unique hrun h3
    exact (hlim h4).elim
  · rcases hx : fprog F P Q label (k + 1) prog ⟨[], G, w, [], fun _ => none, 0⟩ with ⟨t, (e1 | _ | _) | u⟩
    · rw [hx] at h2
      obtain ⟨j, m1, h3, h4⟩ := h2
      obtain ⟨rfl, rfl⟩ := FVM.run_stop_unique hrun h3
      exact ⟨k + 1, t, .inr ⟨.inl hx, h4⟩⟩
    · rw [hx] at h2
      obtain ⟨j, m1, h3, h4⟩ := h2
      obtain ⟨d, rfl⟩ := Nat.exists_eq_add_of_le h3
      rw [show k + 1 + d = k + (1 + d) by omega, FVM.run_add, hrun] at h4
      cases h4
    · exact ⟨k + 1, t, .inl hx⟩
    · rw [hx] at h2
      obtain ⟨j, m1, h3, h4, h5, h6, -⟩ := h2
      obtain ⟨rfl, rfl⟩ := FVM.run_stop_unique hrun h3
      exact ⟨k + 1, t, .inr ⟨.inr ⟨rfl, hx⟩, h4, h5, h6⟩⟩

/-! ## Examples -/

/-- Statements from a list. -/
def FStmts.of : List FStmt → FStmts
  | [] => .nil
  | s :: ss => .cons s (FStmts.of ss)

/-- Expressions from a list. -/
def FExprs.of : List FExpr → FExprs
  | [] => .nil
  | e :: es => .cons e (FExprs.of es)

/-- C functions for examples: one that returns 10 and 20. -/
def demoQ : Unit → Val → List Val → PRes Unit (List Val)
  | _, _, _ => ((), .ok [.int 10, .int 20])

/-- Globals for examples: `c` is the C function. -/
def demoGlobF : Name → Option Val := fun x => if x = [99] then some (.ref .cfn 0) else none

/-- Compile, load and run for some steps: what was printed, and how the machine stopped. -/
def demoRunF (prog : FStmts) (steps : Nat) : Option (List Byte × RtErr) :=
  (compileF [[99]] prog []).bind fun image => (FVM.load image demoGlobF () 0).bind fun (m, K) =>
    match FVM.run demoFloat demoPrims demoQ image K steps m with
    | .stop m e => some (m.vm.out, e)
    | .next _ => none

/-- What the program prints according to its meaning, and how it ends. -/
def demoMeaningF (prog : FStmts) (n : Nat) : List Byte × Except FErr Unit :=
  let r := fprog demoFloat demoPrims demoQ (fun _ => none) n prog ⟨[], demoGlobF, (), [], fun _ => none, 0⟩
  (r.1.out, r.2)

/-- Is the result that the program ended, with this output? -/
def endedWith (r : List Byte × Except FErr Unit) (out : List Byte) : Bool :=
  r.1 == out && match r.2 with
    | .ok _ => true
    | .error _ => false

/-- `let k = 0; fn f(n) { k = k + 1; if n < 2 { return 1; } return n * f(n - 1); } echo f(4); echo k;` -/
def demoRec : FStmts := .of [
  .let_ [107] (.lit (.int 0)),
  .fnDecl [102] 0 [[110]] (.of [
    .assign [107] (.bin (.op .add) (.var [107]) (.lit (.int 1))),
    .ifThen (.bin (.op .lt) (.var [110]) (.lit (.int 2))) (.block (.of [.ret (.ctx true (.lit (.int 1)))])),
    .ret (.ctx true (.bin (.op .mul) (.var [110]) (.call (.var [102]) (.of [.bin (.op .sub) (.var [110]) (.lit (.int 1))]))))]),
  .echo (.call (.var [102]) (.of [.lit (.int 4)])),
  .echo (.var [107])]

/-- The program meets the conditions of `C96_functions`; it prints 24 and 4. -/
example : FFitsTop [] demoRec ∧ demoRec.ids.Nodup ∧ (compileF [[99]] demoRec []).isSome = true ∧ endedWith (demoMeaningF demoRec 20) [50, 52, 10, 52, 10] = true ∧
    demoRunF demoRec 1000 = some ([50, 52, 10, 52, 10], .halt) := by
  refine ⟨?_, by decide +kernel, by decide +kernel, by decide +kernel, by decide +kernel⟩
  simp [demoRec, FStmts.of, FExprs.of, FFitsTop, FFitsS, FFitsSs, FFitsE, FFitsEs, FStmts.decls, FStmt.decls]

/-- `fn s(n) { let t = 0; for let i = 0; i < n; i = i + 1 { if i == 2 { continue; } t = t + i; } return t; } echo s(5);` -/
def demoFor : FStmts := .of [
  .fnDecl [115] 0 [[110]] (.of [
    .let_ [116] (.lit (.int 0)),
    .block (.of [
      .let_ [105] (.lit (.int 0)),
      .loop (.bin (.op .lt) (.var [105]) (.var [110]))
        (.block (.of [
          .ifThen (.bin (.op .eq) (.var [105]) (.lit (.int 2))) (.block (.of [.cont])),
          .assign [116] (.bin (.op .add) (.var [116]) (.var [105]))]))
        (.assign [105] (.bin (.op .add) (.var [105]) (.lit (.int 1))))]),
    .ret (.ctx true (.var [116]))]),
  .echo (.call (.var [115]) (.of [.lit (.int 5)]))]

/-- A loop with three parts and a `continue`, in a function: `continue` does not skip `i = i + 1`; the program prints 0 + 1 + 3 + 4. -/
example : FFitsTop [] demoFor ∧ demoFor.ids.Nodup ∧ (compileF [[99]] demoFor []).isSome = true ∧ endedWith (demoMeaningF demoFor 30) [56, 10] = true ∧
    demoRunF demoFor 1000 = some ([56, 10], .halt) := by
  refine ⟨?_, by decide +kernel, by decide +kernel, by decide +kernel, by decide +kernel⟩
  simp [demoFor, FStmts.of, FExprs.of, FFitsTop, FFitsS, FFitsSs, FFitsE, FFitsEs, FStmts.decls, FStmt.decls]

/-- `let x, y = 3, 4; x, y = y, x; echo x; fn g(n) { let a, const b = n, n * 10; let k = 0; a, k, const z = b, a, k; return a + k; } echo g(y);` -/
def demoSwap : FStmts := .of [
  .multi [.let_ [120], .let_ [121]] (.of [.lit (.int 3), .lit (.int 4)]),
  .multi [.assign [120], .assign [121]] (.of [.var [121], .var [120]]),
  .echo (.var [120]),
  .fnDecl [103] 0 [[110]] (.of [
    .multi [.let_ [97], .const_ [98]] (.of [.var [110], .bin (.op .mul) (.var [110]) (.lit (.int 10))]),
    .let_ [107] (.lit (.int 0)),
    .multi [.assign [97], .assign [107], .const_ [122]] (.of [.var [98], .var [97], .var [107]]),
    .ret (.ctx true (.bin (.op .add) (.var [97]) (.var [107])))]),
  .echo (.call (.var [103]) (.of [.var [121]]))]

/-- Several names at once, at the top level and in a function: all the right sides are evaluated before anything is stored; the program prints 4 and 30 + 3. -/
example : FFitsTop [] demoSwap ∧ demoSwap.ids.Nodup ∧ (compileF [[99]] demoSwap []).isSome = true ∧ endedWith (demoMeaningF demoSwap 30) [52, 10, 51, 51, 10] = true ∧
    demoRunF demoSwap 1000 = some ([52, 10, 51, 51, 10], .halt) := by
  refine ⟨?_, by decide +kernel, by decide +kernel, by decide +kernel, by decide +kernel⟩
  simp [demoSwap, FStmts.of, FExprs.of, FFitsTop, FFitsS, FFitsSs, FFitsE, FFitsEs, FStmts.decls, FStmt.decls, declsL, FFitsL, FExprs.length]

/-- `fn h() { return c() + 1; } echo h();` where the C function `c` returns the two values 10 and 20. -/
def demoLeak : FStmts := .of [
  .fnDecl [104] 0 [] (.of [.ret (.ctx true (.bin (.op .add) (.call (.var [99]) .nil) (.lit (.int 1))))]),
  .echo (.call (.var [104]) .nil)]

/-- `fn h() { let r = c() + 1; return r; } echo h();` -/
def demoNoLeak : FStmts := .of [
  .fnDecl [104] 0 [] (.of [.let_ [114] (.bin (.op .add) (.call (.var [99]) .nil) (.lit (.int 1))), .ret (.ctx true (.var [114]))]),
  .echo (.call (.var [104]) .nil)]

/-- Why calls of C functions below `return` are not described in general (`FErr.outside`): in `return c() + 1`, the call takes all the results, as if it were
the value of `return`; the program prints 10 instead of 11. -/
theorem C96_leak_counterexample : demoRunF demoLeak 1000 = some ([49, 48, 10], .halt) ∧ demoRunF demoNoLeak 1000 = some ([49, 49, 10], .halt) := by
  refine ⟨?_, ?_⟩ <;> decide +kernel

end Yasl
