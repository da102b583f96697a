import Verif.Proofs.Comp
import Verif.Props.Compile
set_option autoImplicit false
/-!
# C111 — comprehensions

`[e for x <- coll if cond]` and `{k: v for x <- coll if cond}` have the values for the elements of the collection, in order, where the comprehension stands first in its
statement and has at most 800 values (`C111_programs_partial`).  This is not so of every comprehension: `C111_operand_counterexample`, `C111_nested_counterexample`, `C111_too_many`.
-/
namespace Yasl

/-- C111, in part: if the compiler accepts a program of statements with comprehensions (`XStmt`) which respects the limits of the implementation (`FitsXs`), then the bytecode can be loaded,
and running it does what the program means, as in C29.  Nothing is claimed (`none`) if a comprehension has more than `compLimit` values.
Missing: comprehensions in other places (the claim is false there), and inside of blocks, loops and functions. -/
theorem C111_programs_partial {W : Type} (F : FloatOps) (P : Prims W) (hP : P.NoEnd) (globals : List Name) (prog : List XStmt) (lines image : List Byte)
    (hc : compileX globals prog lines = some image) (hlen : image.length < 2 ^ 63) (hF : FitsXs prog 0) (G : Name → Option Val)
    (hG : ∀ x ∈ globals, G x ≠ none) (hE : ∀ x v, G x = some v → v ≠ .end_) (w : W) :
    ∃ m K, VM.load image G w = some (m, K) ∧ ∀ fuel,
      match execXs F P fuel prog ⟨[], G, w, []⟩ with
      | some (t, .normal) => ∃ k m', VM.run F P image K k m = .stop m' .halt ∧ m'.out = t.out ∧ m'.globals = t.globals ∧ m'.world = t.world ∧
          m'.stack = t.env.map Prod.snd
      | some (t, .err e) => ∃ k m', VM.run F P image K k m = .stop m' e ∧ m'.out = t.out ∧ m'.globals = t.globals ∧ m'.world = t.world
      | some (_, .timeout) => ∃ k m', fuel ≤ k ∧ VM.run F P image K k m = .next m'
      | some _ => False
      | none => True := by
  simp only [compileX] at hc
  split at hc
  swap
  · cases hc
  rename_i hok
  simp only [Option.some.injEq] at hc
  obtain ⟨hgo, hge, hgs, hgb, hgc, hgh⟩ := declGlobals_spec globals CState.initial (by simp [PoolOk, CState.initial, Scope.get])
    (by simp [CState.HOk, CState.initial])
  replace hge : ∀ x, (CState.initial.declGlobals globals).globals.get x ≠ none → x ∈ globals := by
    intro x hx
    rcases hge x hx with h | h
    · exact h
    · simp [CState.initial, Scope.get] at h
  generalize hs : (CState.initial.declGlobals globals).enterScope = s at hc hok
  have hsc : s.scopes = [[]] := by rw [← hs]; simp only [CState.enterScope, hgs]; rfl
  have hsg : s.globals = (CState.initial.declGlobals globals).globals := by rw [← hs]; rfl
  have hsp : s.pool = (CState.initial.declGlobals globals).pool := by rw [← hs]; rfl
  obtain ⟨-, c, hcode, hsim⟩ := compileXs_spec (F := F) (P := P) hP prog s [] hok (by simp [hsc]) (by rw [← hs]; exact hgb)
    (by rw [← hs]; exact hgc) (by rw [hsg, hsp]; exact hgo) 0 hF
  have hhok := compileXs_hok prog s [] (by rw [← hs]; exact hgh)
  rw [List.nil_append] at hcode
  generalize hr : compileXs prog s [] = r at *
  rw [hcode, returnBytes, hhok.1] at hc
  generalize hhd : r.1.pool.flatMap headerEntry = hd at hc
  have hlen' : image.length = hd.length + 24 + c.length + 1 + lines.length := by rw [← hc]; simp; omega
  have hpl : r.1.pool.length ≤ hd.length := by rw [← hhd]; exact pool_le_header _ hhok.2
  have hi1 : image = bytes8 (BitVec.ofNat 64 (hd.length + 24)) ++ (bytes8 (BitVec.ofNat 64 (c.length + (hd.length + 24) + 1)) ++
    (bytes8 (BitVec.ofNat 64 r.1.pool.length) ++ (hd ++ (c ++ ([Opc.HALT.byte] ++ lines))))) := by rw [← hc]; simp
  have hd16 : image.drop 16 = bytes8 (BitVec.ofNat 64 r.1.pool.length) ++ (hd ++ (c ++ ([Opc.HALT.byte] ++ lines))) := by
    rw [hi1, ← List.append_assoc, List.drop_left' (by simp)]
  have hd24 : image.drop 24 = hd ++ (c ++ ([Opc.HALT.byte] ++ lines)) := by
    rw [show 24 = 16 + 8 from rfl, ← List.drop_drop, hd16, List.drop_left' (by simp)]
  have hdc : image.drop (hd.length + 24) = c ++ ([Opc.HALT.byte] ++ lines) := by
    rw [Nat.add_comm, ← List.drop_drop, hd24, List.drop_left' (by simp)]
  have hload : VM.load image G w = some ((⟨hd.length + 24, [], -1, [], G, w, []⟩ : VM W), r.1.pool) := by
    have h1 : readInt8 image = some (BitVec.ofNat 64 (hd.length + 24)) := by rw [hi1]; exact C19_int_roundtrip _ _
    have h2 : readInt8 (image.drop 16) = some (BitVec.ofNat 64 r.1.pool.length) := by rw [hd16]; exact C19_int_roundtrip _ _
    have h3 : (BitVec.ofNat 64 (hd.length + 24)).toNat = hd.length + 24 := by rw [BitVec.toNat_ofNat]; omega
    have h4 : (BitVec.ofNat 64 r.1.pool.length).toNat = r.1.pool.length := by rw [BitVec.toNat_ofNat]; omega
    simp only [VM.load, h1, h2, h3, h4]
    rw [hd24, ← hhd, readConstants_pool _ hhok.2 _ (by rw [hhd]; omega)]
    rfl
  refine ⟨_, _, hload, fun fuel => ?_⟩
  have hAc : At image (hd.length + 24) c := by unfold At; rw [hdc]; exact List.prefix_append _ _
  have hAh : At image (hd.length + 24 + c.length) (Opc.HALT.byte :: lines) := by
    unfold At; rw [← List.drop_drop, hdc, List.drop_left' rfl]; exact List.prefix_rfl
  have := hsim ⟨image, r.1.pool, -1, [], G, [], [], []⟩ ⟨[], G, w, []⟩ (hd.length + 24) fuel
    ⟨by simp [EnvRep, hsc, EnvRepL, Frame.on], by simp [Frame.on], by simp [Frame.on], hlen, by simp only [Frame.on]; omega,
      fun x hx => hG x (hge x (by rw [← hsg]; exact hx)), hE, by simp [Frame.on]⟩ rfl rfl rfl List.prefix_rfl hAc
  rcases hx : execXs F P fuel prog ⟨[], G, w, []⟩ with _ | ⟨t, sig⟩
  · trivial
  replace this := this _ hx
  cases sig with
  | normal =>
    obtain ⟨k, m', hk, -, rfl⟩ := this
    have hk' : VM.run F P image r.1.pool k ⟨hd.length + 24, [], -1, [], G, w, []⟩ = _ := hk
    have hrun := VM.run_add (F := F) (P := P) (code := image) (K := r.1.pool) k 1 ⟨hd.length + 24, [], -1, [], G, w, []⟩
    rw [hk'] at hrun
    simp only [VM.run_one, Frame.vmS, Frame.vm, step_halt hAh] at hrun
    exact ⟨k + 1, _, hrun, rfl, rfl, rfl, by simp [Frame.on]⟩
  | brk => obtain ⟨_, _, _, h, _⟩ := this; cases h
  | cont => obtain ⟨_, _, _, h, _⟩ := this; cases h
  | err e =>
    obtain ⟨k, m', hk, h1, h2, h3⟩ := this
    exact ⟨k, m', hk, h2, h3, h1⟩
  | timeout =>
    obtain ⟨k, m', hle, hk, -⟩ := this
    exact ⟨k, m', hle, hk⟩

/-! ### Programs -/

/-- Lists for the examples: the state is the list of all lists. -/
def listPrims : Prims (List (List Val)) where
  binary w _ _ _ := (w, .error .type)
  unary w o a := match o, a with
    | .len, .ref .list a => (w, .ok (.int (BitVec.ofNat 64 (w.getD a []).length)))
    | _, _ => (w, .error .type)
  newList w vs := (w ++ [vs], .ok (.ref .list w.length))
  newTable w _ := (w, .error .type)
  get w c k := match c, k with
    | .ref .list a, .int i => match (w.getD a [])[i.toNat]? with
      | some .end_ => (w, .error .other)
      | some v => (w, .ok v)
      | none => (w, .error .value)
    | _, _ => (w, .error .type)
  slice w _ _ _ := (w, .error .type)
  set w _ _ _ := (w, .error .type)
  tostr w v := match v with
    | .int i => (w, .ok ((Nat.toDigits 10 i.toNat).map fun c => BitVec.ofNat 8 c.toNat))
    | _ => (w, .error .type)
  next w c i := match c with
    | .ref .list a => match (w.getD a [])[i]? with
      | some .end_ => (w, .error .other)
      | some v => (w, .ok (some (v, i + 1)))
      | none => (w, .ok none)
    | _ => (w, .error .type)

theorem listPrims_noEnd : listPrims.NoEnd := by
  constructor
  · intros; simp_all [listPrims]
  · intro w o a w' v h
    simp only [listPrims] at h
    split at h
    · cases h; simp
    · cases h
  · intros w vs w' v h; cases h; simp
  · intros; simp_all [listPrims]
  · intro w c k w' v h
    simp only [listPrims] at h
    split at h
    · split at h
      · cases h
      · rename_i u hu he; cases h; exact fun h => hu (by rw [h])
      · cases h
    · cases h
  · intros; simp_all [listPrims]
  · intro w c i w' v j h
    simp only [listPrims] at h
    split at h
    · split at h
      · cases h
      · rename_i u hu he; cases h; exact fun h => hu (by rw [h])
      · cases h
    · cases h

/-- Several expressions. -/
def Exprs.of : List Expr → Exprs
  | [] => .nil
  | e :: es => .cons e (Exprs.of es)

/-- Load and run for some steps: what was printed, and how the machine stopped. -/
def demoRunX (image : Option (List Byte)) (steps : Nat) : Option (List Byte × RtErr) :=
  image.bind fun image => (VM.load image (fun _ => none) []).bind fun (m, K) =>
    match VM.run demoFloat listPrims image K steps m with
    | .stop m e => some (m.out, e)
    | .next _ => none

/-- What the program prints according to its meaning, and how it ends. -/
def demoMeaningX (prog : List XStmt) (fuel : Nat) : Option (List Byte × Sig) :=
  (execXs demoFloat listPrims fuel prog ⟨[], fun _ => none, [], []⟩).map fun r => (r.1.out, r.2)

/-- `let a = 5; let l = [x * x + a for x <- [y for y <- [1, 2, 3, 4] if y > 1]]; echo l[0]; echo len [x for x <- l if x > 10] + a` -/
def demoComp : List XStmt := [
  .plain (.decl [.let_ [97]] (.of [.int 5])),
  .use (.let_ [108]) (.comp false (.of [.bin (.op .add) (.bin (.op .mul) (.var [120]) (.var [120])) (.var [97])]) [120]
    (.comp false (.of [.var [121]]) [121] (.plain (.list (.of [.int 1, .int 2, .int 3, .int 4]))) (some (.bin (.op .gt) (.var [121]) (.int 1)))) none),
  .plain (.echo (.get (.var [108]) (.int 0))),
  .use .echo (.bin .add (.un .len (.comp false (.of [.var [120]]) [120] (.plain (.var [108])) (some (.bin (.op .gt) (.var [120]) (.int 10))))) (.var [97]))]

/-- the hypotheses of `C111_programs_partial` are met by this program, which prints 2 * 2 + 5 and 2 + 5 -/
example : FitsXs demoComp 0 ∧ (compileX [] demoComp []).isSome = true ∧ demoMeaningX demoComp 100 = some ([57, 10, 55, 10], .normal) ∧
    demoRunX (compileX [] demoComp []) 1000 = some ([57, 10, 55, 10], .halt) := by
  refine ⟨?_, by decide +kernel, by decide +kernel, by decide +kernel⟩
  simp [demoComp, Exprs.of, FitsXs, FitsX, FitsC, Fits, FitsL, FitsE, WfE, WfEs, needE, needEs, stackLimit, maxLocals, loopLimit, compLimit, XStmt.declares, Stmt.declares, LVal.declares,
    Exprs.length]

/-! ### Where it fails -/

/-- A file with one statement, given by what `visit` does for it. -/
def compileOne (visit : CState → CState) : Option (List Byte) :=
  let s := visit CState.initial.enterScope
  if s.ok then some (returnBytes s.header s.buffer [] s.pool.length) else none

/-- `echo 10 + [x for x <- [1, 2, 3]][0]` -/
def demoOperand (s : CState) : CState :=
  let s1 := visitC (.get (.comp false (.of [.var [120]]) [120] (.plain (.list (.of [.int 1, .int 2, .int 3]))) none) (.int 0)) (visitExpr (.int 10) s)
  ((s1.op BinOp.add.opc).op .ECHO).emit (BitVec.ofNat 8 (scopeLen s1.scopes))

/-- C111 is false of a comprehension that is not the first part of its statement to be evaluated: its variable gets the slot of a value already on the stack.
`echo 10 + [x for x <- [1, 2, 3]][0]` means 11; the last element takes the place of the 10, and 4 is printed. -/
theorem C111_operand_counterexample : demoRunX (compileOne demoOperand) 1000 = some ([52, 10], .halt) := by decide +kernel

/-- The same with the operands in the other order prints 11. -/
theorem C111_operand_first : demoRunX (compileX [] [.use .echo (.bin .add (.get (.comp false (.of [.var [120]]) [120] (.plain (.list (.of [.int 1, .int 2, .int 3]))) none) (.int 0))
    (.int 10))] []) 1000 = some ([49, 49, 10], .halt) := by decide +kernel

/-- `echo len [[y for y <- x] for x <- [[1], [2]]]` -/
def demoNested (s : CState) : CState :=
  let s1 := (visitComp false [120] (visitExpr (.list (.of [.list (.of [.int 1]), .list (.of [.int 2])]))) none (visitC (.comp false (.of [.var [121]]) [121] (.plain (.var [120])) none)) s).op UnOp.len.opc
  (s1.op .ECHO).emit (BitVec.ofNat 8 (scopeLen s1.scopes))

/-- C111 is false of a comprehension in the element of a comprehension: the variable of the inner one overwrites the mark below the values of the outer one.
`echo len [[y for y <- x] for x <- [[1], [2]]]` means 2; the machine reads below its stack (undefined behaviour). -/
theorem C111_nested_counterexample : demoRunX (compileOne demoNested) 1000 = some ([], .ub) := by decide +kernel

/-! ### Too many values -/

/-- `[x for x <- c]`, with a global variable `c` -/
def demoMost : List XStmt := [.use .drop (.comp false (.of [.var [120]]) [120] (.plain (.var [99])) none)]

/-- The bytecode of `demoMost`. -/
def demoMostImage : List Byte := (compileX [[99]] demoMost []).getD []

theorem demoMost_compiles : compileX [[99]] demoMost [] = some demoMostImage := by decide +kernel

/-- C111 is false of collections with many elements: the values are all pushed first.  With 1022 elements or more, `[x for x <- c]` ends with a stack overflow, whatever the collection. -/
theorem C111_too_many {W : Type} (F : FloatOps) (P : Prims W) (G : Name → Option Val) (c : Val) (hG : G [99] = some c) (w : Nat → W) (v : Nat → Val)
    (hv : ∀ i < 1022, P.next (w i) c i = (w (i + 1), .ok (some (v i, i + 1)))) :
    ∃ m K k m', VM.load demoMostImage G (w 0) = some (m, K) ∧ VM.run F P demoMostImage K k m = .stop m' .stackOverflow := by
  have hload : VM.load demoMostImage G (w 0) = some ((⟨34, [], -1, [], G, w 0, []⟩ : VM W), [.str [99]]) := by
    have h1 : readInt8 demoMostImage = some 34 := by decide +kernel
    have h2 : readInt8 (demoMostImage.drop 16) = some 1 := by decide +kernel
    have h3 : readConstants 1 (demoMostImage.drop 24) = some [.str [99]] := by decide +kernel
    simp only [VM.load, h1, h2]
    rw [show (1 : BitVec 64).toNat = 1 from rfl, h3]
    rfl
  have hloop : ∀ j ≤ 1021, ∃ k acc u, acc.length = j ∧ VM.run F P demoMostImage [.str [99]] k (⟨34, [], -1, [], G, w 0, []⟩ : VM W) =
      .next ⟨46, acc ++ [.end_, u], -1, [(j, c)], G, w j, []⟩ := by
    intro j
    induction j with
    | zero =>
      intro _
      refine ⟨1 + (1 + (1 + 1)), [], .end_, rfl, ?_⟩
      rw [VM.run_add, VM.run_one, step_gload (i := 0) (x := [99]) (by omega) (by unfold At; decide +kernel) rfl hG (by simp [stackSize])]
      dsimp only
      rw [VM.run_add, VM.run_one, step_initfor (c := []) (by unfold At; decide +kernel) (by simp [numLoopFrames])]
      dsimp only
      rw [VM.run_add, VM.run_one, step_push (c := []) .END .end_ (by simp) (by unfold At; decide +kernel) (by simp [stackSize])]
      dsimp only
      rw [VM.run_one, step_push (c := []) .END .end_ (by simp) (by unfold At; decide +kernel) (by simp [stackSize])]
      rfl
    | succ j ih =>
      intro hj
      obtain ⟨k, acc, u, hl, hk⟩ := ih (by omega)
      refine ⟨k + (1 + (1 + (1 + (1 + 1)))), v j :: acc, v j, by simp [hl], ?_⟩
      rw [VM.run_add, hk]
      dsimp only
      rw [VM.run_add, VM.run_one, step_iter (c := []) (by unfold At; decide +kernel) (by simp [hl, stackSize]; omega), hv j (by omega)]
      dsimp only
      rw [VM.run_add, VM.run_one, step_cond BrTest.f (.bool true) (d := 13) (by unfold At; decide +kernel), if_neg (by decide)]
      dsimp only
      rw [VM.run_add, VM.run_one, step_lstore (i := 0) (j := acc.length + 1) (by omega) (by unfold At; decide +kernel) (by simp; omega) (by omega)]
      dsimp only
      have hset : (acc ++ [Val.end_, u]).set (acc.length + 1) (v j) = acc ++ [.end_, v j] := by simp
      rw [hset, VM.run_add, VM.run_one, step_lload (i := 0) (j := acc.length + 1) (v := v j) (by omega) (by unfold At; decide +kernel) (by simp; omega) (by omega) (by simp) (by simp [stackSize]; omega)]
      dsimp only
      rw [VM.run_one, step_br (d := BitVec.ofInt 64 (-23)) (by unfold At; decide +kernel), jumpBy_to (q := 46) (by norm_num) (by norm_num) (by norm_num)]
      rfl
  obtain ⟨k, acc, u, hl, hk⟩ := hloop 1021 (by omega)
  refine ⟨_, _, k + 1, ⟨47, v 1021 :: (acc ++ [.end_, u]), -1, [(1022, c)], G, w 1022, []⟩, hload, ?_⟩
  rw [VM.run_add, hk]
  dsimp only
  rw [VM.run_one, step_fetch (c := []) (b := Opc.ITER_1.byte) (by unfold At; decide +kernel)]
  show (match P.next (w 1021) c 1021 with | (w, .ok none) => _ | (w, .ok (some (v, j))) => _ | (w, .error e) => _) = _
  rw [hv 1021 (by omega)]
  simp [VM.push, hl, stackSize]

/-- there are such collections -/
example : ∃ (P : Prims Unit) (w : Nat → Unit) (v : Nat → Val), ∀ i < 1022, P.next (w i) (.str []) i = (w (i + 1), .ok (some (v i, i + 1))) :=
  ⟨{ demoPrims with next := fun _ _ i => ((), .ok (some (.int (BitVec.ofNat 64 i), i + 1))) }, fun _ => (), fun i => .int (BitVec.ofNat 64 i), fun _ _ => rfl⟩

end Yasl
