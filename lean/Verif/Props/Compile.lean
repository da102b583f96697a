import Verif.Proofs.CompileTop
set_option autoImplicit false
/-! # Compiled code does what the source says: C28, C29, C30, C32 -/
namespace Yasl

/-! ## C28: expressions -/

/-- The compiler's scopes describe the local variables (names and values, the newest first): the same names, and each with the number of
older variables as its index. -/
def Describes (scopes : List Scope) (locals : LEnv) : Prop :=
  scopes.flatten.map Prod.fst = locals.map Prod.fst ∧
    ∀ (j : Nat) (x : Name) (z : BitVec 64), scopes.flatten[j]? = some (x, z) → getIndex z = BitVec.ofNat 64 (locals.length - 1 - j)

theorem Describes.envRepL : ∀ {sc : Scope} {locals : LEnv}, sc.map Prod.fst = locals.map Prod.fst →
    (∀ (j : Nat) (x : Name) (z : BitVec 64), sc[j]? = some (x, z) → getIndex z = BitVec.ofNat 64 (locals.length - 1 - j)) → EnvRepL sc locals
  | [], [], _, _ => trivial
  | (x, z) :: sc, (y, v) :: locals, h1, h2 => by
    simp only [List.map_cons, List.cons.injEq] at h1
    refine ⟨h1.1, by simpa using h2 0 x z rfl, Describes.envRepL h1.2 fun j x' z' hj => ?_⟩
    rw [h2 (j + 1) x' z' (by simpa using hj)]
    congr 1; simp; omega
  | [], _ :: _, h, _ => by simp at h
  | _ :: _, [], h, _ => by simp at h

/-- The value of a name: a local variable, else a global. -/
def valueOf (locals : LEnv) (G : Name → Option Val) (x : Name) : Option Val :=
  match locals.find x with
  | some v => some v
  | none => G x

/-- C28: the compiler appends code for an expression `e`, and running this code, wherever it is placed, on a stack `temps` (temporary
values), local variables, `below` (the frames of the callers), either pushes the value of `e` and goes on behind the code, with
everything else unchanged but what the operations did to the world; or stops with the error that evaluating `e` gives.

The program is accepted (`hok`), the code and the constants are loaded, globals are declared, and at most 128 local variables (more: see
`C32`) and 1024 values on the stack are used; the sentinel is not a value. -/
theorem C28_expression {W : Type} (F : FloatOps) (P : Prims W) (hP : P.NoEnd) (e : Expr) (s : CState) (hok : (visitExpr e s).ok = true)
    (hg : ∀ x, s.globals.get x ≠ none → .str x ∈ s.pool) (hwf : WfE e) :
    ∃ c, (visitExpr e s).buffer = s.buffer ++ c ∧
      ∀ (pre post : List Byte) (K : List Val) (temps below : List Val) (locals : LEnv) (loops : List (Nat × Val)) (G : Name → Option Val)
        (w : W) (out : List Byte),
        (pre ++ c ++ post).length < 2 ^ 63 → K.length < 2 ^ 63 → (visitExpr e s).pool <+: K → Describes s.scopes locals → locals.length ≤ 128 →
        (∀ x, s.globals.get x ≠ none → G x ≠ none) → (∀ x v, G x = some v → v ≠ .end_) → (∀ q ∈ locals, q.2 ≠ .end_) →
        temps.length + locals.length + below.length + needE e ≤ 1024 →
        let machine := fun (p : Nat) (temps : List Val) (w : W) =>
          (⟨p, temps ++ (locals.map Prod.snd ++ below), (below.length : Int) - 1, loops, G, w, out⟩ : VM W)
        let m := machine pre.length temps w
        match eval F P (valueOf locals G) e w with
        | (w', .ok v) => ∃ k, VM.run F P (pre ++ c ++ post) K k m = .next (machine (pre.length + c.length) (v :: temps) w')
        | (w', .error err) => ∃ k m', VM.run F P (pre ++ c ++ post) K k m = .stop m' err ∧ m'.world = w' ∧ m'.out = out ∧ m'.globals = G := by
  obtain ⟨c, h1, h2⟩ := visitExpr_spec (F := F) (P := P) hP e s hok hg
  refine ⟨c, h1.grow.buffer, ?_⟩
  intro pre post K temps below locals loops G w out hcl hKl hK hd hl hdef hG hE hroom
  have hA : At (pre ++ c ++ post) pre.length c := by
    unfold At; rw [List.append_assoc, List.drop_left]; exact List.prefix_append _ _
  have := h2 ⟨pre ++ c ++ post, K, below.length - 1, loops, G, out, locals, below⟩ pre.length temps w
    ⟨Describes.envRepL hd.1 hd.2, by simp, hl, hcl, hKl, hdef, hG, hE⟩ hK hA hwf hroom
  have hlook : Frame.look ⟨pre ++ c ++ post, K, (below.length : Int) - 1, loops, G, out, locals, below⟩ = valueOf locals G := rfl
  rw [hlook] at this
  dsimp only
  rcases hr : eval F P (valueOf locals G) e w with ⟨w', v | err⟩
  · rw [hr] at this; exact this
  · rw [hr] at this; exact this

/-! ## C29: programs -/

theorem Scope.get_put_ne {sc : Scope} {x y : Name} {z : BitVec 64} (h : (sc.put x z).get y ≠ none) : y = x ∨ sc.get y ≠ none := by
  by_cases hyx : y = x
  · exact .inl hyx
  · right
    have hxy : (x == y) = false := by simpa using fun h => hyx h.symm
    by_cases hx : sc.get x = none
    · rw [Scope.put, if_pos hx] at h
      simpa only [Scope.get, List.find?_cons, hxy] using h
    · rw [Scope.put, if_neg hx] at h
      intro hn
      apply h
      simp only [Scope.get, Option.map_eq_none_iff, List.find?_eq_none, List.mem_map] at hn ⊢
      rintro q ⟨p, hp, rfl⟩
      split
      · simp [hxy]
      · exact hn p hp

theorem declGlobals_spec : ∀ (xs : List Name) (s : CState), PoolOk s.globals s.pool → s.HOk →
    PoolOk (s.declGlobals xs).globals (s.declGlobals xs).pool ∧
    (∀ x, (s.declGlobals xs).globals.get x ≠ none → x ∈ xs ∨ s.globals.get x ≠ none) ∧ (s.declGlobals xs).scopes = s.scopes ∧
    (s.declGlobals xs).buffer = s.buffer ∧ (s.declGlobals xs).checkpoints = s.checkpoints ∧ (s.declGlobals xs).HOk
  | [], s, h, hh => ⟨h, fun x hx => .inr hx, rfl, rfl, rfl, hh⟩
  | x :: xs, s, h, hh => by
    simp only [CState.declGlobals]
    have hi := intern_spec s (.str x)
    have hi2 := hh.intern (v := .str x) trivial
    generalize hs : (s.intern (.str x)).2 = s1 at hi hi2 ⊢
    have hm : .str x ∈ s1.pool := List.mem_of_getElem? hi.2
    obtain ⟨h1, h2, h3, h4, h5, h6⟩ := declGlobals_spec xs { s1 with globals := s1.globals.put x (BitVec.ofNat 64 s1.globals.length) }
      (by
        intro y hy
        rcases Scope.get_put_ne hy with rfl | hy
        · exact hm
        · exact hi.1.grow.poolOk h y hy) (hi2.of rfl rfl)
    refine ⟨h1, fun y hy => ?_, h3.trans hi.1.scopes, h4.trans (by simpa using hi.1.grow.buffer), h5.trans hi.1.checkpoints, h6⟩
    rcases h2 y hy with hy | hy
    · exact .inl (by simp [hy])
    · rcases Scope.get_put_ne hy with rfl | hy
      · exact .inl (by simp)
      · exact .inr (by rw [← hi.1.globals]; exact hy)

/-- C29: if the compiler accepts a program which respects the limits of the implementation (`FitsAll`: in particular, `break` and
`continue` only where no local variable of the loop body is visible, see C30), then the bytecode can be loaded, and running it does what
the program means, whatever the operations of the world do:

- if the program ends, the machine halts, with the values of the variables declared at the top level on the stack and nothing else;
- if the program stops with an error, the machine stops with that error;
- in both cases with the same output, the same values of the global variables, and the same state of the world;
- if the program is still running after `fuel` rounds of a loop, the machine is still running after at least that many steps. -/
theorem C29_program {W : Type} (F : FloatOps) (P : Prims W) (hP : P.NoEnd) (globals : List Name) (prog : Stmts) (lines image : List Byte)
    (hc : compile globals prog lines = some image) (hlen : image.length < 2 ^ 63) (hF : FitsAll prog 0 0 0) (G : Name → Option Val)
    (hG : ∀ x ∈ globals, G x ≠ none) (hE : ∀ x v, G x = some v → v ≠ .end_) (w : W) :
    ∃ m K, VM.load image G w = some (m, K) ∧ ∀ fuel,
      match execAll F P fuel prog ⟨[], G, w, []⟩ with
      | (t, .normal) => ∃ k m', VM.run F P image K k m = .stop m' .halt ∧ m'.out = t.out ∧ m'.globals = t.globals ∧ m'.world = t.world ∧
          m'.stack = t.env.map Prod.snd
      | (t, .err e) => ∃ k m', VM.run F P image K k m = .stop m' e ∧ m'.out = t.out ∧ m'.globals = t.globals ∧ m'.world = t.world
      | (_, .timeout) => ∃ k m', fuel ≤ k ∧ VM.run F P image K k m = .next m'
      | _ => False := by
  simp only [compile] at hc
  split at hc
  swap
  · cases hc
  rename_i hok
  simp only [Option.some.injEq] at hc
  obtain ⟨hgo, hge, hgs, hgb, hgc, hgh⟩ := declGlobals_spec globals CState.initial (by simp [PoolOk, CState.initial, Scope.get])
    (by simp [CState.HOk, CState.initial])
  replace hge : ∀ x, (CState.initial.declGlobals globals).globals.get x ≠ none → x ∈ globals := by
    intro x hx
    rcases hge x hx with h | h
    · exact h
    · simp [CState.initial, Scope.get] at h
  generalize hs : (CState.initial.declGlobals globals).enterScope = s at hc hok
  have hsc : s.scopes = [[]] := by rw [← hs]; simp only [CState.enterScope, hgs]; rfl
  have hsg : s.globals = (CState.initial.declGlobals globals).globals := by rw [← hs]; rfl
  have hsp : s.pool = (CState.initial.declGlobals globals).pool := by rw [← hs]; rfl
  obtain ⟨-, c, hcode, hsim⟩ := compileAll_spec (F := F) (P := P) hP prog s [] hok (by simp [hsc]) (by rw [← hs]; exact hgb)
    (by rw [← hs]; exact hgc) (by rw [hsg, hsp]; exact hgo) 0 hF
  have hhok := compileAll_hok prog s [] (by rw [← hs]; exact hgh)
  rw [List.nil_append] at hcode
  generalize hr : compileAll prog s [] = r at *
  rw [hcode, returnBytes, hhok.1] at hc
  generalize hhd : r.1.pool.flatMap headerEntry = hd at hc
  have hlen' : image.length = hd.length + 24 + c.length + 1 + lines.length := by rw [← hc]; simp; omega
  have hpl : r.1.pool.length ≤ hd.length := by rw [← hhd]; exact pool_le_header _ hhok.2
  have hi1 : image = bytes8 (BitVec.ofNat 64 (hd.length + 24)) ++ (bytes8 (BitVec.ofNat 64 (c.length + (hd.length + 24) + 1)) ++
    (bytes8 (BitVec.ofNat 64 r.1.pool.length) ++ (hd ++ (c ++ ([Opc.HALT.byte] ++ lines))))) := by rw [← hc]; simp
  have hd16 : image.drop 16 = bytes8 (BitVec.ofNat 64 r.1.pool.length) ++ (hd ++ (c ++ ([Opc.HALT.byte] ++ lines))) := by
    rw [hi1, ← List.append_assoc, List.drop_left' (by simp)]
  have hd24 : image.drop 24 = hd ++ (c ++ ([Opc.HALT.byte] ++ lines)) := by
    rw [show 24 = 16 + 8 from rfl, ← List.drop_drop, hd16, List.drop_left' (by simp)]
  have hdc : image.drop (hd.length + 24) = c ++ ([Opc.HALT.byte] ++ lines) := by
    rw [Nat.add_comm, ← List.drop_drop, hd24, List.drop_left' (by simp)]
  have hload : VM.load image G w = some ((⟨hd.length + 24, [], -1, [], G, w, []⟩ : VM W), r.1.pool) := by
    have h1 : readInt8 image = some (BitVec.ofNat 64 (hd.length + 24)) := by rw [hi1]; exact C19_int_roundtrip _ _
    have h2 : readInt8 (image.drop 16) = some (BitVec.ofNat 64 r.1.pool.length) := by rw [hd16]; exact C19_int_roundtrip _ _
    have h3 : (BitVec.ofNat 64 (hd.length + 24)).toNat = hd.length + 24 := by rw [BitVec.toNat_ofNat]; omega
    have h4 : (BitVec.ofNat 64 r.1.pool.length).toNat = r.1.pool.length := by rw [BitVec.toNat_ofNat]; omega
    simp only [VM.load, h1, h2, h3, h4]
    rw [hd24, ← hhd, readConstants_pool _ hhok.2 _ (by rw [hhd]; omega)]
    rfl
  refine ⟨_, _, hload, fun fuel => ?_⟩
  have hAc : At image (hd.length + 24) c := by unfold At; rw [hdc]; exact List.prefix_append _ _
  have hAh : At image (hd.length + 24 + c.length) (Opc.HALT.byte :: lines) := by
    unfold At; rw [← List.drop_drop, hdc, List.drop_left' rfl]; exact List.prefix_rfl
  have := hsim ⟨image, r.1.pool, -1, [], G, [], [], []⟩ ⟨[], G, w, []⟩ (hd.length + 24) fuel
    ⟨by simp [EnvRep, hsc, EnvRepL, Frame.on], by simp [Frame.on], by simp [Frame.on], hlen, by simp only [Frame.on]; omega,
      fun x hx => hG x (hge x (by rw [← hsg]; exact hx)), hE, by simp [Frame.on]⟩ rfl rfl rfl List.prefix_rfl hAc
  rcases hx : execAll F P fuel prog ⟨[], G, w, []⟩ with ⟨t, sig⟩
  rw [hx] at this
  cases sig with
  | normal =>
    obtain ⟨k, m', hk, -, rfl⟩ := this
    have hk' : VM.run F P image r.1.pool k ⟨hd.length + 24, [], -1, [], G, w, []⟩ = _ := hk
    have hrun := VM.run_add (F := F) (P := P) (code := image) (K := r.1.pool) k 1 ⟨hd.length + 24, [], -1, [], G, w, []⟩
    rw [hk'] at hrun
    simp only [VM.run_one, Frame.vmS, Frame.vm, step_halt hAh] at hrun
    exact ⟨k + 1, _, hrun, rfl, rfl, rfl, by simp [Frame.on]⟩
  | brk => obtain ⟨_, _, _, h, _⟩ := this; cases h
  | cont => obtain ⟨_, _, _, h, _⟩ := this; cases h
  | err e =>
    obtain ⟨k, m', hk, h1, h2, h3⟩ := this
    exact ⟨k, m', hk, h2, h3, h1⟩
  | timeout =>
    obtain ⟨k, m', hle, hk, -⟩ := this
    exact ⟨k, m', hle, hk⟩

theorem VM.run_stop_unique {W : Type} {F : FloatOps} {P : Prims W} {code : List Byte} {K : List Val} {m m1 m2 : VM W} {e1 e2 : RtErr} {k j : Nat}
    (h1 : VM.run F P code K k m = .stop m1 e1) (h2 : VM.run F P code K j m = .stop m2 e2) : m1 = m2 ∧ e1 = e2 := by
  rcases Nat.le_total k j with h | h
  · obtain ⟨d, rfl⟩ := Nat.exists_eq_add_of_le h
    rw [VM.run_add, h1] at h2
    simpa using h2
  · obtain ⟨d, rfl⟩ := Nat.exists_eq_add_of_le h
    rw [VM.run_add, h2] at h1
    simp at h1
    exact ⟨h1.1.symm, h1.2.symm⟩

/-- C29, the converse: whenever the machine stops, the program has stopped in the same way, with the same output, globals and world.  In
particular the machine stops iff the program does. -/
theorem C29_machine_stops {W : Type} (F : FloatOps) (P : Prims W) (hP : P.NoEnd) (globals : List Name) (prog : Stmts) (lines image : List Byte)
    (hc : compile globals prog lines = some image) (hlen : image.length < 2 ^ 63) (hF : FitsAll prog 0 0 0) (G : Name → Option Val)
    (hG : ∀ x ∈ globals, G x ≠ none) (hE : ∀ x v, G x = some v → v ≠ .end_) (w : W) (m : VM W) (K : List Val)
    (hload : VM.load image G w = some (m, K)) (k : Nat) (m' : VM W) (e : RtErr) (hrun : VM.run F P image K k m = .stop m' e) :
    ∃ fuel t, (execAll F P fuel prog ⟨[], G, w, []⟩ = (t, .err e) ∨ (e = .halt ∧ execAll F P fuel prog ⟨[], G, w, []⟩ = (t, .normal))) ∧
      m'.out = t.out ∧ m'.globals = t.globals ∧ m'.world = t.world := by
  obtain ⟨m0, K0, h1, h2⟩ := C29_program F P hP globals prog lines image hc hlen hF G hG hE w
  rw [hload] at h1
  simp only [Option.some.injEq, Prod.mk.injEq] at h1
  obtain ⟨rfl, rfl⟩ := h1
  have h := h2 (k + 1)
  rcases hx : execAll F P (k + 1) prog ⟨[], G, w, []⟩ with ⟨t, sig⟩
  rw [hx] at h
  cases sig with
  | normal =>
    obtain ⟨j, m2, hj, ho, hg, hw, -⟩ := h
    obtain ⟨rfl, rfl⟩ := VM.run_stop_unique hrun hj
    exact ⟨k + 1, t, .inr ⟨rfl, hx⟩, ho, hg, hw⟩
  | brk => exact h.elim
  | cont => exact h.elim
  | err e' =>
    obtain ⟨j, m2, hj, ho, hg, hw⟩ := h
    obtain ⟨rfl, rfl⟩ := VM.run_stop_unique hrun hj
    exact ⟨k + 1, t, .inl hx, ho, hg, hw⟩
  | timeout =>
    obtain ⟨j, m2, hle, hj⟩ := h
    obtain ⟨d, rfl⟩ := Nat.exists_eq_add_of_le (show k ≤ j by omega)
    rw [VM.run_add, hrun] at hj
    cases hj

/-! ### A program -/

/-- Operations for examples: numbers are printed in decimal; everything else is a type error. -/
def demoPrims : Prims Unit where
  binary _ _ _ _ := ((), .error .type)
  unary _ _ _ := ((), .error .type)
  newList _ _ := ((), .error .type)
  newTable _ _ := ((), .error .type)
  get _ _ _ := ((), .error .type)
  slice _ _ _ _ := ((), .error .type)
  set _ _ _ _ := ((), .error .type)
  tostr _ v := match v with
    | .int i => ((), .ok ((Nat.toDigits 10 i.toNat).map fun c => BitVec.ofNat 8 c.toNat))
    | _ => ((), .error .type)
  next _ _ _ := ((), .ok none)

theorem demoPrims_noEnd : demoPrims.NoEnd := by
  constructor <;> intros <;> simp_all [demoPrims]

/-- Float operations for examples (not used by them). -/
def demoFloat : FloatOps := ⟨fun a _ => a, fun a _ => a, fun a _ => a, fun a _ => a, fun a _ => a⟩

/-- Statements from a list. -/
def Stmts.of : List Stmt → Stmts
  | [] => .nil
  | s :: ss => .cons s (Stmts.of ss)

/-- Compile, load and run for some steps: what was printed, and how the machine stopped. -/
def demoRun (prog : Stmts) (steps : Nat) : Option (List Byte × RtErr) :=
  (compile [] prog []).bind fun image => (VM.load image (fun _ => none) ()).bind fun (m, K) =>
    match VM.run demoFloat demoPrims image K steps m with
    | .stop m e => some (m.out, e)
    | .next _ => none

/-- What the program prints according to its meaning, and how it ends. -/
def demoMeaning (prog : Stmts) (fuel : Nat) : List Byte × Sig :=
  let r := execAll demoFloat demoPrims fuel prog ⟨[], fun _ => none, (), []⟩
  (r.1.out, r.2)

/-- `let i = 0; let s = 0; while i < 10 { i = i + 1; if i == 3 { continue; } if i == 7 { break; } s = s + i; } echo s` -/
def demoLoop : Stmts := .of [
  .decl [.let_ [105]] (.cons (.int 0) .nil), .decl [.let_ [115]] (.cons (.int 0) .nil),
  .while_ (.bin (.op .lt) (.var [105]) (.int 10)) (.block (.of [
    .assign [105] (.bin (.op .add) (.var [105]) (.int 1)),
    .ifThen (.bin (.op .eq) (.var [105]) (.int 3)) (.block (.of [.cont])),
    .ifThen (.bin (.op .eq) (.var [105]) (.int 7)) (.block (.of [.brk])),
    .assign [115] (.bin (.op .add) (.var [115]) (.var [105]))])),
  .echo (.var [115])]

/-- the hypotheses of C29 are met by this program, which prints 1 + 2 + 4 + 5 + 6 -/
example : FitsAll demoLoop 0 0 0 ∧ (compile [] demoLoop []).isSome = true ∧ demoMeaning demoLoop 100 = ([49, 56, 10], .normal) ∧
    demoRun demoLoop 1000 = some ([49, 56, 10], .halt) := by
  refine ⟨?_, by decide +kernel, by decide +kernel, by decide +kernel⟩
  simp [demoLoop, Stmts.of, FitsAll, Fits, FitsL, FitsE, WfE, WfEs, needE, needEs, stackLimit, maxLocals, Stmt.declares, LVal.declares, Exprs.length]

/-! ## C30: `break` and `continue` -/

/-- `while true { let x = 1; break; } let y = 5; echo y` -/
def demoBreak : Stmts := .of [
  .while_ (.bool true) (.block (.of [.decl [.let_ [120]] (.cons (.int 1) .nil), .brk])),
  .decl [.let_ [121]] (.cons (.int 5) .nil), .echo (.var [121])]

/-- C30 is false: `break` jumps out of a block without removing its variables from the stack.  In
`while true { let x = 1; break; } let y = 5; echo y` the variable `y` is then read from the slot of `x`: the program means 5, and prints 1. -/
theorem C30_break_leaves_variables :
    demoMeaning demoBreak 10 = ([53, 10], .normal) ∧ demoRun demoBreak 100 = some ([49, 10], .halt) := by
  refine ⟨?_, ?_⟩ <;> decide +kernel

/-- `let n = 0; while n < 2 { let x = 7; n = n + 1; continue; } let y = 5; echo y` -/
def demoContinue : Stmts := .of [
  .decl [.let_ [110]] (.cons (.int 0) .nil),
  .while_ (.bin (.op .lt) (.var [110]) (.int 2)) (.block (.of [
    .decl [.let_ [120]] (.cons (.int 7) .nil), .assign [110] (.bin (.op .add) (.var [110]) (.int 1)), .cont])),
  .decl [.let_ [121]] (.cons (.int 5) .nil), .echo (.var [121])]

/-- C30 is false: the same for `continue`. -/
theorem C30_continue_leaves_variables :
    demoMeaning demoContinue 10 = ([53, 10], .normal) ∧ demoRun demoContinue 100 = some ([55, 10], .halt) := by
  refine ⟨?_, ?_⟩ <;> decide +kernel

/-- C30, the part that holds: in programs where every `break` and `continue` is at a place where no variable declared since the start of the
loop body is visible (`FitsAll`), the stack is at the end as if the loops had never been there: it has exactly the values of the variables
declared at the top level, and the output is right.  Missing: `break` and `continue` below a declaration, where it is false. -/
theorem C30_stack_restored_partial {W : Type} (F : FloatOps) (P : Prims W) (hP : P.NoEnd) (globals : List Name) (prog : Stmts)
    (lines image : List Byte) (hc : compile globals prog lines = some image) (hlen : image.length < 2 ^ 63) (hF : FitsAll prog 0 0 0)
    (G : Name → Option Val) (hG : ∀ x ∈ globals, G x ≠ none) (hE : ∀ x v, G x = some v → v ≠ .end_) (w : W) (fuel : Nat) (t : PState W)
    (hx : execAll F P fuel prog ⟨[], G, w, []⟩ = (t, .normal)) :
    ∃ m K k m', VM.load image G w = some (m, K) ∧ VM.run F P image K k m = .stop m' .halt ∧ m'.stack = t.env.map Prod.snd ∧ m'.out = t.out := by
  obtain ⟨m, K, h1, h2⟩ := C29_program F P hP globals prog lines image hc hlen hF G hG hE w
  have h := h2 fuel
  rw [hx] at h
  obtain ⟨k, m', hk, ho, -, -, hs⟩ := h
  exact ⟨m, K, k, m', h1, hk, hs, ho⟩

/-! ## C32: many local variables -/

theorem LEnv.find_update_ne : ∀ (env : LEnv) {x y : Name} (v : Val), y ≠ x → (env.update x v).find y = env.find y
  | [], _, _, _, _ => rfl
  | (z, u) :: env, x, y, v, h => by
    have ih := LEnv.find_update_ne env v h
    unfold LEnv.update
    split
    · rename_i hz; subst hz
      simp [LEnv.find, List.find?_cons, beq_false_of_ne (Ne.symm h)]
    · simp only [LEnv.find, List.find?_cons] at ih ⊢
      cases z == y
      · simpa using ih
      · rfl

theorem LEnv.find_update_self : ∀ {env : LEnv} {x : Name} {v : Val}, env.find x ≠ none → (env.update x v).find x = some v
  | [], _, _, h => by simp [LEnv.find] at h
  | (z, u) :: env, x, v, h => by
    unfold LEnv.update
    by_cases hz : z = x
    · rw [if_pos hz]; simp [LEnv.find, List.find?_cons, hz]
    · rw [if_neg hz]
      have : LEnv.find env x ≠ none := by simpa [LEnv.find, List.find?_cons, beq_false_of_ne hz] using h
      simpa [LEnv.find, List.find?_cons, beq_false_of_ne hz] using LEnv.find_update_self (v := v) this

/-- C32, the part that holds: with at most 128 local variables, the code for storing a value in a variable `x` followed by the code for loading a
variable `y` leaves all the variables with the values they had, but `x` with the new one, and the value of `y` on top.  Missing: more than
128 variables, where it is false (`C32_high_local`). -/
theorem C32_slots_partial {W : Type} (F : FloatOps) (P : Prims W) (s : CState) (x y : Name) (locals : LEnv) (hd : Describes s.scopes locals)
    (hn : locals.length ≤ 128) (hx : locals.find x ≠ none) (hy : locals.find y ≠ none) (hok : ((s.storeVar x).loadVar y).ok = true) :
    ∃ c, ((s.storeVar x).loadVar y).buffer = s.buffer ++ c ∧
      ∀ (pre post : List Byte) (K : List Val) (below : List Val) (loops : List (Nat × Val)) (G : Name → Option Val) (w : W) (out : List Byte) (v : Val),
        locals.length + below.length + 1 ≤ 1024 → 
        ∃ u, (locals.update x v).find y = some u ∧ (y = x → u = v) ∧ (y ≠ x → locals.find y = some u) ∧
        VM.run F P (pre ++ c ++ post) K 2 ⟨pre.length, v :: (locals.map Prod.snd ++ below), (below.length : Int) - 1, loops, G, w, out⟩ =
          .next ⟨pre.length + c.length, u :: ((locals.update x v).map Prod.snd ++ below), (below.length : Int) - 1, loops, G, w, out⟩ := by
  have hrep := Describes.envRepL hd.1 hd.2
  have hslot : ∀ z : Name, locals.find z ≠ none → ∃ (b : BitVec 64) (i j : Nat) (u : Val), scopeGet s.scopes z = some b ∧ getIndex b = BitVec.ofNat 64 i ∧ i < 128 ∧
      i + j + 1 = locals.length ∧ locals[j]? = some (z, u) ∧ locals.find z = some u ∧ ∀ u', locals.update z u' = locals.set j (z, u') := by
    intro z hz
    cases hg : scopeGet s.scopes z with
    | none => rw [scopeGet_flatten] at hg; exact absurd ((EnvRepL.get_none hrep).1 hg) hz
    | some b =>
      rw [scopeGet_flatten] at hg
      obtain ⟨j, u, h1, h2, h3, h4⟩ := EnvRepL.get_some hrep hg
      have hj : j < locals.length := by
        by_contra hc
        rw [List.getElem?_eq_none (by omega)] at h1; simp at h1
      exact ⟨b, _, j, u, rfl, h3, by omega, by omega, h1, h2, h4⟩
  obtain ⟨bx, i, j, ux, hbx, h1, h2, h3, h4, h5, h6⟩ := hslot x hx
  obtain ⟨bw, i', j', uy, hbw, h1', h2', h3', h4', h5', h6'⟩ := hslot y hy
  have hc : isConst bx = false := by
    cases hcb : isConst bx with
    | false => rfl
    | true =>
      exfalso
      simp only [CState.storeVar, hbx, hcb, if_true] at hok
      have : s.error.scopes = s.scopes := rfl
      simp [CState.loadVar, this, hbw, CState.error, CState.op, CState.emit] at hok
  have hst : s.storeVar x = (s.op .LSTORE).emit (BitVec.ofNat 8 i) := by
    have : bx = BitVec.ofNat 64 i := by rw [← h1]; simp [getIndex, hc]
    simp only [CState.storeVar, hbx, hc]
    rw [this, setWidth_ofNat]; rfl
  have hld : (s.storeVar x).loadVar y = ((s.storeVar x).op .LLOAD).emit (BitVec.ofNat 8 i') := by
    have : (s.storeVar x).scopes = s.scopes := by rw [hst]; rfl
    simp only [CState.loadVar, this, hbw]
    rw [h1', setWidth_ofNat]
  refine ⟨[Opc.LSTORE.byte, BitVec.ofNat 8 i] ++ [Opc.LLOAD.byte, BitVec.ofNat 8 i'], by rw [hld, hst]; simp [CState.op, CState.emit], ?_⟩
  intro pre post K below loops G w out v hr
  have hA : At (pre ++ ([Opc.LSTORE.byte, BitVec.ofNat 8 i] ++ [Opc.LLOAD.byte, BitVec.ofNat 8 i']) ++ post) pre.length
      ([Opc.LSTORE.byte, BitVec.ofNat 8 i] ++ [Opc.LLOAD.byte, BitVec.ofNat 8 i']) := by
    unfold At; rw [List.append_assoc, List.drop_left]; exact List.prefix_append _ _
  have hj : j < locals.length := by omega
  have hj' : j' < locals.length := by omega
  have hgy : (locals.set j (x, v))[j']? = some (y, if j = j' then v else uy) := by
    rw [List.getElem?_set]
    split
    · rename_i h; subst h
      rw [h4] at h4'; simp at h4'
      simp [hj, h4'.1]
    · exact h4'
  have hset : ((v :: (locals.map Prod.snd ++ below)).tail).set j v = (locals.set j (x, v)).map Prod.snd ++ below := by
    rw [List.tail_cons, List.set_append_left _ _ (by simpa using hj), List.map_set]
  have s1 := step_lstore (F := F) (P := P) (K := K) (fp := (below.length : Int) - 1) (loops := loops) (g := G) (w := w) (out := out) (v := v)
    (st := locals.map Prod.snd ++ below) (j := j) h2 hA.left (by simp; omega) (by omega)
  have s2 := step_lload (F := F) (P := P) (K := K) (fp := (below.length : Int) - 1) (loops := loops) (g := G) (w := w) (out := out)
    (v := if j = j' then v else uy) (st := (locals.set j (x, v)).map Prod.snd ++ below) (j := j') h2' hA.right (by simp; omega) (by omega)
    (by rw [List.getElem?_append_left (by simpa using hj'), List.getElem?_map, hgy]; rfl) (by simp [stackSize]; omega)
  have hjj : y = x → j = j' := by
    rintro rfl
    rw [hbx] at hbw
    obtain rfl : bx = bw := by simpa using hbw
    rw [h1] at h1'
    have := congrArg BitVec.toNat h1'
    simp only [BitVec.toNat_ofNat] at this
    omega
  have hne : y ≠ x → j ≠ j' := by
    rintro hyx rfl
    rw [h4] at h4'
    simp at h4'
    exact hyx h4'.1.symm
  have hu : (locals.update x v).find y = some (if j = j' then v else uy) := by
    by_cases hyx : y = x
    · rw [if_pos (hjj hyx), hyx, LEnv.find_update_self hx]
    · rw [if_neg (hne hyx), LEnv.find_update_ne _ _ hyx, h5']
  refine ⟨_, hu, fun h => if_pos (hjj h), fun h => by rw [if_neg (hne h), h5'], ?_⟩
  simp only [List.tail_cons] at hset
  rw [hset] at s1
  simp only [VM.run]
  rw [s1]
  simp only []
  rw [show pre.length + 2 = pre.length + [Opc.LSTORE.byte, BitVec.ofNat 8 i].length from rfl, s2, h6]
  rfl

/-- C32 is false: outside of functions (where the frame starts at the bottom of the stack), the code for loading a variable with 128 or more
older variables reads in front of the stack array. -/
theorem C32_high_local {W : Type} (F : FloatOps) (P : Prims W) (s : CState) (x : Name) (locals : LEnv) (hd : Describes s.scopes locals)
    (j : Nat) (u : Val) (hj : locals[j]? = some (x, u)) (hfirst : ∀ j' < j, ∀ u', locals[j']? ≠ some (x, u'))
    (hold : 128 ≤ locals.length - 1 - j) (hn : locals.length ≤ 255) :
    ∃ c, (s.loadVar x).buffer = s.buffer ++ c ∧
      ∀ (pre post : List Byte) (K : List Val) (loops : List (Nat × Val)) (G : Name → Option Val) (w : W) (out : List Byte),
        ∃ m, VM.run F P (pre ++ c ++ post) K 1 ⟨pre.length, locals.map Prod.snd, -1, loops, G, w, out⟩ = .stop m .ub := by
  have hrep := Describes.envRepL hd.1 hd.2
  have hfind : locals.find x ≠ none := by
    intro hc
    simp only [LEnv.find, Option.map_eq_none_iff, List.find?_eq_none] at hc
    exact hc _ (List.mem_of_getElem? hj) (by simp)
  obtain ⟨b, hb⟩ : ∃ b, scopeGet s.scopes x = some b := by
    cases hg : scopeGet s.scopes x with
    | none => rw [scopeGet_flatten] at hg; exact absurd ((EnvRepL.get_none hrep).1 hg) hfind
    | some b => exact ⟨b, rfl⟩
  have hjl : j < locals.length := by omega
  have hidx : getIndex b = BitVec.ofNat 64 (locals.length - 1 - j) := by
    rw [scopeGet_flatten] at hb
    obtain ⟨j', u', h1, h2, h3, h4⟩ := EnvRepL.get_some hrep hb
    have hj' : ¬ j' < j := fun h => hfirst j' h u' h1
    have hj'' : ¬ j < j' := by
      intro h
      have e := congrArg (fun l => l[j']?) (h4 (if u' = .undef then .bool true else .undef))
      have hpre : ∀ (env : LEnv) (j j' : Nat) (x : Name) (u v : Val), env[j]? = some (x, u) → j < j' → (env.update x v)[j']? = env[j']? := by
        intro env
        induction env with
        | nil => intros; rfl
        | cons q env ih =>
          intro j j' x u v hj hlt
          obtain ⟨y, t⟩ := q
          obtain ⟨j', rfl⟩ : ∃ k, j' = k + 1 := ⟨j' - 1, by omega⟩
          unfold LEnv.update
          split
          · rfl
          · rename_i hyx
            cases j with
            | zero => simp at hj; exact absurd hj.1 hyx
            | succ j => simpa using ih j j' x u v (by simpa using hj) (by omega)
      rw [hpre locals j j' x u _ hj h, h1, List.getElem?_set] at e
      have hl : j' < locals.length := by
        by_contra hc
        rw [List.getElem?_eq_none (by omega)] at h1; simp at h1
      simp only [if_true, hl, if_pos] at e
      by_cases hu : u' = .undef
      · simp [hu] at e
      · simp [hu] at e
    rw [h3]; congr 2; omega
  refine ⟨[Opc.LLOAD.byte, BitVec.ofNat 8 (locals.length - 1 - j)], ?_, ?_⟩
  · simp only [CState.loadVar, hb]
    rw [hidx, setWidth_ofNat]; simp [CState.op, CState.emit]
  intro pre post K loops G w out
  have hA : At (pre ++ [Opc.LLOAD.byte, BitVec.ofNat 8 (locals.length - 1 - j)] ++ post) pre.length
      [Opc.LLOAD.byte, BitVec.ofNat 8 (locals.length - 1 - j)] := by
    unfold At; rw [List.append_assoc, List.drop_left]; exact List.prefix_append _ _
  have hneg : (BitVec.ofNat 8 (locals.length - 1 - j)).toInt < 0 := by
    have hn' : locals.length - 1 - j < 256 := by omega
    generalize locals.length - 1 - j = n at hold hn'
    rw [BitVec.toInt_eq_toNat_cond]
    simp only [BitVec.toNat_ofNat]
    rw [if_neg (by omega)]
    omega
  simp only [VM.run]
  rw [step_fetch hA, dispatch_lload]
  simp only [VM.readByte, hA.tail.head]
  have hs : ∀ m : VM W, m.slot (-1 + (BitVec.ofNat 8 (locals.length - 1 - j)).toInt + 1) = none := by
    intro m; unfold VM.slot; rw [if_pos (by omega)]
  rw [hs]
  simp only [VM.badSlot]
  rw [if_pos (by omega)]
  exact ⟨_, rfl⟩

theorem EnvRepL.describes : ∀ {sc : Scope} {locals : LEnv}, EnvRepL sc locals → Describes [sc] locals
  | [], [], _ => ⟨rfl, by intro j x z h; simp at h⟩
  | (x, z) :: sc, (y, v) :: locals, h => by
    obtain ⟨rfl, hz, h⟩ := h
    have ih := EnvRepL.describes h
    simp only [Describes, List.flatten_cons, List.flatten_nil, List.append_nil] at ih ⊢
    refine ⟨by simp [ih.1], fun j x' z' hj => ?_⟩
    cases j with
    | zero => simp at hj; obtain ⟨rfl, rfl⟩ := hj; simpa using hz
    | succ j =>
      rw [ih.2 j x' z' (by simpa using hj)]
      congr 1; simp; omega
  | [], _ :: _, h => by simp [EnvRepL] at h
  | _ :: _, [], h => by simp [EnvRepL] at h

theorem declAll_aux : ∀ (names pre : List Name) (s : CState) (sc : Scope), s.ok = true → s.scopes = [sc] →
    EnvRepL sc (pre.reverse.map fun x => (x, .undef)) → (pre ++ names).Nodup → (pre ++ names).length ≤ 255 →
    ∃ sc', (names.foldl CState.declVar s).ok = true ∧ (names.foldl CState.declVar s).scopes = [sc'] ∧
      EnvRepL sc' ((pre ++ names).reverse.map fun x => (x, .undef))
  | [], pre, s, sc, hok, hs, hr, _, _ => ⟨sc, hok, hs, by simpa using hr⟩
  | x :: names, pre, s, sc, hok, hs, hr, hd, hn => by
    have hx : x ∉ pre := by
      intro hc
      have := (List.nodup_append.1 hd).2.2 x hc x (by simp)
      exact this rfl
    have hget : sc.get x = none := by
      rw [EnvRepL.get_none hr]
      simp [LEnv.find]
      intro a ha hax; exact hx (hax ▸ ha)
    have hlen : sc.length = pre.length := by simpa using EnvRepL.length hr
    have he : s.declVar x = { s with scopes := [(x, BitVec.ofNat 64 sc.length) :: sc] } := by
      simp only [CState.declVar, hs, Scope.put, hget, if_true, scopeLen]
      simp only [List.map_cons, List.map_nil, List.sum_cons, List.sum_nil, List.length_cons, Nat.add_zero]
      rw [if_neg (by simp at hn; omega)]
    have := declAll_aux names (pre ++ [x]) (s.declVar x) ((x, BitVec.ofNat 64 sc.length) :: sc) (by rw [he]; exact hok) (by rw [he])
      (by simp only [List.reverse_append, List.reverse_cons, List.reverse_nil, List.nil_append, List.singleton_append, List.map_cons]
          refine ⟨rfl, ?_, hr⟩
          rw [hlen, getIndex_ofNat (by simp at hn; omega)]; simp) (by simpa using hd) (by simpa using hn)
    simpa using this

/-- The compiler accepts up to 255 variables: declaring variables with different names in the scope of the program is never an error, and
each gets the number of older ones as its index. -/
theorem C32_accepted (names : List Name) (hd : names.Nodup) (hn : names.length ≤ 255) :
    ∃ s, s = names.foldl CState.declVar CState.initial.enterScope ∧ s.ok = true ∧ Describes s.scopes (names.reverse.map fun x => (x, .undef)) := by
  obtain ⟨sc, h1, h2, h3⟩ := declAll_aux names [] CState.initial.enterScope [] rfl rfl trivial (by simpa using hd) (by simpa using hn)
  exact ⟨_, rfl, h1, by rw [h2]; simpa using h3.describes⟩

/-- `let a0 = 7; ...; let a(n-1) = 7; echo a(n-1)` -/
def demoMany (n : Nat) : Stmts := .of (((List.range n).map fun i => .decl [.let_ [97, BitVec.ofNat 8 i]] (.cons (.int 7) .nil)) ++
  [.echo (.var [97, BitVec.ofNat 8 (n - 1)])])

/-- C32: a declaration in any scope, at any depth of nested blocks, gives the new variable its own slot, above those of all other variables in
sight, and leaves the others' slots alone.  (With `C32_slots_partial` this describes the memory of every sequence of declarations.) -/
theorem C32_declared (s : CState) (x : Name) (v : Val) (locals : LEnv) (hd : Describes s.scopes locals) (hne : s.scopes ≠ [])
    (hx : s.containsCur x = false) (hok : (s.declVar x).ok = true) (hl : locals.length < 2 ^ 63) :
    Describes (s.declVar x).scopes ((x, v) :: locals) := by
  have h := declVar_spec s x hne hx hok
  have hr : EnvRepL s.scopes.flatten locals := Describes.envRepL hd.1 hd.2
  have hlen : scopeLen s.scopes = locals.length := by rw [scopeLen_flatten]; exact EnvRepL.length hr
  have hr' : EnvRepL (s.declVar x).scopes.flatten ((x, v) :: locals) := by
    rw [h.flatten]
    exact ⟨rfl, by rw [hlen, getIndex_ofNat (by omega)], hr⟩
  have := EnvRepL.describes hr'
  simpa [Describes] using this

/-- two blocks deep, with variables in both -/
example : Describes ((CState.declVar ⟨[], [[], [([97], 0#64)]], [], [], [], [], true⟩ [98]).scopes) [([98], .undef), ([97], .undef)] := by
  refine C32_declared _ _ _ [([97], .undef)] ⟨rfl, ?_⟩ (by simp) (by decide) (by decide) (by simp)
  intro j x z h
  match j with
  | 0 => simp at h; obtain ⟨_, rfl⟩ := h; decide
  | j + 1 => simp at h

/-- C32 is false for a whole program: with 128 variables it prints the last one, with 129 it reads in front of the stack. -/
theorem C32_program :
    demoMeaning (demoMany 128) 200 = ([55, 10], .normal) ∧ demoRun (demoMany 128) 400 = some ([55, 10], .halt) ∧
    demoMeaning (demoMany 129) 200 = ([55, 10], .normal) ∧ demoRun (demoMany 129) 400 = some ([], .ub) := by
  refine ⟨?_, ?_, ?_, ?_⟩ <;> decide +kernel
end Yasl
