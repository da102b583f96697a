import Verif.Proofs.Upvalue
set_option autoImplicit false
/-!
# Captured variables: C35

`Vars` (in `Verif.Spec.Capture`) says what the variables are; `UVM` is the machine with its stack and its list of open upvalues.
-/
namespace Yasl

/-- The machine and the variables after a history. -/
def machineAfter (ops : List CapOp) : UVM := ops.foldl UVM.op UVM.initial
def varsAfter (ops : List CapOp) : Vars := ops.foldl Vars.op Vars.initial

/-- No closure assigns a variable of a function that has returned. -/
def AssignsLive (s : Vars) : CapOp → Prop
  | .assignCaptured j _ => ∀ w, s.cap j = some w → w ∈ s.live
  | _ => True

/-- The captures are in order: each captured variable is not newer than any captured variable that still exists; blocks do not end while a variable of theirs is
captured; functions with captured variables return with `O_CRET`. -/
def InOrder (s : Vars) : CapOp → Prop
  | .capture k => ∀ w, s.var k = some w → ∀ u ∈ s.captured, u ∈ s.live → s.live.idxOf u ≤ s.live.idxOf w
  | .pop => ∀ u ∈ s.captured, u ∈ s.live → u ∈ (s.op .pop).live
  | .ret false => ∀ u ∈ s.captured, u ∈ s.live → u ∈ (s.op (.ret false)).live
  | _ => True

theorem linv_step {m : UVM} {s : Vars} (h : LInv m s) (o : CapOp) (hp : s.possible o) (ha : AssignsLive s o) : LInv (m.op o) (s.op o) := by
  cases o with
  | push v => exact h.push v
  | pop => exact h.pop hp
  | call n => exact h.call hp
  | ret c => exact h.ret hp
  | capture k => exact h.capture hp
  | assign k v => exact h.assign hp
  | assignCaptured j v =>
    obtain ⟨w, hw⟩ := Option.isSome_iff_exists.1 hp
    exact h.assignCaptured hw (ha w hw)

theorem linv_run : ∀ (ops : List CapOp) {m : UVM} {s : Vars}, LInv m s → s.each Vars.possible ops → s.each AssignsLive ops →
    LInv (ops.foldl UVM.op m) (ops.foldl Vars.op s)
  | [], _, _, h, _, _ => h
  | o :: ops, _, _, h, hp, ha => linv_run ops (linv_step h o hp.1 ha.1) hp.2 ha.2

theorem sinv_step {m : UVM} {s : Vars} (h : OInv m s) (o : CapOp) (hp : s.possible o) (ho : InOrder s o) : OInv (m.op o) (s.op o) := by
  cases o with
  | push v => exact h.push v
  | pop =>
    obtain ⟨f, fs, hf, hb, hbs⟩ := bases_ne h.bases
    simp only [Vars.possible, hf, List.headD_cons] at hp
    obtain ⟨x, f', rfl⟩ : ∃ x f', f = x :: f' := by cases f with | nil => simp at hp | cons x f' => exact ⟨x, f', rfl⟩
    have hs : s.op .pop = { s with frames := f' :: fs } := by simp [Vars.op, hf]
    have := h.drop (frames := f' :: fs) (pre := [x]) (by simp [Vars.live, hf]) (base := m.base) (callers := m.callers) (by simp [basesOf, hb, hbs])
      (by have := h.outer; rw [hf] at this; exact this) (by have := ho; simp only [InOrder, hs] at this; exact this)
    have hm : m.op .pop = { m with len := (f' :: fs).flatten.length, base := m.base, callers := m.callers } := by
      simp only [UVM.op]
      have := h.len
      simp [Vars.live, hf] at this
      rw [this]; simp
    rw [hs, hm]; exact this
  | call n =>
    obtain ⟨f, fs, hf, hb, hbs⟩ := bases_ne h.bases
    simp only [Vars.possible, hf, List.headD_cons] at hp
    have hs : s.op (.call n) = { s with frames := f.take n :: f.drop n :: fs } := by simp [Vars.op, hf]
    have hfl : (f.take n :: f.drop n :: fs).flatten = s.live := by simp [Vars.live, hf, ← List.append_assoc]
    have hlen := h.len
    simp [Vars.live, hf] at hlen
    have := h.drop (frames := f.take n :: f.drop n :: fs) (pre := []) (by simp [hfl]) (base := m.len - n) (callers := m.base :: m.callers)
      (by simp [basesOf, hb, hbs, hlen]; omega) (by
        have := h.outer; rw [hf] at this
        intro g hg
        rcases List.mem_cons.1 hg with rfl | hg
        · intro hc; simp at hc; omega
        · exact this g hg) (by rw [hfl]; exact fun _ _ h => h)
    rw [hs]
    simpa [UVM.op, hfl, ← h.len] using this
  | ret c =>
    simp only [Vars.possible] at hp
    obtain ⟨f, g, fs, hf⟩ : ∃ f g fs, s.frames = f :: g :: fs := by
      match hh : s.frames with
      | f :: g :: fs => exact ⟨f, g, fs, rfl⟩
      | [f] => rw [hh] at hp; simp at hp
      | [] => rw [hh] at hp; simp at hp
    have hs : ∀ c, s.op (.ret c) = { s with frames := g.tail :: fs } := by intro c; simp [Vars.op, hf]
    have hr := ret_op h.toLInv hf
    rw [hs]
    cases c with
    | true =>
      have := h.closeAll hf
      simpa [UVM.op, hr] using this
    | false =>
      obtain ⟨f', fs', hf', hb, hbs⟩ := bases_ne h.bases
      rw [hf] at hf'; simp only [List.cons.injEq] at hf'; obtain ⟨rfl, rfl⟩ := hf'
      have := h.drop (frames := g.tail :: fs) (pre := f ++ g.take 1) (by
        cases g with
        | nil => simp [Vars.live, hf]
        | cons x g => simp [Vars.live, hf]) (base := m.callers.headD 0) (callers := m.callers.tail) (by rw [← hbs]; simp [basesOf])
        (by have := h.outer; rw [hf] at this; exact fun g hg => this g (by simp at hg ⊢; exact .inr hg))
        (by have := ho; simp only [InOrder, hs] at this; exact this)
      simpa [UVM.op, hr] using this
  | capture k =>
    obtain ⟨w, hw⟩ := Option.isSome_iff_exists.1 hp
    exact h.capture hw (ho w hw)
  | assign k v =>
    obtain ⟨w, hw⟩ := Option.isSome_iff_exists.1 hp
    have := h.write v (var_addr h.toLInv hw)
    simpa [UVM.op, Vars.op, hw] using this
  | assignCaptured j v =>
    obtain ⟨w, hw⟩ := Option.isSome_iff_exists.1 hp
    exact h.assignCaptured hw

theorem sinv_run : ∀ (ops : List CapOp) {m : UVM} {s : Vars}, OInv m s → s.each Vars.possible ops → s.each InOrder ops →
    OInv (ops.foldl UVM.op m) (ops.foldl Vars.op s)
  | [], _, _, h, _, _ => h
  | o :: ops, _, _, h, hp, ha => sinv_run ops (sinv_step h o hp.1 ha.1) hp.2 ha.2

/-- C35, the part that holds while the declaring function runs: after every history (in which no closure assigns a variable of a function that has
returned), every capture of a variable that still exists reads the value of that variable, whoever assigned it last — the function itself, or any
of the closures that captured it —, and so does the function.  Missing: variables of functions that have returned, where it is false. -/
theorem C35_live_partial (ops : List CapOp) (hp : Vars.initial.each Vars.possible ops) (ha : Vars.initial.each AssignsLive ops) :
    (∀ j w, (varsAfter ops).cap j = some w → w ∈ (varsAfter ops).live → (machineAfter ops).readCaptured j = some ((varsAfter ops).value w)) ∧
    (∀ k w, (varsAfter ops).var k = some w → (machineAfter ops).stack ((machineAfter ops).base + k) = (varsAfter ops).value w) := by
  have h := linv_run ops initial_linv hp ha
  refine ⟨fun j w hj hw => ?_, fun k w hk => h.vals _ w (var_addr h hk)⟩
  obtain ⟨i, hi, hz⟩ := cap_up h hj
  obtain ⟨a, haddr⟩ := mem_addr hw
  unfold UVM.readCaptured
  show (Option.map _ ((ops.foldl UVM.op UVM.initial).caps.reverse[j]?)) = _
  rw [hi]
  exact congrArg some (h.upval hz haddr)

/-- C35, the part that holds before and after the declaring function returns: after every history in which captures are in order, every capture reads
the value of its variable, whoever assigned it last; two captures of the same variable always agree.  Missing: captures in another order, where
it is false (`C35_file_variable`, `C35_not_shared`), blocks that end (`C35_block`), early returns (`C35_early_return`). -/
theorem C35_in_order_partial (ops : List CapOp) (hp : Vars.initial.each Vars.possible ops) (ho : Vars.initial.each InOrder ops) :
    (∀ j w, (varsAfter ops).cap j = some w → (machineAfter ops).readCaptured j = some ((varsAfter ops).value w)) ∧
    (∀ k w, (varsAfter ops).var k = some w → (machineAfter ops).stack ((machineAfter ops).base + k) = (varsAfter ops).value w) := by
  have h := sinv_run ops initial_sinv hp ho
  refine ⟨fun j w hj => ?_, fun k w hk => h.vals _ w (var_addr h.toLInv hk)⟩
  obtain ⟨i, hi, hz⟩ := cap_up h.toLInv hj
  unfold UVM.readCaptured
  show (Option.map _ ((ops.foldl UVM.op UVM.initial).caps.reverse[j]?)) = _
  rw [hi]
  exact congrArg some (h.read hz)

/-- A function with variables 1 and 2, both captured twice (the newer one first), which then returns; both closures assign; the stack is reused. -/
def demoCaptures : List CapOp := [.push .undef, .call 0, .push (.int 1#64), .push (.int 2#64), .capture 1, .capture 0, .capture 0, .assignCaptured 1 (.int 7#64),
  .ret true, .push (.int 100#64), .push (.int 101#64), .push (.int 102#64), .assignCaptured 2 (.int 9#64)]

/-- the hypotheses are met, and the first variable, assigned through its second capture after the return, is read through its first -/
example : (Vars.initial.each Vars.possible demoCaptures ∧ Vars.initial.each InOrder demoCaptures) ∧ (machineAfter demoCaptures).readCaptured 1 = some (.int 9#64) ∧
    (machineAfter demoCaptures).readCaptured 0 = some (.int 2#64) := by
  refine ⟨⟨by simp [demoCaptures, Vars.each, Vars.possible, Vars.op, Vars.initial, Vars.var, Vars.cap, Vars.set], ?_⟩, by rfl, by rfl⟩
  simp [demoCaptures, Vars.each, InOrder, Vars.op, Vars.initial, Vars.var, Vars.cap, Vars.set, Vars.live, List.idxOf, List.findIdx, List.findIdx.go]

/-- C35 is false once a variable of the file is captured:

`let x = 1; let g = fn() { return x; }; fn mk() { let y = 2; return fn() { return y; }; }; let h = mk(); ...`

The variable `x` is captured, then `mk` is called, `y` is captured in it and `mk` returns with `O_CRET`.  The upvalue of `y` is not closed: the closure reads the
slot of the stack where `y` was, here the value pushed next, and assigning `y` overwrites it. -/
theorem C35_file_variable : let ops : List CapOp := [.push (.int 1#64), .capture 0, .push .undef, .call 0, .push (.int 2#64), .capture 0, .ret true,
      .push (.int 50#64), .push (.int 51#64)]
    Vars.initial.each Vars.possible ops ∧ (varsAfter ops).cap 1 = some 2 ∧ (varsAfter ops).value 2 = .int 2#64 ∧
    (machineAfter ops).readCaptured 1 = some (.int 51#64) ∧
    (machineAfter (ops ++ [.assignCaptured 1 (.int 9#64)])).stack 2 = .int 9#64 := by
  refine ⟨by simp [Vars.each, Vars.possible, Vars.op, Vars.initial, Vars.var, Vars.cap, Vars.set], rfl, rfl, rfl, rfl⟩

/-- C35 is false for two closures of the same function: when an older variable was captured before, two captures of a newer one get two upvalues, and after
the return they are two variables: an assignment through one is not seen through the other. -/
theorem C35_not_shared : let ops : List CapOp := [.push .undef, .call 0, .push (.int 1#64), .push (.int 2#64), .capture 0, .capture 1, .capture 1, .ret true,
      .assignCaptured 1 (.int 9#64)]
    Vars.initial.each Vars.possible ops ∧ (varsAfter ops).cap 1 = (varsAfter ops).cap 2 ∧
    (machineAfter ops).readCaptured 1 = some (.int 9#64) ∧ (machineAfter ops).readCaptured 2 = some (.int 2#64) := by
  refine ⟨by simp [Vars.each, Vars.possible, Vars.op, Vars.initial, Vars.var, Vars.cap, Vars.set], rfl, rfl, rfl⟩

/-- C35 is false for variables of blocks: at the end of a block its variables are popped, and no upvalue is closed (compiler/compiler.c:78-87), so that the
next variable takes the place. -/
theorem C35_block : let ops : List CapOp := [.push (.int 1#64), .capture 0, .pop, .push (.int 50#64)]
    Vars.initial.each Vars.possible ops ∧ (varsAfter ops).cap 0 = some 0 ∧ (varsAfter ops).value 0 = .int 1#64 ∧
    (machineAfter ops).readCaptured 0 = some (.int 50#64) := by
  refine ⟨by simp [Vars.each, Vars.possible, Vars.op, Vars.initial, Vars.var, Vars.cap, Vars.set], rfl, rfl, rfl⟩

/-- C35 is false for a `return` that is compiled before the closure (in a loop): `O_RET` closes nothing (compiler/compiler.c:470, 482: the choice is made by
`usedinclosure` when the `return` is compiled). -/
theorem C35_early_return : let ops : List CapOp := [.push .undef, .call 0, .push (.int 1#64), .capture 0, .ret false, .push (.int 50#64), .push (.int 51#64)]
    Vars.initial.each Vars.possible ops ∧ (varsAfter ops).cap 0 = some 1 ∧ (varsAfter ops).value 1 = .int 1#64 ∧
    (machineAfter ops).readCaptured 0 = some (.int 51#64) := by
  refine ⟨by simp [Vars.each, Vars.possible, Vars.op, Vars.initial, Vars.var, Vars.cap, Vars.set], rfl, rfl, rfl⟩

end Yasl
