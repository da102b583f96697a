import Verif.Spec.Closures
import Verif.Proofs.ClosuresUp
import Verif.Props.RefCount
set_option autoImplicit false
/-! # C117: the memory of closures and of the variables they capture -/
namespace Yasl

theorem ClInv.init : ClInv KState.init :=
  ⟨RInv.init, ⟨(nofun : ∀ u ∈ ([] : List Nat), _), fun _ i h _ => (nofun : KKind.plain ≠ .opened i) h |>.elim, List.nodup_nil⟩⟩

theorem NothingLost.inv {ops : List KOp} {s : KState} (nl : NothingLost ops) (e : EndsIn ops s) : ClInv s := by
  rcases krun_safe ops ClInv.init nl with e' | ⟨s', e', I⟩
  · rw [EndsIn, e'] at e; cases e
  · rw [EndsIn, e'] at e; cases e; exact I

/-- **C117** (part; histories in which no captured variable is lost): no freed memory is used, and the count of every object, closures and captured variables
included, is the number of references to it. -/
theorem C117_counts_partial (ops : List KOp) (nl : NothingLost ops) :
    (KState.init.run ops).res ≠ .uaf ∧ (KState.init.run ops).res ≠ .fuel ∧
    ∀ s, EndsIn ops s → ∀ a c, s.mem.heap.cell a = some c → c.refs = s.refsTo a := by
  rcases krun_safe ops ClInv.init nl with e | ⟨s', e, I⟩
  · rw [e]; exact ⟨by simp, by simp, fun s h => by rw [EndsIn, e] at h; cases h⟩
  · refine ⟨by rw [e]; simp, by rw [e]; simp, fun s h a c ec => ?_⟩
    rw [EndsIn, e] at h; cases h
    have hr := I.r.refs a
    have e1 : s'.toR.heap.refsOf a = c.refs := by unfold RHeap.refsOf; rw [show s'.toR.heap.cell a = some c from ec]
    rw [e1] at hr
    rw [hr]
    show s'.toR.refsTo a + 0 = _
    simp [RState.refsTo, KState.refsTo, KState.toR]
    rfl

theorem KState.Reach.toR {s : KState} {a : Nat} (r : s.Reach a) : s.toR.Reach a := by
  induction r with
  | slot m => exact .slot m
  | held _ h ih => exact .held ih h

theorem KState.Reach.ofR {s : KState} {a : Nat} (r : s.toR.Reach a) : s.Reach a := by
  induction r with
  | slot m => exact .slot m
  | loop m => exact absurd m (List.not_mem_nil)
  | held _ h ih => exact .held ih h

/-- **C117** (part): what the program can get at, the variables its closures captured included, is not freed. -/
theorem C117_reachable_kept_partial (ops : List KOp) (nl : NothingLost ops) (s : KState) (e : EndsIn ops s) (a : Nat) (r : s.Reach a) : s.mem.heap.Live a :=
  (nl.inv e).r.reach_live r.toR

/-- **C117** (part): an object that nothing can get at is freed, unless a cycle holds it (a closure that captured itself is one). -/
theorem C117_unreachable_freed_partial (ops : List KOp) (nl : NothingLost ops) (s : KState) (e : EndsIn ops s) (a : Nat) (nr : ¬ s.Reach a)
    (nc : ¬ s.mem.heap.BelowCycle a) : s.mem.heap.cell a = none := by
  by_contra h
  obtain ⟨c, ec⟩ := Option.ne_none_iff_exists'.1 h
  exact nc (unreached_below_cycle (nl.inv e).r ⟨c, ec⟩ fun r => nr (.ofR r))

/-- **C117** (part): the end of a call closes the upvalues without use of freed memory, whatever variables are captured, by whichever closures: afterwards no upvalue
points at a slot from `fp` on, if those of higher slots come first in the list (see C35). -/
theorem C117_close_partial (ops : List KOp) (nl : NothingLost ops) (s : KState) (e : EndsIn ops s) (fp : Nat) : ∃ s', s.closeAll fp = .ok s' ∧
    ((∀ u ∈ s.pending, ∀ i, s.mem.kind u = .opened i → fp ≤ i) → ∀ u i, s'.mem.kind u = .opened i → s'.mem.heap.cell u = none) := by
  obtain ⟨s', e', I', _, h⟩ := k_closeAll_spec (nl.inv e) fp
  refine ⟨s', e', fun hh u i hk => ?_⟩
  by_contra hc
  have := I'.o.all u i hk hc
  rw [h hh] at this; cases this

/-- **C117** (part): the end of the program, when no function is running, uses no freed memory and frees everything that no cycle holds. -/
theorem C117_cleanup_partial (ops : List KOp) (nl : NothingLost ops) (s : KState) (e : EndsIn ops s) (fp : Nat)
    (hfp : ∀ u ∈ s.pending, ∀ i, s.mem.kind u = .opened i → fp ≤ i) :
    (s.cleanup fp).lost = false ∧ ∃ m, (s.cleanup fp).res = .ok m ∧ ∀ a c, m.heap.cell a = some c → m.heap.BelowCycle a := by
  obtain ⟨s1, e1, I1, n1, h1⟩ := k_closeAll_spec (nl.inv e) fp
  have p1 := h1 hfp
  have Q : ∀ u i, s1.mem.kind u = .opened i → s1.mem.heap.cell u = none := by
    intro u i hk
    by_contra hc
    have := I1.o.all u i hk hc
    rw [p1] at this; cases this
  have e2 : s.cleanup fp = s1.mem.decSlots s1.fuel 0 1024 := by
    unfold KState.cleanup
    rw [KRes.bind_ok (a := s1) e1]
    show (⟨false || _, _⟩ : KRes KMem) = _
    rw [Bool.false_or]
  rw [e2]
  have l := decSlots_quiet s1.fuel 1024 s1.mem 0 Q
  refine ⟨l, ?_⟩
  have S := decSlots_same s1.fuel 1024 s1.mem 0 l
  have len : s1.mem.slots.length = 1024 := I1.r.len
  have et : (s1.mem.slots.drop 0).take 1024 = s1.mem.slots := by rw [List.drop_zero, List.take_of_length_le (by omega)]
  rw [et] at S
  obtain ⟨h2, g1, B2, S2⟩ := decAll_ok (f := s1.fuel) (D := ∅) (R := []) (h := s1.mem.heap) s1.mem.slots (by simpa [KState.toR] using I1.r.bal) (by intro a ha; simp at ha) (posSet_le _)
  rw [g1] at S
  rcases em : (s1.mem.decSlots s1.fuel 0 1024).res with m | _ | _ | _ <;> rw [em] at S
  · obtain ⟨a1, _⟩ := S
    cases a1
    refine ⟨m, rfl, fun a c ec => ?_⟩
    have I2 : RInv [] ⟨m.heap, List.replicate 1024 none, 0, []⟩ := by
      refine ⟨B2.congr fun x => ?_, List.length_replicate .., Nat.zero_le _, I1.r.nz.shr S2⟩
      rw [List.count_append, count_none]; rfl
    refine unreached_below_cycle I2 ⟨c, ec⟩ fun r => ?_
    have nr : ∀ (x : RState) (b : Nat), x.slots = List.replicate 1024 none → x.loops = [] → ¬ x.Reach b := by
      intro x b h1 h2 r
      induction r with
      | slot m => rw [h1] at m; have := (List.mem_replicate.1 m).2; cases this
      | loop m => rw [h2] at m; cases m
      | held _ _ ih => exact ih
    exact nr _ a rfl rfl r
  · cases S
  · cases S
  · rcases S with S | S
    · cases S
    · omega

/-! ## A history that loses nothing, and three that do -/

/-- `let x = "…"; let f = fn() { … x … };` in a function (the slots of `x` and `f` are 1 and 2), which returns `f`; then `f` runs (slot 0): it reads `x` and
assigns a new string to it.  The call ends, and `f` is given up. -/
def demoClosure : List KOp := [.pushPlain, .pushNew, .closure 0 [.local_ 1], .load 2, .closeAll 0, .rmRange 0 3, .uload 0 0, .pushNew, .ustore 0 0, .uload 0 0,
  .pushPlain, .store 0, .pop, .pop, .pushPlain, .pushPlain, .pushPlain]

/-- What there is of objects 0 to 3 (string, upvalue, closure, string), and the slot of the first variable. -/
def lookAtK (r : KRes KState) : Bool × RcRes (List (Option Cell) × Option RV × List Nat) :=
  (r.lost, r.res.bind fun s => .ok ((List.range 4).map s.mem.heap.cell, s.mem.slots[0]?, s.pending))

/-- While `f` runs: the upvalue, object 1, is held by `f`, object 2, and holds the new string, object 3; the old one is still on the stack. -/
example : lookAtK (KState.init.run (demoClosure.take 10)) = (false, .ok ([some ⟨1, []⟩, some ⟨1, [some 3]⟩, some ⟨2, [some 1]⟩, some ⟨2, []⟩], some (some 2), [])) := by
  decide +kernel

/-- At the end all is freed. -/
example : lookAtK (KState.init.run demoClosure) = (false, .ok ([none, none, none, none], some none, [])) := by decide +kernel

example : (KState.init.run demoClosure).res ≠ .uaf := (C117_counts_partial demoClosure (by unfold NothingLost; decide +kernel)).1

example : ∃ s, EndsIn (demoClosure.take 4) s ∧ ∃ s', s.closeAll 0 = .ok s' := by
  have nl : NothingLost (demoClosure.take 4) := by unfold NothingLost; decide +kernel
  rcases krun_safe _ ClInv.init nl with e | ⟨s, e, _⟩
  · have : ending (KState.init.run (demoClosure.take 4)) = .ok () := by decide +kernel
    rw [ending, e] at this; cases this
  · obtain ⟨s', h, _⟩ := C117_close_partial _ nl s e 0
    exact ⟨s, e, s', h⟩

/-- C117 is false: when a closure is given up while the variable it alone captured is still on the stack, the variable loses its value.  `let x = "…"; f(fn() { … x … });` in a
function: `x` is in slot 1, the closure was pushed as argument and is overwritten later.  The string is freed, `x` is `undef`; when the function returns, or captures
a variable once more, freed memory is read. -/
theorem C117_variable_lost_counterexample :
    let ops : List KOp := [.pushPlain, .pushNew, .closure 0 [.local_ 1], .pop, .pushPlain]
    ¬ NothingLost ops ∧ ((KState.init.run ops).res.bind fun s => .ok (s.mem.slots[1]?, s.mem.heap.cell 0, decide (1 < s.top))) = .ok (some none, none, true) ∧
    ending (KState.init.run (ops ++ [.closeAll 0])) = .uaf ∧ ending (KState.init.run (ops ++ [.closure 0 [.local_ 1]])) = .uaf := by
  refine ⟨?_, ?_, ?_, ?_⟩
  · unfold NothingLost; decide +kernel
  all_goals decide +kernel

/-- C117 is false: the same without a counted value (`let x = 1`): nothing is freed early but the upvalue, which is read when the function returns. -/
theorem C117_number_counterexample : ending (KState.init.run [.pushPlain, .pushPlain, .closure 0 [.local_ 1], .pop, .pushPlain, .closeAll 0]) = .uaf := by
  decide +kernel

/-- C117 is false for variables of blocks: `let f; if … { let x = "…"; let y = "…"; f = fn() { … y … }; } f();` reads `y` where it was, above the stack, and uses it after
it was freed. -/
theorem C117_block_counterexample :
    ending (KState.init.run [.pushPlain, .pushNew, .pushNew, .closure 0 [.local_ 2], .store 0, .pop, .pop, .load 0, .uload 1 0]) = .uaf := by
  decide +kernel

/-- C117 is false when an error ends the program inside of a function: `let x = "…"; let y = x; let f = fn() { … x … };` and an error in a call (`fp` is 3): no variable is
lost before, but the end of the program frees `x` twice, once by the stack and once by the upvalue, which was not closed. -/
theorem C117_error_counterexample : let ops : List KOp := [.pushNew, .load 0, .closure 0 [.local_ 0], .pushPlain]
    NothingLost ops ∧ ((KState.init.run ops).res.bind fun s => (s.cleanup 3).res.bind fun _ => .ok ()) = .uaf := by
  refine ⟨?_, ?_⟩
  · unfold NothingLost; decide +kernel
  · decide +kernel

end Yasl
