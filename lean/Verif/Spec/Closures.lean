import Verif.Model.Closures
import Verif.Spec.RefCount
set_option autoImplicit false
/-! # What reference counting of closures has to achieve -/
namespace Yasl

/-- The number of references to an object: from the slots of the stack (also those above the top, which are not cleared by a pop) and from the objects that
are there; closures hold their upvalues, and closed upvalues their values. -/
def KState.refsTo (s : KState) (a : Nat) : Nat :=
  s.mem.slots.count (some a) + ∑ i ∈ Finset.range s.mem.heap.next, (match s.mem.heap.cell i with | none => 0 | some c => c.items.count (some a))

/-- The program can get at the object. -/
inductive KState.Reach (s : KState) : Nat → Prop where
  | slot {a : Nat} : some a ∈ s.mem.slots → s.Reach a
  | held {a b : Nat} : s.Reach a → s.mem.heap.Holds a b → s.Reach b

/-- No captured variable was lost in the history: no closure was freed that alone held the upvalue of a variable still on the stack, and no variable was read
through its upvalue when the block that declared it had been left. -/
def NothingLost (ops : List KOp) : Prop := (KState.init.run ops).lost = false

/-- The history ends in the state (and not with an index out of range or a full stack). -/
def EndsIn (ops : List KOp) (s : KState) : Prop := (KState.init.run ops).res = .ok s

/-- How an operation ends: well, or with a use of freed memory (`uaf`). -/
def ending {α : Type} (r : KRes α) : RcRes Unit := r.res.bind fun _ => .ok ()

end Yasl
