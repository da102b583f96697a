import Verif.Model.RefCount
import Mathlib.Algebra.BigOperators.Group.Finset.Basic
set_option autoImplicit false
/-! # What reference counting has to achieve -/
namespace Yasl

/-- Object `a` holds object `b` (in a list slot, or as key or value of a table). -/
def RHeap.Holds (h : RHeap) (a b : Nat) : Prop := ∃ c, h.cell a = some c ∧ some b ∈ c.items

/-- The number of references to an object: from the slots of the stack (also those above the top, which are not cleared by a pop), from the running
loops, and from the objects that are there. -/
def RState.refsTo (s : RState) (a : Nat) : Nat :=
  s.slots.count (some a) + s.loops.count (some a) +
    ∑ i ∈ Finset.range s.heap.next, (match s.heap.cell i with | none => 0 | some c => c.items.count (some a))

/-- The program can get at the object. -/
inductive RState.Reach (s : RState) : Nat → Prop where
  | slot {a : Nat} : some a ∈ s.slots → s.Reach a
  | loop {a : Nat} : some a ∈ s.loops → s.Reach a
  | held {a b : Nat} : s.Reach a → s.heap.Holds a b → s.Reach b

/-- The object is there (not freed). -/
def RHeap.Live (h : RHeap) (a : Nat) : Prop := ∃ c, h.cell a = some c

/-- An object that holds itself through one or more others. -/
def RHeap.Cyclic (h : RHeap) (a : Nat) : Prop := Relation.TransGen h.Holds a a

/-- Held by an object on a cycle, directly or not. -/
def RHeap.BelowCycle (h : RHeap) (a : Nat) : Prop := ∃ b, h.Cyclic b ∧ Relation.ReflTransGen h.Holds b a

/-- The operations other than `list.pop`. -/
def ROp.notPop : ROp → Bool
  | .listPop _ => false
  | _ => true

/-- The operations other than an index into a table whose metatable has no `__get`. -/
def ROp.notDirect : ROp → Bool
  | .getDirect _ => false
  | _ => true

end Yasl
