import Verif.Model.Userdata
import Verif.Spec.RefCount
set_option autoImplicit false
/-! # What is expected of userdata and metatables -/
namespace Yasl

/-- The program or the host can get at the object: from the stack, a global, a registered or built-in metatable; through what holds it, as an item or as
metatable. -/
inductive UState.Reach (s : UState) : Nat → Prop where
  | slot {a : Nat} : some a ∈ s.slots → s.Reach a
  | root {a : Nat} : some a ∈ s.roots → s.Reach a
  | held {a b : Nat} : s.Reach a → s.heap.Holds a b → s.Reach b

/-- What makes `mt.get` of the top safe: something else refers to the object too, or its metatable is a built-in or registered one or there is none. -/
def UState.SafeGet (s : UState) : Prop :=
  ∀ a c, s.slots[s.top - 1]? = some (some a) → s.heap.cell a = some c →
    2 ≤ c.refs ∨ ∀ m, c.items.head? = some (some m) → some m ∈ s.roots

/-- The states that histories lead to in which `mt.get` is used safely only. -/
inductive UState.Hist : UState → Prop where
  | init : UState.Hist UState.init
  | step {s s' : UState} (op : UOp) : UState.Hist s → (op = .getMt → s.SafeGet) → s.step op = .ok s' → UState.Hist s'

/-- A sequence of operations (for examples). -/
def UState.run : UState → List UOp → RcRes UState
  | s, [] => .ok s
  | s, op :: ops => (s.step op).bind fun s => s.run ops

end Yasl
