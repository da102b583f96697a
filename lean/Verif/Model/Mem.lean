import Verif.Model.Value
/-!
# Outcomes and memory blocks

The outcome of a C function called by the interpreter, and `malloc`ed blocks whose uninitialised or out-of-bounds accesses are
the explicit outcome `ub`.  Allocation never fails (trusted base), so sizes are natural numbers.
-/
namespace Yasl

/-- Outcome of running a piece of the interpreter. -/
inductive Out (α : Type) where
  | ok (a : α)
  /-- `YASL_throw_err(S, YASL_VALUE_ERROR)` -/
  | valueError
  /-- `YASL_throw_err(S, YASL_TYPE_ERROR)` -/
  | typeError
  /-- undefined behaviour: out-of-bounds or uninitialised access, … -/
  | ub
deriving DecidableEq, Repr

/-- Sequencing of C statements: an error or undefined behaviour ends the execution. -/
def Out.bind {α β : Type} (x : Out α) (f : α → Out β) : Out β :=
  match x with
  | .ok a => f a
  | .valueError => .valueError
  | .typeError => .typeError
  | .ub => .ub

@[simp] theorem Out.bind_ok {α β : Type} (a : α) (f : α → Out β) : (Out.ok a).bind f = f a := rfl

/-- A computation with fuel: `none` means the fuel ran out. -/
abbrev Run (α : Type) := Option (Out α)

/-- Sequencing of computations with fuel. -/
def Run.bind {α β : Type} (x : Run α) (f : α → Run β) : Run β :=
  match x with
  | none => none
  | some (.ok a) => f a
  | some .valueError => some .valueError
  | some .typeError => some .typeError
  | some .ub => some .ub

@[simp] theorem Run.bind_ok {α β : Type} (a : α) (f : α → Run β) : Run.bind (some (Out.ok a)) f = f a := rfl

theorem Run.bind_eq_ok {α β : Type} {x : Run α} {f : α → Run β} {b : β} (h : Run.bind x f = some (.ok b)) :
    ∃ a, x = some (.ok a) ∧ f a = some (.ok b) := by
  match x, h with
  | some (.ok a), h => exact ⟨a, rfl, h⟩

theorem Run.bind_eq_ub {α β : Type} {x : Run α} {f : α → Run β} (h : Run.bind x f = some .ub) :
    x = some .ub ∨ ∃ a, x = some (.ok a) ∧ f a = some .ub := by
  match x, h with
  | some (.ok a), h => exact .inr ⟨a, rfl, h⟩
  | some .ub, _ => exact .inl rfl

/-- A block of memory holding objects of type `α`; `none` is an uninitialised cell. -/
abbrev Block (α : Type) := List (Option α)

/-- `malloc(n * sizeof(α))`. -/
def Block.malloc {α : Type} (n : Nat) : Block α := List.replicate n none

/-- `m[i]` read. -/
def Block.ld {α : Type} (m : Block α) (i : Nat) : Out α :=
  match m[i]? with
  | some (some v) => .ok v
  | _ => .ub

/-- `m[i] = v`. -/
def Block.st {α : Type} (m : Block α) (i : Nat) (v : α) : Out (Block α) :=
  if i < m.length then .ok (m.set i (some v)) else .ub

/-- `realloc(m, n * sizeof(α))`: keeps the common prefix, the rest is uninitialised. -/
def Block.realloc {α : Type} (m : Block α) (n : Nat) : Block α :=
  m.take n ++ List.replicate (n - m.length) none

/-- C library `memmove(m + dst, m + src, n)` inside one block. -/
def Block.memmove {α : Type} (m : Block α) (dst src n : Nat) : Out (Block α) :=
  if src + n ≤ m.length ∧ dst + n ≤ m.length then
    .ok (m.take dst ++ (m.drop src).take n ++ m.drop (dst + n))
  else .ub

/-- C library `memcpy(m + dst, src, n)` with `src` a block of at least `n` bytes. -/
def Block.memcpy {α : Type} (m : Block α) (dst : Nat) (src : List α) : Out (Block α) :=
  if dst + src.length ≤ m.length then
    .ok (m.take dst ++ src.map some ++ m.drop (dst + src.length))
  else .ub

end Yasl
