import Verif.Spec.Capture
set_option autoImplicit false
/-!
# Upvalues: interpreter/upvalue.c, `add_upvalue`, `vm_CCONST`, `vm_close_all` and the stack of interpreter/VM.c

Addresses of stack slots are natural numbers, `upvals` is the memory of `struct Upvalue` (the identifier of one is its number), `pending` the
linked list `vm->pending`.  Reference counts are not modelled here: no upvalue is freed.
-/
namespace Yasl

/-- `struct Upvalue`, interpreter/upvalue.h:7-12: `location` is the slot, or `none` when it is `&upval->closed`. -/
structure Upval where
  location : Option Nat
  closed : Val

/-- The parts of `struct VM` concerned: `len` is `sp + 1`, `base` is `fp + 1`, `callers` those of the calling frames (`prev_fp`), `caps` the upvalue of each
capture made so far, the latest first. -/
structure UVM where
  stack : Nat → Val
  len : Nat
  base : Nat
  callers : List Nat
  upvals : List Upval
  pending : List Nat
  caps : List Nat

/-- `vm_init`, interpreter/VM.c:40-74. -/
def UVM.initial : UVM := { stack := fun _ => .undef, len := 0, base := 0, callers := [], upvals := [], pending := [], caps := [] }

def UVM.loc (m : UVM) (i : Nat) : Option Nat := (m.upvals[i]?).bind Upval.location

/-- The loop of `add_upvalue`, VM.c:577-596: `some i` when an upvalue is found, else the pending list with `new` inserted.  (The upvalues in the
list are open; a closed one would compare as an address of the heap.) -/
def addPending (loc : Nat → Option Nat) (location new : Nat) : List Nat → Option Nat × List Nat
  | [] => (none, [new])
  | curr :: rest => match loc curr with
    | none => (none, curr :: rest)
    | some a =>
      if a > location then let r := addPending loc location new rest; (r.1, curr :: r.2)
      else if a = location then (some curr, curr :: rest)
      else (none, curr :: new :: rest)

/-- `add_upvalue`, VM.c:572-597, and `upval_new`, upvalue.c:3-9.  The result is the upvalue. -/
def UVM.addUpvalue (m : UVM) (location : Nat) : Nat × UVM :=
  match addPending m.loc location m.upvals.length m.pending with
  | (some i, _) => (i, m)
  | (none, p) => (m.upvals.length, { m with upvals := m.upvals ++ [⟨some location, .undef⟩], pending := p })

/-- `upval_get`, upvalue.c:11-13. -/
def UVM.upvalGet (m : UVM) (i : Nat) : Val :=
  match m.upvals[i]? with
  | some ⟨some a, _⟩ => m.stack a
  | some ⟨none, v⟩ => v
  | none => .undef

def UVM.write (m : UVM) (a : Nat) (v : Val) : UVM := { m with stack := fun b => if b = a then v else m.stack b }

/-- `upval_set`, upvalue.c:15-18. -/
def UVM.upvalSet (m : UVM) (i : Nat) (v : Val) : UVM :=
  match m.upvals[i]? with
  | some ⟨some a, _⟩ => m.write a v
  | some ⟨none, _⟩ => { m with upvals := m.upvals.set i ⟨none, v⟩ }
  | none => m

/-- `upval_close`, upvalue.c:20-23. -/
def UVM.upvalClose (m : UVM) (i : Nat) : UVM := { m with upvals := m.upvals.set i ⟨none, m.upvalGet i⟩ }

/-- `vm_close_all_helper`, VM.c:1291-1297: `end_ = fp` is given as `base = fp + 1`, so that it is not negative. -/
def UVM.closeFrom (base : Nat) (m : UVM) : List Nat → UVM
  | [] => { m with pending := [] }
  | curr :: rest => match m.loc curr with
    | some a => if a + 1 < base then { m with pending := curr :: rest } else UVM.closeFrom base (m.upvalClose curr) rest
    | none => { m with pending := curr :: rest }

/-- `vm_close_all`, VM.c:1299-1301. -/
def UVM.closeAll (m : UVM) : UVM := UVM.closeFrom m.base m m.pending

/-- One event: `vm_push`; `O_POP`; `vm_CALL` (VM.c:1263-1272: `fp` becomes the place of the function); `O_CRET` and `O_RET` (VM.c:1610-1616,
`vm_exitframe_multi` 1149-1174, where returned values are moved down: here they are pushed afterwards); the capture of a slot in `O_CCONST`
(VM.c:609-613); `O_LSTORE`; `O_USTORE`. -/
def UVM.op (m : UVM) : CapOp → UVM
  | .push v => { m.write m.len v with len := m.len + 1 }
  | .pop => { m with len := m.len - 1 }
  | .call n => { m with base := m.len - n, callers := m.base :: m.callers }
  | .ret closing =>
    let m' := if closing then m.closeAll else m
    { m' with len := m.base - 1, base := m.callers.headD 0, callers := m.callers.tail }
  | .capture k => let r := m.addUpvalue (m.base + k); { r.2 with caps := r.1 :: m.caps }
  | .assign k v => m.write (m.base + k) v
  | .assignCaptured j v => match m.caps.reverse[j]? with
    | some i => m.upvalSet i v
    | none => m

/-- What a closure reads through its `j`-th capture of the history. -/
def UVM.readCaptured (m : UVM) (j : Nat) : Option Val := (m.caps.reverse[j]?).map m.upvalGet

end Yasl
