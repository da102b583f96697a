import Verif.Model.RefCount
set_option autoImplicit false
/-!
# Reference counting of closures and of the variables they capture: interpreter/closure.c, upvalue.c and the instructions for closures

The counts of Model/RefCount, with two more kinds of objects: a closure holds its upvalues, and an upvalue either points at a slot of the stack (it is
open, and is in the list `vm->pending`) or holds a value (it is closed).  Giving up a reference may here change slots of the stack: when an open upvalue
is freed, `closure_del_data` gives up a reference to the value in the slot, although none was taken.
-/
namespace Yasl

/-- What an object is: a list, string, …; a closure; an upvalue whose `location` is slot `i` of the stack; one whose `location` is its own `closed`. -/
inductive KKind where
  | plain
  | closure
  | opened (i : Nat)
  | closed
deriving DecidableEq

/-- The memory: objects (`items` of a closure are its upvalues; of a closed upvalue, its value; of an open one, nothing), their kinds, the stack. -/
structure KMem where
  heap : RHeap
  slots : List RV
  kind : Nat → KKind

/-- The end of an operation, and whether a captured variable was lost: its upvalue was freed while it was open, or was read when the slot was no longer on
the stack.  This is where things go wrong; it does not stop the operation. -/
structure KRes (α : Type) where
  lost : Bool
  res : RcRes α

/-- Sequencing (model glue). -/
def KRes.bind {α β : Type} (x : KRes α) (f : α → KRes β) : KRes β :=
  match x.res with
  | .ok a => match f a with | ⟨l, r⟩ => ⟨x.lost || l, r⟩
  | .uaf => ⟨x.lost, .uaf⟩
  | .fuel => ⟨x.lost, .fuel⟩
  | .bad => ⟨x.lost, .bad⟩

/-- An operation that frees nothing (model glue). -/
def KRes.of {α : Type} (r : RcRes α) : KRes α := ⟨false, r⟩

/-- A loop over values (model glue). -/
def kAll (d : KMem → RV → KRes KMem) : KMem → List RV → KRes KMem
  | m, [] => .of (.ok m)
  | m, v :: vs => (d m v).bind fun m => kAll d m vs

/-- `if (--refs) return` is not taken: the object of the value is freed (model glue). -/
def KMem.last (m : KMem) : RV → Bool
  | none => false
  | some a => match m.heap.cell a with
    | some c => c.refs == 1
    | none => false

/-- `v->type = Y_UNDEF` at the end of `dec_strong_ref`, for the value in a slot. refcount.c:95, 103, 110, 117 -/
def KMem.forget (m : KMem) (i : Nat) (b : Bool) : KMem := if b then { m with slots := m.slots.set i none } else m

/-- `dec_ref`, refcount.c:88-146, with `closure_del_data`, closure.c:3-12.  Upvalues have counts too, and are freed in the same way: `dec_ref(upval->location)`, then
`free`.  For an open upvalue this gives up a reference to what is in the slot. -/
def decK : Nat → KMem → RV → KRes KMem
  | _, m, none => .of (.ok m)
  | 0, _, some _ => .of .fuel
  | f + 1, m, some a => match m.heap.cell a with
    | none => .of .uaf
    | some c =>
      if c.refs = 0 then .of (.ok { m with heap := m.heap.put a (some { c with refs := 2 ^ 64 - 1 }) })
      else if c.refs - 1 ≠ 0 then .of (.ok { m with heap := m.heap.put a (some { c with refs := c.refs - 1 }) })
      else
        let m0 : KMem := { m with heap := m.heap.put a (some { c with refs := 0 }) }
        match m.kind a with
        | .opened i => match m.slots[i]? with
          | none => ⟨true, .bad⟩
          | some v => (KRes.mk true (.ok m0)).bind fun m0 => (decK f m0 v).bind fun m1 =>
            let m2 := m1.forget i (m0.last v)
            .of (.ok { m2 with heap := m2.heap.put a none })
        | _ => (kAll (decK f) m0 c.items).bind fun m1 => .of (.ok { m1 with heap := m1.heap.put a none })

/-- `dec_ref(vm->stack + i)`, where the slot is not overwritten at once. -/
def KMem.decSlot (f : Nat) (m : KMem) (i : Nat) : KRes KMem :=
  match m.slots[i]? with
  | none => .of .bad
  | some v => (decK f m v).bind fun m1 => .of (.ok (m1.forget i (m.last v)))

/-- `for (i = start; i < start + n; i++) dec_ref(vm->stack + i)`. VM.c:278-280, 88-90 -/
def KMem.decSlots (f : Nat) (m : KMem) (start : Nat) : Nat → KRes KMem
  | 0 => .of (.ok m)
  | n + 1 => (m.decSlot f start).bind fun m => KMem.decSlots f m (start + 1) n

/-- The machine: memory, `sp + 1`, the list of open upvalues, the one of the highest slot first. -/
structure KState where
  mem : KMem
  top : Nat
  pending : List Nat

/-- `vm_init`, VM.c:44-73. -/
def KState.init : KState := ⟨⟨⟨0, fun _ => none⟩, List.replicate 1024 none, fun _ => .plain⟩, 0, []⟩

/-- Bound of the nesting of `dec_ref`s: the number of objects made so far. -/
def KState.fuel (s : KState) : Nat := s.mem.heap.next

/-- `vm_push`, VM.c:187-198. -/
def KState.push (s : KState) (v : RV) : KRes KState :=
  if s.top ≥ 1024 then .of .bad
  else match s.mem.slots[s.top]? with
    | none => .of .bad
    | some old => (decK s.fuel s.mem old).bind fun m => KRes.of ((incRef m.heap v).bind fun h =>
      .ok { s with mem := { m with heap := h, slots := m.slots.set s.top v }, top := s.top + 1 })

/-- A new object of a kind, without references. -/
def KMem.alloc (m : KMem) (items : List RV) (k : KKind) : KMem :=
  { m with heap := m.heap.alloc items, kind := fun a => if a = m.heap.next then k else m.kind a }

/-- The search of `add_upvalue` through `vm->pending` for slot `i`, VM.c:571-597: the upvalue that is there, or the list with the new one, `new`, after the first
upvalue of a lower slot or at the end.  Every upvalue that is looked at is read. -/
def KMem.seek (m : KMem) (i new : Nat) : List Nat → RcRes (Option Nat × List Nat)
  | [] => .ok (none, [new])
  | u :: us => match m.heap.cell u with
    | none => .uaf
    | some _ => match m.kind u with
      | .opened j =>
        if i < j then (m.seek i new us).bind fun r => .ok (r.1, u :: r.2)
        else if j = i then .ok (some u, u :: us)
        else .ok (none, u :: new :: us)
      | _ => .bad

/-- `closure->upvalues[i] = add_upvalue(vm, …); closure->upvalues[i]->rc.refs++`. VM.c:571-597, 613, 617, upvalue.c:3-9 -/
def KState.addUpvalue (s : KState) (i : Nat) : RcRes (KState × Nat) :=
  (s.mem.seek i s.mem.heap.next s.pending).bind fun r =>
  match r.1 with
  | some u => (incRef s.mem.heap (some u)).bind fun h => .ok ({ s with mem := { s.mem with heap := h } }, u)
  | none =>
    let m := s.mem.alloc [] (.opened i)
    (incRef m.heap (some s.mem.heap.next)).bind fun h => .ok ({ s with mem := { m with heap := h }, pending := r.2 }, s.mem.heap.next)

/-- The upvalues of the closure in slot `fn` (model glue; `.bad` if it is none). -/
def KState.upvalues (s : KState) (fn : Nat) : RcRes (List RV) :=
  match s.mem.slots[fn]? with
  | some (some a) => match s.mem.heap.cell a with
    | none => .uaf
    | some c => if s.mem.kind a = .closure then .ok c.items else .bad
  | _ => .bad

/-- `upvalues[j]`, for a closure in slot `fn`. -/
def KState.upvalue (s : KState) (fn j : Nat) : RcRes Nat :=
  (s.upvalues fn).bind fun us => match us[j]? with
  | some (some u) => .ok u
  | _ => .bad

/-- Where a new closure takes an upvalue from: a slot, or the upvalues of the running closure, in slot `fn`. -/
inductive KSrc where
  | local_ (i : Nat)
  | outer (j : Nat)
deriving DecidableEq

/-- One round of the loop of `vm_CCONST`, VM.c:610-618. -/
def KState.takeUpvalue (s : KState) (fn : Nat) : KSrc → RcRes (KState × Nat)
  | .local_ i => if i < 1024 then s.addUpvalue i else .bad
  | .outer j => (s.upvalue fn j).bind fun u => (incRef s.mem.heap (some u)).bind fun h => .ok ({ s with mem := { s.mem with heap := h } }, u)

/-- The loop of `vm_CCONST`, VM.c:610-618. -/
def KState.takeUpvalues (s : KState) (fn : Nat) : List KSrc → RcRes (KState × List RV)
  | [] => .ok (s, [])
  | x :: xs => (s.takeUpvalue fn x).bind fun r => (r.1.takeUpvalues fn xs).bind fun r' => .ok (r'.1, some r.2 :: r'.2)

/-- `vm_CCONST`, VM.c:599-622.  Simplified: the closure gets its address after its upvalues. -/
def KState.cconst (s : KState) (fn : Nat) (xs : List KSrc) : KRes KState :=
  (KRes.of (s.takeUpvalues fn xs)).bind fun r => { r.1 with mem := r.1.mem.alloc r.2 .closure }.push (some r.1.mem.heap.next)

/-- `upval_get`, upvalue.c:11-13. -/
def KMem.upvalGet (m : KMem) (u : Nat) : RcRes RV :=
  match m.heap.cell u with
  | none => .uaf
  | some c => match m.kind u with
    | .opened i => match m.slots[i]? with | some v => .ok v | none => .bad
    | .closed => match c.items with | [v] => .ok v | _ => .bad
    | _ => .bad

/-- The upvalue points at a slot that is not on the stack (only for `lost`). -/
def KState.stale (s : KState) (u : Nat) : Bool :=
  match s.mem.kind u with
  | .opened i => decide (s.top ≤ i)
  | _ => false

/-- `upval_set`, upvalue.c:15-18. -/
def KMem.upvalSet (f : Nat) (m : KMem) (u : Nat) (v : RV) : KRes KMem :=
  match m.heap.cell u with
  | none => .of .uaf
  | some _ => (KRes.of (m.upvalGet u)).bind fun old => (decK f m old).bind fun m => match m.heap.cell u with
    | none => .of .uaf
    | some c => match m.kind u with
      | .opened i => .of (.ok { m with slots := m.slots.set i v })
      | _ => .of (.ok { m with heap := m.heap.put u (some { c with items := [v] }) })

/-- `vm_close_all_helper`, VM.c:1291-1297, with `upval_close`, upvalue.c:20-23. -/
def KMem.closeFrom (stop : Nat) (m : KMem) : List Nat → RcRes (KMem × List Nat)
  | [] => .ok (m, [])
  | u :: us => match m.heap.cell u with
    | none => .uaf
    | some _ => match m.kind u with
      | .opened i =>
        if i < stop then .ok (m, u :: us)
        else match m.slots[i]? with
          | none => .bad
          | some v => (incRef m.heap v).bind fun h => match h.cell u with
            | none => .uaf
            | some c => KMem.closeFrom stop { m with heap := h.put u (some { c with items := [v] }), kind := fun a => if a = u then .closed else m.kind a } us
      | _ => .bad

/-- The operations on references, closures and captured variables. -/
inductive KOp where
  /-- push a value that is not counted -/
  | pushPlain
  /-- push a new string (or other object without items) -/
  | pushNew
  /-- `O_LLOAD`: push slot `i` -/
  | load (i : Nat)
  /-- `vm_pop` -/
  | pop
  /-- `O_LSTORE` into slot `i` -/
  | store (i : Nat)
  /-- `O_NEWLIST` with `n` elements -/
  | newList (n : Nat)
  /-- `list.__get`: push item `j` of the list in slot `i` -/
  | getItem (i j : Nat)
  /-- `vm_rm_range`, at the end of a call -/
  | rmRange (start stop : Nat)
  /-- `O_CCONST`: a closure, while the one in slot `fn` runs -/
  | closure (fn : Nat) (xs : List KSrc)
  /-- `O_ULOAD` while the closure in slot `fn` runs -/
  | uload (fn j : Nat)
  /-- `O_USTORE` while the closure in slot `fn` runs -/
  | ustore (fn j : Nat)
  /-- `vm_close_all` when `vm->fp` is `fp` (`O_CRET`, `O_EXPORT`) -/
  | closeAll (fp : Nat)
deriving DecidableEq

/-- `vm_close_all`, VM.c:1299-1301. -/
def KState.closeAll (s : KState) (fp : Nat) : RcRes KState :=
  (s.mem.closeFrom fp s.pending).bind fun r => .ok { s with mem := r.1, pending := r.2 }

/-- One operation. -/
def KState.step (s : KState) : KOp → KRes KState
  | .pushPlain => s.push none
  | .pushNew => { s with mem := s.mem.alloc [] .plain }.push (some s.mem.heap.next)
  -- VM.c:1582-1585
  | .load i => if i < s.top then match s.mem.slots[i]? with | some v => s.push v | none => .of .bad else .of .bad
  -- VM.c:222-230
  | .pop => .of (if s.top = 0 then .bad else .ok { s with top := s.top - 1 })
  -- VM.c:1586-1591
  | .store i =>
    if i + 1 < s.top then match s.mem.slots[i]? with
      | some old => (decK s.fuel s.mem old).bind fun m => match m.slots[s.top - 1]? with
        | some v => KRes.of ((incRef m.heap v).bind fun h => .ok { s with mem := { m with heap := h, slots := m.slots.set i v }, top := s.top - 1 })
        | none => .of .bad
      | none => .of .bad
    else .of .bad
  -- VM.c:1506-1519; below the elements there is a `Y_END`
  | .newList n =>
    if n < s.top then
      let items := (s.mem.slots.drop (s.top - n)).take n
      let m := s.mem.alloc items .plain
      (KRes.of (rcAll incRef m.heap items)).bind fun h => { s with mem := { m with heap := h }, top := s.top - (n + 1) }.push (some s.mem.heap.next)
    else .of .bad
  -- list_methods.c:24-43
  | .getItem i j => if i < s.top then match s.mem.slots[i]? with
      | some (some a) => match s.mem.heap.cell a with
        | none => .of .uaf
        | some c => if s.mem.kind a = .plain then match c.items[j]? with | some v => s.push v | none => .of .bad else .of .bad
      | _ => .of .bad
    else .of .bad
  -- VM.c:274-286
  | .rmRange start stop =>
    if start > stop ∨ stop > s.top ∨ s.top > s.mem.slots.length then .of .bad
    else
      let after := s.top - stop
      let n := min after (stop - start)
      (s.mem.decSlots s.fuel start n).bind fun m =>
      (KRes.of (rcAll incRef m.heap ((m.slots.drop (s.top - n)).take n).reverse)).bind fun h =>
      .of (.ok { s with mem := { m with heap := h, slots := m.slots.take start ++ (m.slots.drop stop).take after ++ m.slots.drop (start + after) },
                        top := s.top - (stop - start) })
  | .closure fn xs => s.cconst fn xs
  -- VM.c:1592-1595
  | .uload fn j => if fn < s.top then (KRes.of (s.upvalue fn j)).bind fun u => (KRes.mk (s.stale u) (s.mem.upvalGet u)).bind fun v => s.push v else .of .bad
  -- VM.c:1596-1600
  | .ustore fn j =>
    if fn + 1 < s.top then match s.mem.slots[s.top - 1]? with
      | some v => (KRes.of (incRef s.mem.heap v)).bind fun h =>
        let s1 : KState := { s with mem := { s.mem with heap := h } }
        (KRes.of (s1.upvalue fn j)).bind fun u => (s1.mem.upvalSet s.fuel u v).bind fun m => .of (.ok { s with mem := m, top := s.top - 1 })
      | none => .of .bad
    else .of .bad
  | .closeAll fp => .of (s.closeAll fp)

/-- A history. -/
def KState.run : KState → List KOp → KRes KState
  | s, [] => .of (.ok s)
  | s, op :: ops => (s.step op).bind fun s => s.run ops

/-- `vm_cleanup`, VM.c:78-90, when `vm->fp` is `fp`: the open upvalues from `fp` on are closed, then all slots of the stack are given up. -/
def KState.cleanup (s : KState) (fp : Nat) : KRes KMem :=
  (KRes.of (s.closeAll fp)).bind fun s => s.mem.decSlots s.fuel 0 1024

end Yasl
