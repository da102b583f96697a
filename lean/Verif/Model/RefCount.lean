import Verif.Model.Value
set_option autoImplicit false
/-!
# Reference counting: interpreter/refcount.c and the stores to the stack, to lists and to tables

Only what matters for the counts is kept of a value: whether it is counted, and which object it is.  Addresses are not reused, so that a use of a freed
object can be told.  Weak references are not modelled (no value of a weak type is ever made), nor are closures' upvalues (see C52), the metatable's own
reference, the constants and the globals.
-/
namespace Yasl

/-- A value: `some a` is a string, list, table, userdata, C function or closure (the counted types, refcount.c:25-45), at address `a`; `none` any other value. -/
abbrev RV := Option Nat

/-- An object: `rc.refs` and the values it holds (a list's items; a table's keys and values). -/
structure Cell where
  refs : Nat
  items : List RV
deriving DecidableEq

/-- The heap: `cell a = none` for freed addresses and those from `next` on. -/
structure RHeap where
  next : Nat
  cell : Nat → Option Cell

/-- Store to an address (model glue). -/
def RHeap.put (h : RHeap) (a : Nat) (c : Option Cell) : RHeap := { h with cell := fun i => if i = a then c else h.cell i }

/-- The end of an operation: `uaf` is the use of a freed object; `fuel` more nested calls than the given number; `bad` an index out of range, a stack
overflow, or an operation on a value that has no items. -/
inductive RcRes (α : Type) where
  | ok (a : α)
  | uaf
  | fuel
  | bad
deriving DecidableEq

/-- Sequencing (model glue). -/
def RcRes.bind {α β : Type} (x : RcRes α) (f : α → RcRes β) : RcRes β :=
  match x with
  | .ok a => f a
  | .uaf => .uaf
  | .fuel => .fuel
  | .bad => .bad

/-- `inc_ref`, refcount.c:24-66. -/
def incRef (h : RHeap) (v : RV) : RcRes RHeap :=
  match v with
  | none => .ok h
  | some a => match h.cell a with
    | none => .uaf
    | some c => .ok (h.put a (some { c with refs := c.refs + 1 }))

/-- A loop over values (model glue). -/
def rcAll (d : RHeap → RV → RcRes RHeap) : RHeap → List RV → RcRes RHeap
  | h, [] => .ok h
  | h, v :: vs => (d h v).bind fun h => rcAll d h vs

/-- `dec_ref` and `dec_strong_ref`, refcount.c:90-146, with the destructors `YASL_List_del_data` (YASL_List.c:33-37) and `YASL_Table_del`: when the count
reaches 0 the references of the items are given up, then the object is freed.  A count of 0 wraps around. The first argument bounds the nesting. -/
def decRef : Nat → RHeap → RV → RcRes RHeap
  | _, h, none => .ok h
  | 0, _, some _ => .fuel
  | f + 1, h, some a => match h.cell a with
    | none => .uaf
    | some c =>
      if c.refs = 0 then .ok (h.put a (some { c with refs := 2 ^ 64 - 1 }))
      else if c.refs - 1 ≠ 0 then .ok (h.put a (some { c with refs := c.refs - 1 }))
      else (rcAll (decRef f) (h.put a (some { c with refs := 0 })) c.items).bind fun h => .ok (h.put a none)

/-- The heap; all 1024 slots of the stack, with what was popped still in them; `top` is `sp + 1`; the iterables of the running loops, innermost first. -/
structure RState where
  heap : RHeap
  slots : List RV
  top : Nat
  loops : List RV

/-- `vm_init`: an empty heap, a stack of `undef`s. VM.c:44-73 -/
def RState.init : RState := ⟨⟨0, fun _ => none⟩, List.replicate 1024 none, 0, []⟩

/-- Bound of the nesting of `dec_ref`s: the number of objects made so far (theorem `decRef_ok` shows that it is enough). -/
def RState.fuel (s : RState) : Nat := s.heap.next

/-- `vm_push`, VM.c:187-198: the value that was in the slot is released first. -/
def RState.push (s : RState) (v : RV) : RcRes RState :=
  if s.top ≥ 1024 then .bad
  else match s.slots[s.top]? with
    | none => .bad
    | some old => (decRef s.fuel s.heap old).bind fun h => (incRef h v).bind fun h =>
      .ok { s with heap := h, slots := s.slots.set s.top v, top := s.top + 1 }

/-- A new object without references, `NEW_RC()` refcount.h:13. -/
def RHeap.alloc (h : RHeap) (items : List RV) : RHeap :=
  { next := h.next + 1, cell := fun i => if i = h.next then some ⟨0, items⟩ else h.cell i }

/-- The object in slot `i` of the stack (model glue). -/
def RState.obj (s : RState) (i : Nat) : Option (Nat × Cell) :=
  match s.slots[i]? with
  | some (some a) => (s.heap.cell a).map fun c => (a, c)
  | _ => none

/-- The operations on references. -/
inductive ROp where
  /-- push a value that is not counted -/
  | pushPlain
  /-- push a new string (or other object without items) -/
  | pushNew
  /-- `O_LLOAD`, `vm_duptop`: push slot `i` -/
  | load (i : Nat)
  /-- `vm_pop` -/
  | pop
  /-- `O_LSTORE` into slot `i` -/
  | store (i : Nat)
  /-- `O_NEWLIST` with `n` elements -/
  | newList (n : Nat)
  /-- `list.__get`: push item `j` of the object in slot `i` -/
  | getItem (i j : Nat)
  /-- `list.push`: the top goes to the end of the list in slot `i` -/
  | append (i : Nat)
  /-- `list.__set`: the top becomes item `j` of the list in slot `i` -/
  | setItem (i j : Nat)
  /-- `table.__set` with a new key: the two top values go into the table in slot `i` -/
  | tableNew (i : Nat)
  /-- `table.__set` with a key that is there: its key and value are items `j` and `j + 1` -/
  | tableOld (i j : Nat)
  /-- `table.remove`: items `j` and `j + 1` -/
  | tableRm (i j : Nat)
  /-- `table_resize` -/
  | resize (i : Nat)
  /-- `list.clear` -/
  | clear (i : Nat)
  /-- `vm_swaptop` -/
  | swap
  /-- `vm_rm` -/
  | rm (i : Nat)
  /-- `vm_insert` of a value that is not counted -/
  | insert (i : Nat)
  /-- `vm_rm_range` -/
  | rmRange (start stop : Nat)
  /-- `O_INITFOR` -/
  | initFor
  /-- `O_ENDFOR` -/
  | endFor
  /-- `O_ENDCOMP` -/
  | endComp
  /-- `list.pop` on the list in slot `i` -/
  | listPop (i : Nat)
  /-- `O_GET` on a table without `__get`, when item `j` is the value found -/
  | getDirect (j : Nat)
deriving DecidableEq

/-- `O_ENDFOR`, VM.c:1526-1529. -/
def RState.endFor (s : RState) : RcRes RState :=
  match s.loops with
  | [] => .bad
  | v :: loops => (decRef s.fuel s.heap v).bind fun h => .ok { s with heap := h, loops := loops }

/-- `vm_rm_range`, VM.c:268-281. -/
def RState.rmRange (s : RState) (start stop : Nat) : RcRes RState :=
  if start > stop ∨ stop > s.top ∨ s.top > s.slots.length then .bad
  else
    let after := s.top - stop
    let len := stop - start
    let m := min after len
    (rcAll (decRef s.fuel) s.heap ((s.slots.drop start).take m)).bind fun h =>
    (rcAll incRef h ((s.slots.drop (s.top - m)).take m).reverse).bind fun h =>
    .ok { s with heap := h, slots := s.slots.take start ++ (s.slots.drop stop).take after ++ s.slots.drop (start + after), top := s.top - len }

/-- One operation. -/
def RState.step (s : RState) : ROp → RcRes RState
  | .pushPlain => s.push none
  | .pushNew => { s with heap := s.heap.alloc [] }.push (some s.heap.next)
  -- VM.c:1582-1585
  | .load i => if i < s.top then match s.slots[i]? with | some v => s.push v | none => .bad else .bad
  -- VM.c:222-230
  | .pop => if s.top = 0 then .bad else .ok { s with top := s.top - 1 }
  -- VM.c:1586-1591
  | .store i =>
    if i + 1 < s.top then match s.slots[i]?, s.slots[s.top - 1]? with
      | some old, some v => (decRef s.fuel s.heap old).bind fun h => (incRef h v).bind fun h =>
        .ok { s with heap := h, slots := s.slots.set i v, top := s.top - 1 }
      | _, _ => .bad
    else .bad
  -- VM.c:1506-1519; below the elements there is a `Y_END`
  | .newList n =>
    if n < s.top then
      let items := (s.slots.drop (s.top - n)).take n
      (rcAll incRef (s.heap.alloc items) items).bind fun h => { s with heap := h, top := s.top - (n + 1) }.push (some s.heap.next)
    else .bad
  -- list_methods.c:24-43; the list is in slot i, below the index
  | .getItem i j => if i < s.top then match s.obj i with
      | some (_, c) => match c.items[j]? with | some v => s.push v | none => .bad
      | none => .bad
    else .bad
  -- list_methods.c:133-139, YASL_List.c:52-56
  | .append i => if i + 1 < s.top then match s.obj i, s.slots[s.top - 1]? with
      | some (a, c), some v => (incRef (s.heap.put a (some { c with items := c.items ++ [v] })) v).bind fun h =>
        .ok { s with heap := h, top := s.top - 1 }
      | _, _ => .bad
    else .bad
  -- list_methods.c:45-62
  | .setItem i j => if i + 1 < s.top then match s.obj i, s.slots[s.top - 1]? with
      | some (a, c), some v => match c.items[j]? with
        | some old => (incRef s.heap v).bind fun h => (decRef s.fuel h old).bind fun h => match h.cell a with
          | some c => .ok { s with heap := h.put a (some { c with items := c.items.set j v }), top := s.top - 1 }
          | none => .uaf
        | none => .bad
      | _, _ => .bad
    else .bad
  -- table_methods.c:35-49, YASL_Table.c:17-22, 121-137
  | .tableNew i => if i + 2 < s.top then match s.obj i, s.slots[s.top - 2]?, s.slots[s.top - 1]? with
      | some (a, c), some k, some v => (incRef s.heap k).bind fun h => (incRef h v).bind fun h => match h.cell a with
        | some c' => .ok { s with heap := h.put a (some { c' with items := c.items ++ [k, v] }), top := s.top - 2 }
        | none => .uaf
      | _, _, _ => .bad
    else .bad
  | .tableOld i j => if i + 2 < s.top then match s.obj i, s.slots[s.top - 2]?, s.slots[s.top - 1]? with
      | some (a, c), some k, some v => match c.items[j]?, c.items[j + 1]? with
        | some k0, some v0 => (incRef s.heap k).bind fun h => (incRef h v).bind fun h => (decRef s.fuel h k0).bind fun h =>
          (decRef s.fuel h v0).bind fun h => match h.cell a with
          | some c' => .ok { s with heap := h.put a (some { c' with items := (c.items.set j k).set (j + 1) v }), top := s.top - 2 }
          | none => .uaf
        | _, _ => .bad
      | _, _, _ => .bad
    else .bad
  -- table_methods.c:217-227, YASL_Table.c:24-27, 193-196: `del_item`, then the `TOMBSTONE`
  | .tableRm i j => if i < s.top then match s.obj i with
      | some (a, c) => match c.items[j]?, c.items[j + 1]? with
        | some k0, some v0 => (decRef s.fuel s.heap k0).bind fun h => (decRef s.fuel h v0).bind fun h => match h.cell a with
          | some c' => .ok { s with heap := h.put a (some { c' with items := (c.items.set j none).set (j + 1) none }) }
          | none => .uaf
        | _, _ => .bad
      | none => .bad
    else .bad
  -- YASL_Table.c:71-88: insertion into the new table, then `YASL_Table_del` of the old one
  | .resize i => if i < s.top then match s.obj i with
      | some (_, c) => (rcAll incRef s.heap c.items).bind fun h => (rcAll (decRef s.fuel) h c.items).bind fun h => .ok { s with heap := h }
      | none => .bad
    else .bad
  -- list_methods.c:255-263
  | .clear i => if i < s.top then match s.obj i with
      | some (a, c) => (rcAll (decRef s.fuel) s.heap c.items).bind fun h => match h.cell a with
        | some c' => .ok { s with heap := h.put a (some { c' with items := [] }) }
        | none => .uaf
      | none => .bad
    else .bad
  -- VM.c:1207-1211
  | .swap => if 2 ≤ s.top then match s.slots[s.top - 1]?, s.slots[s.top - 2]? with
      | some a, some b => .ok { s with slots := (s.slots.set (s.top - 1) b).set (s.top - 2) a }
      | _, _ => .bad
    else .bad
  -- VM.c:260-266
  | .rm i => if i < s.top ∧ s.top ≤ s.slots.length then match s.slots[i]? with
      | some old => (decRef s.fuel s.heap old).bind fun h =>
        .ok { s with heap := h, slots := s.slots.take i ++ (s.slots.drop (i + 1)).take (s.top - 1 - i) ++ [none] ++ s.slots.drop s.top, top := s.top - 1 }
      | none => .bad
    else .bad
  -- VM.c:248-258
  | .insert i => if i ≤ s.top ∧ s.top < 1024 then match s.slots[s.top]? with
      | some old => (decRef s.fuel s.heap old).bind fun h =>
        .ok { s with heap := h, slots := s.slots.take i ++ [none] ++ (s.slots.drop i).take (s.top - i) ++ s.slots.drop (s.top + 1), top := s.top + 1 }
      | none => .bad
    else .bad
  | .rmRange start stop => s.rmRange start stop
  -- VM.c:1520-1525
  | .initFor => if 0 < s.top then match s.slots[s.top - 1]? with
      | some v => (incRef s.heap v).bind fun h => .ok { s with heap := h, loops := v :: s.loops, top := s.top - 1 }
      | none => .bad
    else .bad
  | .endFor => s.endFor
  -- VM.c:1530-1536
  | .endComp => if 2 ≤ s.top then match s.slots[s.top - 1]? with
      | some a => ({ s with top := s.top - 2 }.push a).bind fun s => s.endFor
      | none => .bad
    else .bad
  -- list_methods.c:222-230
  | .listPop i => if i < s.top then match s.obj i with
      | some (a, c) => match c.items.getLast? with
        | some v => { s with heap := s.heap.put a (some { c with items := c.items.dropLast }) }.push v
        | none => .bad
      | none => .bad
    else .bad
  -- VM.c:839-846
  | .getDirect j => if 2 ≤ s.top then match s.obj (s.top - 2) with
      | some (_, c) => match c.items[j]? with | some v => { s with top := s.top - 2 }.push v | none => .bad
      | none => .bad
    else .bad

/-- A history. -/
def RState.run : RState → List ROp → RcRes RState
  | s, [] => .ok s
  | s, op :: ops => (s.step op).bind fun s => s.run ops

/-- The loops over loop frames and stack slots of `vm_cleanup`, VM.c:83-90. -/
def RState.cleanup (s : RState) : RcRes RHeap :=
  (rcAll (decRef s.fuel) s.heap s.loops).bind fun h => rcAll (decRef s.fuel) h s.slots

end Yasl
