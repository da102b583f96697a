import Verif.Model.RefCount
set_option autoImplicit false
/-!
# Userdata and metatables: interpreter/userdata.c, the API functions on them (yasl.c) and mt.get, mt.set (std/yasl-std-mt.c)

The heap is that of `Model/RefCount`; the first item of an object is its metatable, the others are what it holds otherwise. Kept besides is the list of
the objects whose destructor was called. Not modelled: the tag, what the destructor of a userdata does, strings as names of globals and metatables.
-/
namespace Yasl

/-- A heap, and the objects whose destructor was called, in order (model glue). -/
abbrev LHeap := RHeap × List Nat

/-- A loop over values (model glue). -/
def decLogAll (d : LHeap → RV → RcRes LHeap) : LHeap → List RV → RcRes LHeap
  | x, [] => .ok x
  | x, v :: vs => (d x v).bind fun x => decLogAll d x vs

/-- `dec_ref`, refcount.c:90-146, with `ud_del_data`, userdata.c:17-23, and `ud_del_rc`, 25-27: when the count reaches 0 the reference to the metatable is
given up, the destructor is called (that of a list or table, YASL_List.c:33-37, gives up the references of its items) and the object is freed. -/
def decLog : Nat → LHeap → RV → RcRes LHeap
  | _, x, none => .ok x
  | 0, _, some _ => .fuel
  | f + 1, x, some a => match x.1.cell a with
    | none => .uaf
    | some c =>
      if c.refs = 0 then .ok (x.1.put a (some { c with refs := 2 ^ 64 - 1 }), x.2)
      else if c.refs - 1 ≠ 0 then .ok (x.1.put a (some { c with refs := c.refs - 1 }), x.2)
      else (decLogAll (decLog f) (x.1.put a (some { c with refs := 0 }), x.2) c.items).bind fun y => .ok (y.1.put a none, y.2 ++ [a])

/-- The heap, the stack (with what was popped above `top`), and the other roots: the metatables of lists and of tables (`builtins_htable`), then the
values of globals and the registered metatables. -/
structure UState where
  heap : RHeap
  slots : List RV
  top : Nat
  roots : List RV
  log : List Nat

/-- `vm_init`, VM.c:44-73, with `builtins_htable_new`, VM.c:25-42: objects 0 and 1 are the metatables of lists and tables; they have none themselves. -/
def UState.init : UState :=
  ⟨⟨2, fun a => if a < 2 then some ⟨1, [none]⟩ else none⟩, List.replicate 1024 none, 0, [some 0, some 1], []⟩

/-- `vm_push`, VM.c:187-198. -/
def UState.push (s : UState) (v : RV) : RcRes UState :=
  if s.top ≥ 1024 then .bad
  else match s.slots[s.top]? with
    | none => .bad
    | some old => (decLog s.heap.next (s.heap, s.log) old).bind fun x => (incRef x.1 v).bind fun h =>
      .ok { s with heap := h, log := x.2, slots := s.slots.set s.top v, top := s.top + 1 }

/-- The object in slot `i` of the stack (model glue). -/
def UState.obj (s : UState) (i : Nat) : Option (Nat × Cell) :=
  match s.slots[i]? with
  | some (some a) => (s.heap.cell a).map fun c => (a, c)
  | _ => none

/-- `ud_setmt`, userdata.c:34-41, on object `a`. -/
def udSetMt (fuel : Nat) (x : LHeap) (a : Nat) (mt : RV) : RcRes LHeap :=
  (incRef x.1 mt).bind fun h => match h.cell a with
  | none => .uaf
  | some c => match c.items with
    | [] => .bad
    | old :: _ => (decLog fuel (h, x.2) old).bind fun y => match y.1.cell a with
      | none => .uaf
      | some c => .ok (y.1.put a (some { c with items := mt :: c.items.tail }), y.2)

/-- The operations of the host and of the program. -/
inductive UOp where
  /-- push a value that is not counted -/
  | plain
  /-- `YASL_pushuserdata` -/
  | newUd
  /-- `YASL_pushlist` (metatable 0) or `YASL_pushtable` (metatable 1) -/
  | new (table : Bool)
  /-- push slot `i` again -/
  | load (i : Nat)
  /-- `YASL_pop` -/
  | pop
  /-- `O_LSTORE` into slot `i` -/
  | store (i : Nat)
  /-- `YASL_setmt`, `mt.set`: the top becomes the metatable of the value under it -/
  | setMt
  /-- `mt.get`: the metatable of the top takes its place -/
  | getMt
  /-- the two top values become a new key and value of the table in slot `i` -/
  | tableSet (i : Nat)
  /-- key and value at `j`, `j + 1` of the object in slot `i` are removed -/
  | tableDel (i j : Nat)
  /-- `YASL_setglobal`, `YASL_registermt` with a new name -/
  | register
  /-- the same with the name of root `j` -/
  | replace (j : Nat)
  /-- `YASL_loadglobal`, `YASL_loadmt` -/
  | loadRoot (j : Nat)
deriving DecidableEq

/-- One operation. -/
def UState.step (s : UState) : UOp → RcRes UState
  | .plain => s.push none
  -- yasl.c:298-300, userdata.c:6-15
  | .newUd => { s with heap := s.heap.alloc [none] }.push (some s.heap.next)
  -- yasl.c:340-350: `ud_setmt` of a new object has nothing to give up
  | .new t => (incRef (s.heap.alloc [some t.toNat]) (some t.toNat)).bind fun h => { s with heap := h }.push (some s.heap.next)
  -- VM.c:1582-1585
  | .load i => if i < s.top then match s.slots[i]? with | some v => s.push v | none => .bad else .bad
  -- VM.c:222-230
  | .pop => if s.top = 0 then .bad else .ok { s with top := s.top - 1 }
  -- VM.c:1586-1591
  | .store i =>
    if i + 1 < s.top then match s.slots[i]?, s.slots[s.top - 1]? with
      | some old, some v => (decLog s.heap.next (s.heap, s.log) old).bind fun x => (incRef x.1 v).bind fun h =>
        .ok { s with heap := h, log := x.2, slots := s.slots.set i v, top := s.top - 1 }
      | _, _ => .bad
    else .bad
  -- yasl.c:223-237, std/yasl-std-mt.c:11-32
  | .setMt => if 2 ≤ s.top then match s.obj (s.top - 2), s.obj (s.top - 1) with
      | some (a, _), some (m, _) => (udSetMt s.heap.next (s.heap, s.log) a (some m)).bind fun x =>
        .ok { s with heap := x.1, log := x.2, top := s.top - 1 }
      | _, _ => .bad
    else .bad
  -- VM.c:744-747
  | .getMt => if 1 ≤ s.top then match s.obj (s.top - 1) with
      | some (_, c) => match c.items with
        | mt :: _ => { s with top := s.top - 1 }.push mt
        | [] => .bad
      | none => .bad
    else .bad
  -- table_methods.c:35-49, YASL_Table.c:17-22, 121-137
  | .tableSet i => if i + 2 < s.top then match s.obj i, s.slots[s.top - 2]?, s.slots[s.top - 1]? with
      | some (a, c), some k, some v => (incRef s.heap k).bind fun h => (incRef h v).bind fun h => match h.cell a with
        | some c' => .ok { s with heap := h.put a (some { c' with items := c.items ++ [k, v] }), top := s.top - 2 }
        | none => .uaf
      | _, _, _ => .bad
    else .bad
  -- table_methods.c:217-227, YASL_Table.c:24-27, 193-196
  | .tableDel i j => if i < s.top ∧ 1 ≤ j then match s.obj i with
      | some (a, c) => match c.items[j]?, c.items[j + 1]? with
        | some k0, some v0 => (decLog s.heap.next (s.heap, s.log) k0).bind fun x => (decLog s.heap.next x v0).bind fun x => match x.1.cell a with
          | some c' => .ok { s with heap := x.1.put a (some { c' with items := (c.items.set j none).set (j + 1) none }), log := x.2 }
          | none => .uaf
        | _, _ => .bad
      | none => .bad
    else .bad
  -- yasl.c:180-192, 204-210, YASL_Table.c:17-22
  | .register => if 1 ≤ s.top then match s.slots[s.top - 1]? with
      | some v => (incRef s.heap v).bind fun h => .ok { s with heap := h, roots := s.roots ++ [v], top := s.top - 1 }
      | none => .bad
    else .bad
  -- the same, YASL_Table.c:121-137
  | .replace j => if 1 ≤ s.top ∧ 2 ≤ j then match s.roots[j]?, s.slots[s.top - 1]? with
      | some old, some v => (incRef s.heap v).bind fun h => (decLog s.heap.next (h, s.log) old).bind fun x =>
        .ok { s with heap := x.1, log := x.2, roots := s.roots.set j v, top := s.top - 1 }
      | _, _ => .bad
    else .bad
  -- yasl.c:194-202, 212-221
  | .loadRoot j => match s.roots[j]? with
    | some v => s.push v
    | none => .bad

/-- `YASL_delstate`: of `vm_cleanup`, VM.c:77-127, the stack, the globals and registered metatables, and the built-in metatables. -/
def UState.delete (s : UState) : RcRes LHeap :=
  decLogAll (decLog s.heap.next) (s.heap, s.log) (s.slots ++ s.roots.drop 2 ++ s.roots.take 2)

end Yasl
