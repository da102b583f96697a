import Verif.Model.Calls
import Verif.Model.Index
set_option autoImplicit false
/-!
# Metatables: std/yasl-std-mt.c, interpreter/VM.c:305-345, 361-368, 725-763, 865-873, yasl.c:223-237

Objects (lists, tables and userdata) are their addresses.  Reference counts are not part of this model (see `Verif.Model.Refcount`).
-/
namespace Yasl

/-- Outcomes: `unset` is a read of memory that was never written, `noFuel` a search that does not end within the fuel. -/
inductive MtRes (α : Type) where
  | ok (a : α)
  | typeError
  | unset
  | overflow
  | outOfBounds
  | noFuel
deriving DecidableEq

def MtRes.bind {α β : Type} : MtRes α → (α → MtRes β) → MtRes β
  | .ok a, f => f a
  | .typeError, _ => .typeError
  | .unset, _ => .unset
  | .overflow, _ => .overflow
  | .outOfBounds, _ => .outOfBounds
  | .noFuel, _ => .noFuel

/-- Glue: the outcomes of the stack operations. -/
def CallRes.toM {α : Type} : CallRes α → MtRes α
  | .ok a => .ok a
  | .overflow => .overflow
  | .outOfBounds => .outOfBounds

/-- What metatables are made of: `ud->mt` (userdata.h:11-17) of the object at an address, as the address of a table; `vm->builtins_htable` (VM.h:112), with `none` for
an entry that is never written (VM.c:29-43 writes seven of them); the contents of the tables. -/
structure Metas where
  mt : Nat → Option Nat
  builtin : Tag → Option (Option Nat)
  tab : Nat → Table

/-- The types with a metatable in the object, VM.c:727-733: userdata, lists and tables. -/
def ownMt : Val → Option Nat
  | .ref .userdata a => some a
  | .ref .list a => some a
  | .ref .table a => some a
  | _ => none

/-- `obj_get_metatable`, VM.c:725-737. -/
def Metas.of (h : Metas) (v : Val) : MtRes (Option Nat) :=
  match ownMt v with
  | some a => .ok (h.mt a)
  | none => match h.builtin v.tag with | some r => .ok r | none => .unset

/-- `builtins_htable_new`, VM.c:25-43: the memory is not initialised, and seven of the entries are set. -/
def builtinTables (addr : Tag → Nat) : Tag → Option (Option Nat)
  | .undef => some (some (addr .undef))
  | .float => some (some (addr .float))
  | .int => some (some (addr .int))
  | .bool => some (some (addr .bool))
  | .str => some (some (addr .str))
  | .ref .list => some (some (addr (.ref .list)))
  | .ref .table => some (some (addr (.ref .table)))
  | _ => none

/-- `mt ? YASL_TABLE(mt) : YASL_UNDEF()`, VM.c:746. -/
def tableOrUndef : Option Nat → Val
  | some a => .ref .table a
  | none => .undef

/-- `vm_get_metatable`, VM.c:744-747. -/
def Mach.getMetatable (h : Metas) (m : Mach) : MtRes Mach :=
  m.pop.toM.bind fun p => (h.of p.1).bind fun r => (p.2.push (tableOrUndef r)).toM

/-- `vm_lookup_method_throwing`, VM.c:312-327, with `vm_lookup_method_helper`, VM.c:749-759. -/
def Mach.lookupMethod (f : Nat) (h : Metas) (name : List Byte) (m : Mach) : MtRes Mach :=
  (m.getMetatable h).bind fun m1 =>
  m1.peek.toM.bind fun v =>
  m1.pop.toM.bind fun p =>
  match v with
  | .ref .table a =>
    match (h.tab a).search f (.str name) with
    | none => .noFuel
    | some r => if r.tag ≠ .end_ then (p.2.push r).toM else .typeError
  | _ => .typeError

/-- `vm_shifttopdown`, VM.c:361-368. -/
def Mach.shiftTopDown (m : Mach) (depth : Nat) : MtRes Mach :=
  m.peek.toM.bind fun top =>
  (m.memmove (m.sp - depth + 1) (m.sp - depth) depth).toM.bind fun m' => (m'.write (m'.sp - depth) top).toM

/-- `vm_swaptop`, VM.c:1208-1212. -/
def Mach.swapTop (m : Mach) : MtRes Mach :=
  m.peek.toM.bind fun tmp =>
  (m.write m.sp (m.slots (m.sp - 1))).toM.bind fun m' => (m'.write (m'.sp - 1) tmp).toM

/-- The operator methods of `vm_int_binop` (VM.c:377-386), `vm_num_binop` (VM.c:412-421) and `vm_EQ` (VM.c:495-500): both operands stay where they are. -/
def Mach.binMethod (f : Nat) (h : Metas) (callee : Val → Callee) (name : List Byte) (m : Mach) : MtRes Mach :=
  (m.push (m.slots (m.sp - 1))).toM.bind fun m =>
  (m.lookupMethod f h name).bind fun m =>
  (m.shiftTopDown 2).bind fun m =>
  (m.initCallOffset (m.sp - 2) 1).toM.bind fun m => (m.call callee).toM

/-- `vm_call_method_now_2`, VM.c:337-345, with `vm_call_now_2`, VM.c:305-310, as used by the comparisons (VM.c:524-542): both operands are popped first. -/
def Mach.cmpMethod (f : Nat) (h : Metas) (callee : Val → Callee) (name : List Byte) (m : Mach) : MtRes Mach :=
  m.pop.toM.bind fun right =>
  right.2.pop.toM.bind fun left =>
  (left.2.push left.1).toM.bind fun m =>
  (m.lookupMethod f h name).bind fun m =>
  (m.initCall 1).toM.bind fun m =>
  (m.push left.1).toM.bind fun m =>
  (m.push right.1).toM.bind fun m => (m.call callee).toM

/-- `vm_call_method_now_1_top`, VM.c:329-335: unary operators (VM.c:467, 477) and `len` (VM.c:485). -/
def Mach.unMethod (f : Nat) (h : Metas) (callee : Val → Callee) (name : List Byte) (m : Mach) : MtRes Mach :=
  m.peek.toM.bind fun v => (m.push v).toM.bind fun m =>
  (m.lookupMethod f h name).bind fun m =>
  m.swapTop.bind fun m =>
  (m.initCallOffset (m.sp - 1) 1).toM.bind fun m => (m.call callee).toM

/-- `vm_SET`, VM.c:865-873. -/
def Mach.setMethod (f : Nat) (h : Metas) (callee : Val → Callee) (m : Mach) : MtRes Mach :=
  (m.push (m.slots (m.sp - 2))).toM.bind fun m =>
  (m.lookupMethod f h (ascii "__set")).bind fun m =>
  (m.shiftTopDown 3).bind fun m =>
  (m.initCallOffset (m.sp - 3) 0).toM.bind fun m => (m.call callee).toM

/-- `vm_INIT_CALL`, VM.c:1200-1202, on a value that is not a function: VM.c:1192-1197. -/
def Mach.startObject (f : Nat) (h : Metas) (m : Mach) (want : Int) : MtRes Mach :=
  let offset := m.sp
  (m.lookupMethod f h (ascii "__call")).bind fun m => (m.enterFrame offset want).toM

/-- `YASL_mt_getmt`, std/yasl-std-mt.c:6-9; it returns one value. -/
def mtGetC (h : Metas) (m : Mach) : MtRes (Mach × Nat) := (m.getMetatable h).bind fun m => .ok (m, 1)

/-- `ud_setmt`, interpreter/userdata.c:34-41. -/
def Metas.set (h : Metas) (a : Nat) (r : Option Nat) : Metas := { h with mt := fun b => if b = a then r else h.mt b }

/-- `YASL_mt_setmt`, std/yasl-std-mt.c:11-33; it returns one value. -/
def mtSetC (h : Metas) (m : Mach) : MtRes (Metas × Mach × Nat) :=
  m.peek.toM.bind fun t =>
  match t with
  | .ref .table b =>
    m.pop.toM.bind fun p => p.2.peek.toM.bind fun v =>
    match ownMt v with
    | some a => .ok (h.set a (some b), p.2, 1)
    | none => .typeError
  | _ => .typeError

/-- `YASL_setmt`, yasl.c:223-237; the code is `true` for `YASL_SUCCESS`, `false` for `YASL_TYPE_ERROR`. -/
def hostSetmt (h : Metas) (m : Mach) : MtRes (Metas × Mach × Bool) :=
  m.peek.toM.bind fun t =>
  match t with
  | .ref .table b =>
    m.pop.toM.bind fun p => p.2.peek.toM.bind fun v =>
    match ownMt v with
    | some a => .ok (h.set a (some b), p.2, true)
    | none => .ok (h, p.2, false)
  | .undef => -- the undef is not popped
    m.peek.toM.bind fun v =>
    match ownMt v with
    | some a => .ok (h.set a none, m, true)
    | none => .ok (h, m, false)
  | _ => .ok (h, m, false)

end Yasl
