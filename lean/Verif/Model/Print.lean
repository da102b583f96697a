import Verif.Spec.Print
set_option autoImplicit false
/-!
# Printing lists and tables: interpreter/list_methods.c:63-131, interpreter/table_methods.c:97-193

The stack is represented by its pointer only; `leaf` is what `vm_stringify_top` gives for values other than lists and tables (their `tostr`).  Collections
are the objects of the heap; the reference counts are not part of this model.
-/
namespace Yasl

/-- The end of the printing: a text, `StackOverflow`, or an access outside of an object. -/
inductive TRes where
  | ok (text : List Byte)
  | overflow
  | ub
deriving DecidableEq

/-- Sequencing (model glue). -/
def TRes.bind (x : Option TRes) (f : List Byte → Option TRes) : Option TRes :=
  match x with
  | none => none
  | some (.ok b) => f b
  | some .overflow => some .overflow
  | some .ub => some .ub

/-- `vm_push` with the stack pointer at `sp`, VM.c:214-225: the slots are 0 … 1023. -/
def pushAt (sp : Nat) (k : Option TRes) : Option TRes := if sp + 1 ≥ 1024 then some .overflow else k

/-- Functions and user pointers are printed without a method, VM.c:540-549. -/
def Val.printsDirectly : Val → Bool
  | .ref .fn _ | .ref .cfn _ | .ref .closure _ | .userptr _ => true
  | _ => false

/-- `vm_stringify_top`, VM.c:539-560, for a value (at `sp`) that is neither a list nor a table: `vm_duptop` needs a slot. -/
def stringifyLeaf (leaf : Val → List Byte) (sp : Nat) (v : Val) : Option TRes :=
  if v.printsDirectly then some (.ok (leaf v)) else pushAt sp (some (.ok (leaf v)))

/-- The common part of the two loops, list_methods.c:85-109, table_methods.c:139-166: the text of a value and ", " are added to the buffer.  `sp` is
where the value was pushed, `buffer` are the collections around, `rec` is `rec_call` of the helper for the object (table_methods.c:107-115; the copy of
the buffer with one more element is the argument). -/
def printValue (leaf : Val → List Byte) (rec : Nat → List Nat → Nat → Option TRes) (sp : Nat) (buffer : List Nat) (v : Val) (bb : List Byte) :
    Option TRes :=
  match v with
  | .ref .list a =>
    if buffer.contains a then some (.ok (bb ++ printBytes "[...], "))
    else TRes.bind (rec sp (buffer ++ [a]) a) fun str => some (.ok (bb ++ str ++ printBytes ", "))
  | .ref .table a =>
    if buffer.contains a then some (.ok (bb ++ printBytes "{...}, "))
    else TRes.bind (rec sp (buffer ++ [a]) a) fun str => some (.ok (bb ++ str ++ printBytes ", "))
  | v => TRes.bind (stringifyLeaf leaf sp v) fun str => some (.ok (bb ++ str ++ printBytes ", "))

/-- `FOR_LIST`, list_methods.c:82-110. -/
def printItems (leaf : Val → List Byte) (rec : Nat → List Nat → Nat → Option TRes) (sp : Nat) (buffer : List Nat) : List Val → List Byte → Option TRes
  | [], bb => some (.ok bb)
  | v :: vs, bb => TRes.bind (pushAt sp (printValue leaf rec (sp + 1) buffer v bb)) fun bb => printItems leaf rec sp buffer vs bb

/-- `FOR_TABLE`, table_methods.c:129-167. -/
def printEntries (leaf : Val → List Byte) (rec : Nat → List Nat → Nat → Option TRes) (sp : Nat) (buffer : List Nat) : List Item → List Byte → Option TRes
  | [], bb => some (.ok bb)
  | it :: its, bb =>
    TRes.bind (pushAt sp (stringifyLeaf leaf (sp + 1) it.key)) fun key =>
    TRes.bind (pushAt sp (printValue leaf rec (sp + 1) buffer it.value (bb ++ key ++ printBytes ": "))) fun bb => printEntries leaf rec sp buffer its bb

/-- `bb.count -= 2` and the closing bracket, list_methods.c:113-114, table_methods.c:171-172: with less than two bytes the count wraps around and the
bracket is written before the buffer. -/
def closeWith (c : Byte) (bb : List Byte) : Option TRes :=
  if bb.length < 2 then some .ub else some (.ok (bb.take (bb.length - 2) ++ [c]))

/-- `list_tostr_helper`, list_methods.c:70-119, and `table_tostr_helper`, table_methods.c:117-178, for the object at address `a`, which is at `sp` on the
stack.  The first argument bounds the depth of the recursion.  The final `vm_pop` and `vm_push` reuse the slot of the object. -/
def printHelper (h : List HObj) (leaf : Val → List Byte) : Nat → Nat → List Nat → Nat → Option TRes
  | 0, _, _, _ => none
  | f + 1, sp, buffer, a => match h[a]? with
    | none => some .ub
    | some (.list items) =>
      if items.length = 0 then some (.ok (printBytes "[]"))
      else TRes.bind (printItems leaf (printHelper h leaf f) sp buffer items (printBytes "[")) fun bb => closeWith 93 bb
    | some (.table t) =>
      if t.count = 0 then some (.ok (printBytes "{}"))
      else TRes.bind (printEntries leaf (printHelper h leaf f) sp buffer t.entries (printBytes "{")) fun bb => closeWith 125 bb

/-- `list_tostr`, `table_tostr`, list_methods.c:121-131, table_methods.c:180-193. -/
def tostr (h : List HObj) (leaf : Val → List Byte) (f sp a : Nat) : Option TRes := printHelper h leaf f sp [a] a

end Yasl
