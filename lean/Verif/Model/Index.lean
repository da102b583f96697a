import Verif.Model.Table
set_option autoImplicit false
/-!
# Index expressions and assignments to an index: `vm_GET`, `vm_SET`, interpreter/VM.c:737-864

`none` is a loop that needs more than the given fuel.
-/
namespace Yasl

/-- The bytes of an ASCII text (model glue). -/
def ascii (s : String) : List Byte := s.toList.map fun c => BitVec.ofNat 8 c.toNat

/-- `table_builtins`, interpreter/builtins.c:109-123: the names (specialstrings.x) in the order of insertion. -/
def tableMethodNames : List (List Byte) :=
  [ascii "__len", ascii "remove", ascii "keys", ascii "values", ascii "copy", ascii "tostr", ascii "__get", ascii "__set", ascii "__bor",
   ascii "__eq", ascii "clear"]

/-- The insertions of `table_builtins`; the value of the i-th name is the C function with address `100 + i`. -/
def tableMethodOps : List TOp := tableMethodNames.zipIdx.map fun p => .set (.str p.1) (.ref .cfn (100 + p.2))

/-- The address of `table___get` and of `table___set` in `tableMethodOps`. -/
def addrGet : Nat := 106
def addrSet : Nat := 107

/-- `vm->builtins_htable[Y_TABLE]`, interpreter/VM.c:73-82. -/
def tableMt (f : Nat) : Option Table := Table.new.run f tableMethodOps

/-- What `O_GET` does: a value is pushed, the `__get` found in the metatable is called with the collection and the index, or an error. -/
inductive GetRes where
  | value (v : Val)
  | callGet (m : Val)
  | valueError
deriving DecidableEq

/-- `lookup2`, VM.c:783-803: search the index in the metatable, then `__get`; the last is `YASL_VALUE_ERROR`. -/
def lookup2 (f : Nat) (mt : Table) (index : Val) : Option GetRes :=
  (mt.search f index).bind fun r =>
    if r.tag ≠ .end_ then some (.value r)
    else (mt.search f (.str (ascii "__get"))).map fun g => if g.tag ≠ .end_ then .callGet g else .valueError

/-- `vm_GET_helper2`, VM.c:828-852: `mt` is the metatable, `tab` the collection if it is a table. -/
def vmGet (f : Nat) (mt : Option Table) (tab : Option Table) (index : Val) : Option GetRes :=
  (match mt with | some mt => lookup2 f mt index | none => some .valueError).bind fun r =>
    match r, tab with
    | .valueError, some t => (t.search f index).map fun (r : Val) => if r.tag ≠ Tag.end_ then GetRes.value r else GetRes.valueError
    | r, _ => some r

/-- The value of `t[index]` for a table with metatable `mt`, with calls of the C function `table___get` (`Table.get`) carried out; `none` inside is an
error, or a call of another function. -/
def indexTable (f : Nat) (mt : Option Table) (t : Table) (index : Val) : Option (Option Val) :=
  (vmGet f mt (some t) index).bind fun r => match r with
    | .value v => some (some v)
    | .callGet m => if m = .ref .cfn addrGet then (t.get f index).map some else some none
    | .valueError => some none

/-- `vm_SET`, VM.c:865-873, for a table with metatable `mt`: `__set` is looked up in the metatable, and called if it is the C function `table___set`
(`Table.set`). -/
def setIndex (f : Nat) (mt : Option Table) (t : Table) (index value : Val) : Option (Option SetRes) :=
  match mt with
  | none => some none
  | some mt => (mt.search f (.str (ascii "__set"))).bind fun (m : Val) =>
    if m = .ref .cfn addrSet then (t.set f index value).map some else some none

end Yasl
