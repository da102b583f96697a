import Verif.Model.World
import Verif.Model.Metatable
set_option autoImplicit false
/-!
# Where lists and tables come from, and the metatables they get

`rcls_new_sized` and `rcht_new_sized` make an object without a metatable (data-structures/YASL_List.c:18-27, YASL_Table.c:48-56); each of the places that call them
has to give it the metatable of its type (`ud_setmt`, `vm->builtins_htable`).
-/
namespace Yasl

/-- The places where a list or a table is made. -/
inductive Maker where
  /-- `O_NEWTABLE`, interpreter/VM.c:1486 -/
  | tableLiteral
  /-- `O_NEWLIST`, interpreter/VM.c:1507 -/
  | listLiteral
  /-- `vm_SLICE_list`, interpreter/VM.c:661 -/
  | slice
  /-- `list_copy`, interpreter/list_methods.c:163 -/
  | listCopy
  /-- `list_concat`, interpreter/list_methods.c:176 -/
  | listAdd
  /-- `table___bor`, interpreter/table_methods.c:55 -/
  | tableUnion
  /-- `table_keys`, interpreter/table_methods.c:197 -/
  | tableKeys
  /-- `table_values`, interpreter/table_methods.c:209 -/
  | tableValues
  /-- `table_copy`, interpreter/table_methods.c:232 -/
  | tableCopy
  /-- `str_split_default`, interpreter/str_methods.c:184 -/
  | splitWords
  /-- `str_split`, interpreter/str_methods.c:206 -/
  | split
  /-- `YASL_pushtable`, yasl.c:341 -/
  | pushTable
  /-- `YASL_pushlist`, yasl.c:347 -/
  | pushList
  /-- `YASL_collections_list_new`, std/yasl-std-collections.c:65 -/
  | newList
  /-- `YASL_collections_table_new`, std/yasl-std-collections.c:81 -/
  | newTable
  /-- `YASL_collections_set_tolist`, std/yasl-std-collections.c:141 -/
  | setToList
deriving DecidableEq

/-- Lists or tables? -/
def Maker.kind : Maker → RefKind
  | .tableLiteral | .tableUnion | .tableCopy | .pushTable | .newTable => .table
  | _ => .list

/-- The metatable of the new object, from `vm->builtins_htable`: VM.c:1500, 1508, 662; list_methods.c:164, 177; table_methods.c:56, 198, 210, and none in
`table_copy`, 230-240; str_methods.c:185, 207; yasl.c:342, 348; std/yasl-std-collections.c:93, 66, 142. -/
def Maker.metatable (builtin : Tag → Option (Option Nat)) : Maker → Option Nat
  | .tableCopy => none
  | .tableLiteral | .tableUnion | .pushTable | .newTable => (builtin (.ref .table)).join
  | .listLiteral | .slice | .listCopy | .listAdd | .tableKeys | .tableValues | .splitWords | .split | .pushList | .newList | .setToList => (builtin (.ref .list)).join

/-- The objects: their metatables, and which addresses are in use. -/
structure Objects where
  metas : Metas
  used : Nat → Bool

/-- What happens to objects: one is made (at an address that `malloc` gives) with contents, if it is a table; entries of a table are changed; `mt.set(x, t)`. -/
inductive ObjOp where
  | make (k : Maker) (a : Nat) (contents : Table)
  | change (a : Nat) (contents : Table)
  | setmt (a b : Nat)

/-- The seven types with a metatable from the start, `builtins_htable_new`, interpreter/VM.c:25-43. -/
def builtinTags : List Tag := [.undef, .float, .int, .bool, .str, .ref .list, .ref .table]

/-- The entries of these metatables, interpreter/builtins.c:27-123. -/
def builtinsOfTag : Tag → List (String × Meth × Nat)
  | .undef => undefBuiltins
  | .float => floatBuiltins
  | .int => intBuiltins
  | .bool => boolBuiltins
  | .str => strBuiltins
  | .ref .list => listBuiltins
  | .ref .table => tableBuiltins
  | _ => []

/-- `vm_init`, interpreter/VM.c:44-75: the built-in metatables, at the addresses `addr`; they have no metatables themselves (VM.c:27-39).  `f`: fuel. -/
def Objects.initial (f : Nat) (addr : Tag → Nat) : Objects where
  metas := { mt := fun _ => none, builtin := builtinTables addr,
             tab := fun n => ((builtinTags.find? fun t => addr t = n).bind fun t => Table.new.run f (builtinOps (builtinsOfTag t))).getD Table.new }
  used := fun n => (builtinTags.find? fun t => addr t = n).isSome

/-- One operation.  `none`: the address of a new object is in use, which `malloc` excludes; or the contents of a built-in metatable are changed, which is left out
here (they have no `__set`, as long as the program does not give them one with `mt.set(mt.get(x), …)`). -/
def Objects.step (s : Objects) (addr : Tag → Nat) : ObjOp → Option Objects
  -- rcls_new_sized, YASL_List.c:18-27, rcht_new_sized, YASL_Table.c:48-56, ud_setmt, userdata.c:34-41
  | .make k a t =>
    if s.used a then none
    else some { metas := { s.metas.set a (k.metatable s.metas.builtin) with tab := fun n => if n = a then t else s.metas.tab n }, used := fun n => n = a || s.used n }
  | .change a t =>
    if s.used a ∧ (builtinTags.find? fun t => addr t = a) = none then some { s with metas := { s.metas with tab := fun n => if n = a then t else s.metas.tab n } } else none
  -- YASL_mt_setmt, std/yasl-std-mt.c:11-33
  | .setmt a b => if s.used a ∧ s.used b then some { s with metas := s.metas.set a (some b) } else none

/-- Several operations. -/
def Objects.run (s : Objects) (addr : Tag → Nat) : List ObjOp → Option Objects
  | [] => some s
  | o :: os => (s.step addr o).bind fun s => s.run addr os

end Yasl
