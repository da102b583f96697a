import Verif.Model.Calls
import Verif.Model.Require
import Verif.Spec.Api
set_option autoImplicit false
/-!
# Reading and writing the stack from C: yasl.c:250-368, 449-608, yasl_aux.c:19-64

Over the machine of `Verif.Model.Calls`: the values above `vm->sp` are still there and can be read.  `ud` is what userdata points to (`struct RC_UserData`,
interpreter/userdata.h:9-15), for lists and tables too.
-/
namespace Yasl

/-- `vm->stack[i]`, `vm_peek`, VM.h:22-27. -/
def Mach.at (m : Mach) (i : Int) : Option Val := if 0 ≤ i ∧ i < machSize then some (m.slots i) else none

/-- `S->vm.fp + 1 + n` with `unsigned n`: computed as `unsigned`. yasl.c:255 -/
def Mach.argIndex (m : Mach) (n : Nat) : Int := (m.fp + 1 + n) % 2 ^ 32

/-- `obj_isundef`, …, interpreter/YASL_Object.h:70-105. -/
def objIs : ApiTy → Val → Bool
  | .undef, v => v.tag = .undef
  | .bool, v => v.tag = .bool
  | .float, v => v.tag = .float
  | .int, v => v.tag = .int
  | .str, v => v.tag = .str
  | .list, v => v.tag = .ref .list
  | .table, v => v.tag = .ref .table
  | .userdata _, v => v.tag = .ref .userdata

/-- `YASL_isbool`, … and `YASL_isnbool`, …, yasl.c:449-512, on the value that is looked at; for userdata the tags are compared as pointers (481-484, 510-512). -/
def apiIs (ud : Nat → Userdata) (t : ApiTy) (v : Val) : Bool :=
  match t, v with
  | .userdata tag, .ref _ a => objIs t v && (ud a).tag == tag
  | _, _ => objIs t v

/-- `YASL_TYPE_NAMES`, interpreter/YASL_Object.c:15-32. -/
def typeNames : Tag → String
  | .undef => "undef"
  | .float => "float"
  | .int => "int"
  | .bool => "bool"
  | .str => "str"
  | .ref .list => "list"
  | .ref .table => "table"
  | .ref .fn => "fn"
  | .ref .closure => "fn"
  | .ref .cfn => "fn"
  | .userptr => "userptr"
  | .ref .userdata => "userdata"
  | .end_ => ""

/-- `obj_typename`, interpreter/YASL_Object.c:138-144. -/
def objTypename (ud : Nat → Userdata) (v : Val) : String :=
  match v with
  | .ref .userdata a => (ud a).tagName
  | v => typeNames v.tag

/-- `YASL_peekbool`, yasl.c:514-519, `YASL_peekfloat`, 536-541, `YASL_peekint`, 558-563, and those for a position, 521-527, 543-549, 565-571, on the value that is
looked at. -/
def apiRead (k : ApiKind) (v : Val) : ApiVal :=
  match k, v with
  | .bool, .bool b => .bool b
  | .bool, _ => .bool false
  | .float, .float x => .float x
  | .float, _ => .float 0
  | .int, .int i => .int i
  | .int, _ => .int 0

/-- The type of a kind. yasl.c:515 -/
def ApiKind.ty : ApiKind → ApiTy
  | .bool => .bool
  | .float => .float
  | .int => .int

/-- `YASL_GETUSERDATA(v)->data`, interpreter/YASL_Object.h; of a value that is not an object this reads through a pointer that is none.  yasl.c:598-604 -/
def userdataOf (ud : Nat → Userdata) : Val → Option Nat
  | .ref .userdata a | .ref .list a | .ref .table a => some (ud a).data
  | _ => none

/-- `vm_push`, and what the caller returns. interpreter/VM.c:188-198 -/
def Mach.apiPush (m : Mach) (v : Val) : ApiRes Mach :=
  match m.push v with
  | .ok m => .ok .none m
  | .overflow => .overflow
  | .outOfBounds => .ub

/-- With the value at an index. yasl.c:255 -/
def Mach.withAt (m : Mach) (i : Int) (k : Val → ApiRes Mach) : ApiRes Mach :=
  match m.at i with
  | some v => k v
  | none => .ub

/-- `vm_pop`, interpreter/VM.c:226-229 (`vm_pop_p`, 221-224). -/
def Mach.apiPop (m : Mach) (k : Val → Mach → ApiRes Mach) : ApiRes Mach :=
  match m.pop with
  | .ok p => k p.1 p.2
  | _ => .ub

/-- The bytes copied by `YASL_peekcstr`, yasl.c:580-590, read as a C string. -/
def apiCstr (v : Val) : ApiVal :=
  match v with
  | .str b => match peekCstr b with
    | .ok s => .cstr (some s)
    | _ => .cstr none
  | _ => .cstr none

/-- What is returned by the checks: the value, yasl_aux.c:33, 41, 49, 63; the checks for lists, tables and strings return the object itself. -/
def apiChecked (ud : Nat → Userdata) (t : ApiTy) (v : Val) (m : Mach) : ApiRes Mach :=
  match t with
  | .bool => .ok (apiRead .bool v) m
  | .float => .ok (apiRead .float v) m
  | .int => .ok (apiRead .int v) m
  | .userdata _ => match userdataOf ud v with
    | some p => .ok (.ptr p) m
    | none => .ub
  | _ => .ok .none m

/-- The value whose type is in the message of a failed check: for `YASLX_checknint`, `YASLX_checknfloat`, `YASLX_checknbool`, yasl_aux.c:28-50, and `YASLX_checkntable`,
interpreter/table_methods.c:8-15, this is the top of the stack (`YASL_peektypename(S)`); for the others, yasl_aux.c:52-64, list_methods.c:9-16, str_methods.c:10-17, the argument. -/
def blamed (t : ApiTy) (m : Mach) (n : Nat) : Option Val :=
  match t with
  | .int | .float | .bool | .table => m.at m.sp
  | .undef | .userdata _ | .list | .str => m.at (m.argIndex n)

/-- One call.  `tagName` is the text a tag of userdata points to. -/
def Mach.api (ud : Nat → Userdata) (tagName : Nat → String) (m : Mach) : ApiOp → ApiRes Mach
  -- `YASL_pushundef`, `YASL_pushfloat`, `YASL_pushint`, `YASL_pushbool`, `YASL_pushuserdata`, `YASL_pushuserptr`, `YASL_pushcfunction`, yasl.c:274-304, 336-338
  | .push v => m.apiPush v
  -- `YASL_pushzstr`, yasl.c:318-320: `strlen` of the argument, then `YASL_pushlstr`
  | .pushZstr mem => match cstrOf (mem.map some) with
    | .ok s => m.apiPush (.str s)
    | _ => .ub
  -- `YASL_pushlstr`, yasl.c:322-326: `malloc(len)` and `memcpy`
  | .pushLstr mem len => match (Block.malloc len : Block Byte).memcpy 0 (mem.take len) with
    | .ok b => match b.mapM id with
      | some s => m.apiPush (.str s)
      | none => .ub
    | _ => .ub
  -- `YASL_pop`, yasl.c:359-362
  | .pop => m.apiPop fun _ m => .ok .none m
  -- `YASL_duptop`, yasl.c:364-368
  | .dup => m.withAt m.sp m.apiPush
  -- yasl.c:449-512
  | .is t => m.withAt m.sp fun v => .ok (.bool (apiIs ud t v)) m
  | .isn t n => m.withAt (m.argIndex n) fun v => .ok (.bool (apiIs ud t v)) m
  -- yasl.c:514-519, 536-541, 558-563
  | .peek k => m.withAt m.sp fun v => .ok (apiRead k v) m
  -- yasl.c:521-527, 543-549, 565-571
  | .peekn k n => m.withAt (m.argIndex n) fun v => .ok (apiRead k v) m
  -- `YASL_popbool`, yasl.c:529-534, `YASL_popfloat`, 551-556, `YASL_popint`, 573-578: popped if it has the type
  | .popAs k => m.withAt m.sp fun v => if objIs k.ty v then m.apiPop fun v m => .ok (apiRead k v) m else .ok (apiRead k v) m
  -- yasl.c:580-590
  | .peekCstr => m.withAt m.sp fun v => .ok (apiCstr v) m
  -- yasl.c:592-596
  | .popCstr => m.withAt m.sp fun v => m.apiPop fun _ m => .ok (apiCstr v) m
  -- yasl.c:598-600
  | .peeknUserdata n => m.withAt (m.argIndex n) fun v => match userdataOf ud v with
    | some p => .ok (.ptr p) m
    | none => .ub
  -- yasl.c:602-604
  | .popUserdata => m.apiPop fun v m => match userdataOf ud v with
    | some p => .ok (.ptr p) m
    | none => .ub
  -- yasl.c:606-608
  | .popUserptr => m.apiPop fun v m => match v with
    | .userptr p => .ok (.ptr p.toNat) m
    | _ => .ub
  -- yasl.c:258-264
  | .typename => m.withAt m.sp fun v => .ok (.name (objTypename ud v)) m
  -- yasl.c:266-272
  | .ntypename n => m.withAt (m.argIndex n) fun v => .ok (.name (objTypename ud v)) m
  -- yasl_aux.c:19-64
  | .check t n => m.withAt (m.argIndex n) fun v =>
    if apiIs ud t v then apiChecked ud t v m
    else match blamed t m n with
      | some b => .typeError n (t.typeName tagName) (objTypename ud b)
      | none => .ub

/-- A sequence of calls: what they returned, in order. -/
def Mach.apis (ud : Nat → Userdata) (tagName : Nat → String) (m : Mach) : List ApiOp → List ApiVal × ApiRes Mach
  | [] => ([], .ok .none m)
  | op :: ops => match m.api ud tagName op with
    | .ok r m => ((r :: (m.apis ud tagName ops).1), (m.apis ud tagName ops).2)
    | r => ([], r)

end Yasl
