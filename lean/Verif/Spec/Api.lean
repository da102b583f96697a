import Verif.Model.Value
set_option autoImplicit false
/-!
# What the host and C functions see of the stack

The values a C function was called with (and has pushed since), oldest first, over the values of its callers.  The reference (yasl.h) says what each call does;
`none` is where it says nothing: there is no such value.
-/
namespace Yasl

/-- The types one can ask for.  The tag of userdata is a pointer. -/
inductive ApiTy where
  | undef | bool | float | int | str | list | table
  | userdata (tag : Nat)
deriving DecidableEq

/-- The types that can be read as a C value. -/
inductive ApiKind where
  | bool | float | int
deriving DecidableEq

/-- What a call returns. -/
inductive ApiVal where
  | none
  | bool (b : Bool)
  | float (x : BitVec 64)
  | int (i : BitVec 64)
  | cstr (s : Option (List Byte))
  | ptr (p : Nat)
  | name (s : String)
deriving DecidableEq

/-- Calls: `YASL_push…`, `YASL_pushzstr` with a C string, `YASL_pushlstr` with a block and a length, `YASL_pop`, `YASL_duptop`, `YASL_is…`, `YASL_isn…`,
`YASL_peek…`, `YASL_peekn…`, `YASL_pop…`, `YASL_peekcstr`, `YASL_popcstr`, `YASL_peeknuserdata`, `YASL_popuserdata`, `YASL_popuserptr`, `YASL_peektypename`,
`YASL_peekntypename`, `YASLX_checkn…`. -/
inductive ApiOp where
  | push (v : Val)
  | pushZstr (mem : List Byte)
  | pushLstr (mem : List Byte) (len : Nat)
  | pop
  | dup
  | is (t : ApiTy)
  | isn (t : ApiTy) (n : Nat)
  | peek (k : ApiKind)
  | peekn (k : ApiKind) (n : Nat)
  | popAs (k : ApiKind)
  | peekCstr
  | popCstr
  | peeknUserdata (n : Nat)
  | popUserdata
  | popUserptr
  | typename
  | ntypename (n : Nat)
  | check (t : ApiTy) (n : Nat)
deriving DecidableEq

/-- How a call ends: with a result; stack overflow; a type error with the position, the type expected and the type that the message says was found; undefined
behaviour. -/
inductive ApiRes (σ : Type) where
  | ok (r : ApiVal) (s : σ)
  | overflow
  | typeError (pos : Nat) (expected actual : String)
  | ub

/-- Userdata: the tag, the name the tag points to, and the pointer kept. -/
structure Userdata where
  tag : Nat
  tagName : String
  data : Nat

/-- The stack: the values of the callers and the function itself; the values of the function, oldest first. -/
structure ApiStack where
  below : List Val
  vals : List Val
deriving DecidableEq

/-- Is it a value of the type? -/
def Val.isA (ud : Nat → Userdata) : ApiTy → Val → Bool
  | .undef, .undef => true
  | .bool, .bool _ => true
  | .float, .float _ => true
  | .int, .int _ => true
  | .str, .str _ => true
  | .list, .ref .list _ => true
  | .table, .ref .table _ => true
  | .userdata tag, .ref .userdata a => (ud a).tag == tag
  | _, _ => false

/-- The value, or false, 0.0, 0 for values of other types. -/
def Val.readAs : ApiKind → Val → ApiVal
  | .bool, .bool b => .bool b
  | .bool, _ => .bool false
  | .float, .float x => .float x
  | .float, _ => .float 0
  | .int, .int i => .int i
  | .int, _ => .int 0

/-- Is it of this type? -/
def Val.hasKind : ApiKind → Val → Bool
  | .bool, .bool _ => true
  | .float, .float _ => true
  | .int, .int _ => true
  | _, _ => false

/-- The name of the type of a value. -/
def Val.typeNameOf (ud : Nat → Userdata) : Val → String
  | .undef => "undef"
  | .float _ => "float"
  | .int _ => "int"
  | .bool _ => "bool"
  | .str _ => "str"
  | .ref .list _ => "list"
  | .ref .table _ => "table"
  | .ref .fn _ | .ref .closure _ | .ref .cfn _ => "fn"
  | .userptr _ => "userptr"
  | .ref .userdata a => (ud a).tagName
  | .end_ => ""

/-- The name of a type (of userdata: what the tag points to). -/
def ApiTy.typeName (tagName : Nat → String) : ApiTy → String
  | .undef => "undef"
  | .bool => "bool"
  | .float => "float"
  | .int => "int"
  | .str => "str"
  | .list => "list"
  | .table => "table"
  | .userdata tag => tagName tag

/-- A C string: what comes before the first NUL. -/
def beforeNul (s : List Byte) : List Byte := s.takeWhile (· ≠ 0#8)

namespace ApiStack

/-- One more value; there are 1024 places. -/
def push (s : ApiStack) (v : Val) : ApiRes ApiStack :=
  if s.below.length + s.vals.length < 1024 then .ok .none { s with vals := s.vals ++ [v] } else .overflow

/-- Without the newest value. -/
def drop1 (s : ApiStack) : ApiStack := { s with vals := s.vals.dropLast }

/-- What the calls do, by the reference. -/
def step (ud : Nat → Userdata) (tagName : Nat → String) (s : ApiStack) : ApiOp → Option (ApiRes ApiStack)
  | .push v => some (s.push v)
  | .pushZstr mem => if 0#8 ∈ mem then some (s.push (.str (beforeNul mem))) else none
  | .pushLstr mem len => if len ≤ mem.length then some (s.push (.str (mem.take len))) else none
  | .pop => s.vals.getLast?.map fun _ => .ok .none s.drop1
  | .dup => s.vals.getLast?.map fun v => match s.push v with
    | .ok _ s => .ok .none s
    | r => r
  | .is t => s.vals.getLast?.map fun v => .ok (.bool (v.isA ud t)) s
  | .isn t n => s.vals[n]?.map fun v => .ok (.bool (v.isA ud t)) s
  | .peek k => s.vals.getLast?.map fun v => .ok (v.readAs k) s
  | .peekn k n => s.vals[n]?.map fun v => .ok (v.readAs k) s
  | .popAs k => s.vals.getLast?.map fun v => .ok (v.readAs k) s.drop1
  | .peekCstr => s.vals.getLast?.map fun v => match v with
    | .str b => .ok (.cstr (some (beforeNul b))) s
    | _ => .ok (.cstr none) s
  | .popCstr => s.vals.getLast?.map fun v => match v with
    | .str b => .ok (.cstr (some (beforeNul b))) s.drop1
    | _ => .ok (.cstr none) s.drop1
  | .peeknUserdata n => s.vals[n]?.map fun v => match v with
    | .ref .userdata a => .ok (.ptr (ud a).data) s
    | _ => .ok (.ptr 0) s
  | .popUserdata => match s.vals.getLast? with
    | some (.ref .userdata a) => some (.ok (.ptr (ud a).data) s.drop1)
    | _ => none
  | .popUserptr => match s.vals.getLast? with
    | some (.userptr p) => some (.ok (.ptr p.toNat) s.drop1)
    | _ => none
  | .typename => s.vals.getLast?.map fun v => .ok (.name (v.typeNameOf ud)) s
  | .ntypename n => s.vals[n]?.map fun v => .ok (.name (v.typeNameOf ud)) s
  | .check t n => s.vals[n]?.map fun v =>
    if v.isA ud t then match t, v with
      | .bool, v => .ok (v.readAs .bool) s
      | .float, v => .ok (v.readAs .float) s
      | .int, v => .ok (v.readAs .int) s
      | .userdata _, .ref .userdata a => .ok (.ptr (ud a).data) s
      | _, _ => .ok .none s
    else .typeError n (t.typeName tagName) (v.typeNameOf ud)

/-- A sequence of calls: what they return, and how it ends. -/
def steps (ud : Nat → Userdata) (tagName : Nat → String) (s : ApiStack) : List ApiOp → Option (List ApiVal × ApiRes ApiStack)
  | [] => some ([], .ok .none s)
  | op :: ops => match s.step ud tagName op with
    | none => none
    | some (.ok r s) => (s.steps ud tagName ops).map fun p => (r :: p.1, p.2)
    | some r => some ([], r)

end ApiStack
end Yasl
