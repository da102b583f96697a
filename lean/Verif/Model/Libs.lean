import Verif.Model.Table
import Verif.Model.Compile
import Verif.Model.Index
import Verif.Spec.Libs
set_option autoImplicit false
/-!
# Declaring the libraries: yasl_aux.c:4-18, std/yasl-std-*.c, yasl.c:168-238, 274-362, 394-405

The stack is a list of values, top first (C55).  Objects are never freed here; reference counts are `Verif.Model.RefCount`.  `none`: a loop needs more than the given fuel.
-/
namespace Yasl

/-- Calls of the API made by the libraries. -/
inductive LCall where
  | declglobal (n : String)
  | setglobal (n : String)
  | loadglobal (n : String)
  | registermt (n : String)
  | loadmt (n : String)
  | setmt
  | pushtable
  | pushlit (s : String)
  | pushcfunction (f : String) (args : Int)
  | pushfloat (x : BitVec 64)
  | pushuserdata (data tag : String)
  | tableset
  | pop

/-- Objects: tables; C functions with their number of arguments (`new_cfn`, YASL_Object.h:20); userdata with the tag and the metatable (`struct RC_UserData`,
userdata.h:11-17). -/
inductive LObj where
  | table (t : Table)
  | cfn (f : String) (args : Int)
  | userdata (data tag : String) (mt : Option Nat)

/-- `S->compiler.globals`, `S->vm.globals`, `S->vm.metatables`, the objects, the stack. -/
structure LHost where
  scope : Table
  globals : Table
  metas : Table
  heap : List LObj
  stack : List Val

/-- How a call ends: it returns (`YASL_SUCCESS` or not: nobody looks), or the stack is full, or the behaviour is undefined. -/
inductive LRes where
  | ok (h : LHost)
  | overflow
  | ub

/-- `vm_push`, interpreter/VM.c:188-199. -/
def LHost.push (h : LHost) (v : Val) : LRes := if h.stack.length ≥ 1024 then .overflow else .ok { h with stack := v :: h.stack }

/-- A new object is pushed. -/
def LHost.pushNew (h : LHost) (k : RefKind) (o : LObj) : LRes := ({ h with heap := h.heap ++ [o] } : LHost).push (.ref k h.heap.length)

/-- One call. -/
def LHost.step (f : Nat) (h : LHost) : LCall → Option LRes
  -- `YASL_declglobal`, yasl.c:168-172, `scope_decl_var`, compiler/env.c:206-213
  | .declglobal n => (h.scope.insert f (.str (ascii n)) (.int (BitVec.ofNat 64 h.scope.count))).map fun r => .ok { h with scope := r.1 }
  -- `YASL_setglobal`, yasl.c:179-191
  | .setglobal n => match h.stack with
    | [] => some .ub
    | v :: s => match h.scope.search f (.str (ascii n)) with
      | none => none
      | some (.int i) => if isConst i then some (.ok h) else (h.globals.insertFast f (.str (ascii n)) v).map fun t => .ok { h with globals := t, stack := s }
      | some .end_ => some (.ok h)
      | some _ => some .ub
  -- `YASL_loadglobal`, yasl.c:193-202
  | .loadglobal n => (h.globals.search f (.str (ascii n))).map fun v => if v.tag = .end_ then .ok h else h.push v
  -- `YASL_registermt`, yasl.c:204-210
  | .registermt n => match h.stack with
    | [] => some .ub
    | v :: s => (h.metas.insertFast f (.str (ascii n)) v).map fun t => .ok { h with metas := t, stack := s }
  -- `YASL_loadmt`, yasl.c:212-221
  | .loadmt n => (h.metas.search f (.str (ascii n))).map fun v => if v.tag = .end_ then .ok h else h.push v
  -- `YASL_setmt`, yasl.c:223-237; that of lists and tables and the removal of a metatable are not modelled here
  | .setmt => match h.stack with
    | .ref .table a :: s => match s with
      | .ref .userdata p :: _ => match h.heap[p]? with
        | some (.userdata d t _) => some (.ok { h with heap := h.heap.set p (.userdata d t (some a)), stack := s })
        | _ => some .ub
      | _ => some .ub
    | _ => some .ub
  -- `YASL_pushtable`, yasl.c:340-344
  | .pushtable => some (h.pushNew .table (.table Table.new))
  -- `YASL_pushlit`, yasl.c:314-316
  | .pushlit s => some (h.push (.str (ascii s)))
  -- `YASL_pushcfunction`, yasl.c:336-338
  | .pushcfunction c n => some (h.pushNew .cfn (.cfn c n))
  -- `YASL_pushfloat`, yasl.c:278-280
  | .pushfloat x => some (h.push (.float x))
  -- `YASL_pushuserdata`, yasl.c:298-300: without a metatable
  | .pushuserdata d t => some (h.pushNew .userdata (.userdata d t none))
  -- `YASL_tableset`, yasl.c:394-405
  | .tableset => match h.stack with
    | v :: k :: .ref .table a :: s => match h.heap[a]? with
      | some (.table tb) => (tb.insert f k v).map fun r => .ok { h with heap := h.heap.set a (.table r.1), stack := .ref .table a :: s }
      | _ => some .ub
    | _ :: _ :: t :: s => some (.ok { h with stack := t :: s })
    | _ => some .ub
  -- `YASL_pop`, yasl.c:359-362
  | .pop => match h.stack with
    | [] => some .ub
    | _ :: s => some (.ok { h with stack := s })

/-- Calls one after the other (model glue). -/
def LHost.run (f : Nat) (h : LHost) : List LCall → Option LRes
  | [] => some (.ok h)
  | op :: ops => match h.step f op with
    | none => none
    | some (.ok h') => h'.run f ops
    | some r => some r

/-- The three calls for a function of a library, for example std/yasl-std-math.c:281-283. -/
def libFn (name cname : String) (args : Int) : List LCall := [.pushlit name, .pushcfunction cname args, .tableset]

/-- The three calls for a number, for example std/yasl-std-math.c:294-296. -/
def libNum (name : String) (x : BitVec 64) : List LCall := [.pushlit name, .pushfloat x, .tableset]

/-- The five calls for a file, for example std/yasl-std-io.c:283-287. -/
def libFile (name stream : String) : List LCall := [.pushlit name, .pushuserdata stream "io.file", .loadmt "io.file", .setmt, .tableset]

/-- `YASLX_initglobal`, yasl_aux.c:15-18. -/
def initglobal (n : String) : List LCall := [.declglobal n, .setglobal n]

/-- `YASL_decllib_collections`, std/yasl-std-collections.c:312-406. -/
def decllibCollections : List LCall :=
  [.pushtable, .registermt "collections.set", .loadmt "collections.set"] ++
  (libFn "tostr" "YASL_collections_set_tostr" 1 ++ libFn "tolist" "YASL_collections_set_tolist" 1 ++ libFn "__band" "YASL_collections_set___band" 2 ++
   libFn "__bor" "YASL_collections_set___bor" 2 ++ libFn "__bxor" "YASL_collections_set___bxor" 2 ++ libFn "__bandnot" "YASL_collections_set___bandnot" 2 ++
   libFn "__len" "YASL_collections_set___len" 1 ++ libFn "__eq" "YASL_collections_set___eq" 2 ++ libFn "__gt" "YASL_collections_set___gt" 2 ++
   libFn "__ge" "YASL_collections_set___ge" 2 ++ libFn "__lt" "YASL_collections_set___lt" 2 ++ libFn "__le" "YASL_collections_set___le" 2 ++
   libFn "add" "YASL_collections_set_add" 2 ++ libFn "remove" "YASL_collections_set_remove" 2 ++ libFn "copy" "YASL_collections_set_copy" 1 ++
   libFn "clear" "YASL_collections_set_clear" 1 ++ libFn "__get" "YASL_collections_set___get" 2) ++
  [.pop, .pushtable] ++ initglobal "collections" ++ [.loadglobal "collections"] ++
  (libFn "set" "YASL_collections_set_new" (-1) ++ libFn "list" "YASL_collections_list_new" (-1) ++ libFn "table" "YASL_collections_table_new" (-1)) ++ [.pop]

/-- `YASL_decllib_io`, std/yasl-std-io.c:248-303. -/
def decllibIo : List LCall :=
  [.pushtable, .registermt "io.file", .loadmt "io.file"] ++
  (libFn "read" "YASL_io_read" 2 ++ libFn "write" "YASL_io_write" 2 ++ libFn "seek" "YASL_io_seek" 3 ++ libFn "flush" "YASL_io_flush" 1 ++ libFn "close" "YASL_io_close" 1) ++
  [.pop, .pushtable] ++ initglobal "io" ++ [.loadglobal "io"] ++
  (libFn "open" "YASL_io_open" 2 ++ libFile "stdin" "stdin" ++ libFile "stdout" "stdout" ++ libFile "stderr" "stderr") ++ [.pop]

/-- `YASL_decllib_math`, std/yasl-std-math.c:275-378; `nan` is `0.0 / 0.0` as compiled (15-24). -/
def decllibMath (nan : BitVec 64) : List LCall :=
  [.declglobal "math", .pushtable, .setglobal "math", .loadglobal "math"] ++
  (libFn "abs" "YASL_math_abs" 1 ++ libFn "exp" "YASL_math_exp" 1 ++ libFn "log" "YASL_math_log" 1 ++ libNum "pi" 0x400921FB54442D18 ++ libNum "nan" nan ++
   libNum "inf" 0x7FF0000000000000 ++ libFn "sqrt" "YASL_math_sqrt" 1 ++ libFn "cos" "YASL_math_cos" 1 ++ libFn "sin" "YASL_math_sin" 1 ++ libFn "tan" "YASL_math_tan" 1 ++
   libFn "acos" "YASL_math_acos" 1 ++ libFn "asin" "YASL_math_asin" 1 ++ libFn "atan" "YASL_math_atan" 1 ++ libFn "ceil" "YASL_math_ceil" 1 ++ libFn "floor" "YASL_math_floor" 1 ++
   libFn "max" "YASL_math_max" (-1) ++ libFn "min" "YASL_math_min" (-1) ++ libFn "deg" "YASL_math_deg" 1 ++ libFn "rad" "YASL_math_rad" 1 ++
   libFn "isprime" "YASL_math_isprime" 1 ++ libFn "gcd" "YASL_math_gcd" 2 ++ libFn "lcm" "YASL_math_lcm" 2 ++ libFn "rand" "YASL_math_rand" 1) ++ [.pop]

/-- `YASL_decllib_require`, std/yasl-std-require.c:193-199. -/
def decllibRequire : List LCall := [.declglobal "require", .pushcfunction "YASL_require" 1, .setglobal "require"]

/-- `YASL_decllib_require_c`, std/yasl-std-require.c:201-207. -/
def decllibRequireC : List LCall := [.declglobal "__require_c__", .pushcfunction "YASL_require_c" 1, .setglobal "__require_c__"]

/-- `YASL_decllib_mt`, std/yasl-std-mt.c:34-50. -/
def decllibMt : List LCall :=
  [.declglobal "mt", .pushtable, .setglobal "mt", .loadglobal "mt"] ++ (libFn "get" "YASL_mt_getmt" 1 ++ libFn "set" "YASL_mt_setmt" 2) ++ [.pop]

/-- `YASLX_decllibs`, yasl_aux.c:4-13. -/
def decllibs (nan : BitVec 64) : List LCall := decllibCollections ++ decllibIo ++ decllibMath nan ++ decllibRequire ++ decllibRequireC ++ decllibMt

end Yasl
