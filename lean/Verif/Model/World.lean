import Verif.Model.Host
import Verif.Model.Index
import Verif.Model.Iter
import Verif.Model.Print
import Verif.Model.Num
import Verif.Spec.World
set_option autoImplicit false
/-!
# The operations of the machine on lists, tables and strings: interpreter/VM.c, interpreter/builtins.c, interpreter/*_methods.c

The operations which are parameters (`Prims`, `Q`) of the model of the machine, carried out on a heap of `YList` and `Table` objects.  Objects are never freed
(reference counts are `Verif.Model.RefCount`); the slots of the stack used inside of an operation are not counted; metatables are the built-in ones.  Loops get the
fuel `f`; a loop that needs more, and what is not modelled, is `RtErr.other`.
-/
namespace Yasl

/-- The objects. -/
structure World where
  heap : List CObj

/-- `undef_builtins`, interpreter/builtins.c:27-32: name (specialstrings.x), function, number of arguments. -/
def undefBuiltins : List (String × Meth × Nat) := [("tostr", .undefTostr, 1), ("tobool", .undefTobool, 1)]

/-- `float_builtins`, interpreter/builtins.c:34-41. -/
def floatBuiltins : List (String × Meth × Nat) := [("toint", .floatToint, 1), ("tobool", .floatTobool, 1), ("tofloat", .floatTofloat, 1), ("tostr", .floatTostr, 1)]

/-- `int_builtins`, interpreter/builtins.c:43-50. -/
def intBuiltins : List (String × Meth × Nat) := [("toint", .intToint, 1), ("tobool", .intTobool, 1), ("tofloat", .intTofloat, 1), ("tostr", .intTostr, 1)]

/-- `bool_builtins`, interpreter/builtins.c:52-57. -/
def boolBuiltins : List (String × Meth × Nat) := [("tostr", .boolTostr, 1), ("tobool", .boolTobool, 1)]

/-- `str_builtins`, interpreter/builtins.c:59-84. -/
def strBuiltins : List (String × Meth × Nat) :=
  [("__len", .strLen, 1), ("tofloat", .strTofloat, 1), ("toint", .strToint, 1), ("isalnum", .strIsalnum, 1), ("isal", .strIsal, 1), ("isnum", .strIsnum, 1),
   ("isspace", .strIsspace, 1), ("tobool", .strTobool, 1), ("tostr", .strTostr, 1), ("toupper", .strToupper, 1), ("tolower", .strTolower, 1),
   ("startswith", .strStartswith, 2), ("endswith", .strEndswith, 2), ("replace", .strReplace, 4), ("search", .strSearch, 2), ("count", .strCount, 2),
   ("split", .strSplit, 2), ("ltrim", .strLtrim, 2), ("rtrim", .strRtrim, 2), ("trim", .strTrim, 2), ("__get", .strGet, 2), ("rep", .strRep, 2)]

/-- `list_builtins`, interpreter/builtins.c:86-107. -/
def listBuiltins : List (String × Meth × Nat) :=
  [("__len", .listLen, 1), ("push", .listPush, 2), ("copy", .listCopy, 1), ("__add", .listAdd, 2), ("__eq", .listEq, 2), ("pop", .listPop, 1), ("__get", .listGet, 2),
   ("__set", .listSet, 3), ("tostr", .listTostr, 1), ("search", .listSearch, 2), ("reverse", .listReverse, 1), ("clear", .listClear, 1), ("join", .listJoin, 2),
   ("sort", .listSort, 1), ("spread", .listSpread, 1), ("count", .listCount, 2), ("insert", .listInsert, 3)]

/-- `table_builtins`, interpreter/builtins.c:109-123. -/
def tableBuiltins : List (String × Meth × Nat) :=
  [("__len", .tableLen, 1), ("remove", .tableRemove, 2), ("keys", .tableKeys, 1), ("values", .tableValues, 1), ("copy", .tableCopy, 1), ("tostr", .tableTostr, 1),
   ("__get", .tableGet, 2), ("__set", .tableSet, 3), ("__bor", .tableBor, 2), ("__eq", .tableEq, 2), ("clear", .tableClear, 1)]

/-- `builtins_htable_new`, interpreter/VM.c:25-42 by type; lists and tables get the metatable when they are made (VM.c:1500, 1508; list_methods.c:164, 177).
The entries for functions, closures, C functions and user pointers are not set, which is undefined behaviour (C104); metatables of userdata are
not modelled. -/
def builtinsOf : Val → Except RtErr (List (String × Meth × Nat))
  | .undef => .ok undefBuiltins
  | .float _ => .ok floatBuiltins
  | .int _ => .ok intBuiltins
  | .bool _ => .ok boolBuiltins
  | .str _ => .ok strBuiltins
  | .ref .list _ => .ok listBuiltins
  | .ref .table _ => .ok tableBuiltins
  | .ref .userdata _ => .error .other
  | _ => .error .ub

/-- The insertions of a `*_builtins` function, `table_insert_specialstring_cfunction`, interpreter/builtins.c:21-25. -/
def builtinOps (es : List (String × Meth × Nat)) : List TOp := es.map fun e => .set (.str (ascii e.1)) e.2.1.val

/-- `get_mt`, `obj_get_metatable`, interpreter/VM.c:724-743. -/
def mtOf (f : Nat) (v : Val) : Except RtErr Table :=
  match builtinsOf v with
  | .error e => .error e
  | .ok es => match Table.new.run f (builtinOps es) with
    | some t => .ok t
    | none => .error .other

/-- All C functions with their numbers of arguments (in C these are fields of the value, `YASL_CFN`). interpreter/builtins.c:21-25 -/
def allBuiltins : List (String × Meth × Nat) := undefBuiltins ++ floatBuiltins ++ intBuiltins ++ boolBuiltins ++ strBuiltins ++ listBuiltins ++ tableBuiltins

/-- `vm_fill_args`, interpreter/VM.c:1223-1233 (see `Verif.Model.Calls` for the stack). -/
def fillArgs (n : Nat) (args : List Val) : List Val := (args ++ List.replicate (n - args.length) Val.undef).take n

namespace World

/-- The outcome of a function of the model (model glue). -/
def out {α β : Type} (w : World) (x : Out α) (k : α → PRes World β) : PRes World β :=
  match x with
  | .ok a => k a
  | .valueError => (w, .error .value)
  | .typeError => (w, .error .type)
  | .ub => (w, .error .ub)

/-- The same with fuel (model glue). -/
def run {α β : Type} (w : World) (x : Run α) (k : α → PRes World β) : PRes World β :=
  match x with
  | some x => w.out x k
  | none => (w, .error .other)

/-- `list->…` is changed (model glue). -/
def put (w : World) (a : Nat) (o : CObj) : World := ⟨w.heap.set a o⟩

/-- `rcls_new`, `rcht_new` with the object filled. data-structures/YASL_List.c:29-31 -/
def add (w : World) (o : CObj) : World := ⟨w.heap ++ [o]⟩

/-- `YASLX_checknlist`, interpreter/list_methods.c:9-16. -/
def checkList {α : Type} (w : World) (v : Val) (k : Nat → YList → PRes World α) : PRes World α :=
  match v with
  | .ref .list a => match w.heap[a]? with
    | some (.list l) => k a l
    | _ => (w, .error .ub)
  | _ => (w, .error .type)

/-- `YASLX_checkntable`, interpreter/table_methods.c:7-14. -/
def checkTable {α : Type} (w : World) (v : Val) (k : Nat → Table → PRes World α) : PRes World α :=
  match v with
  | .ref .table a => match w.heap[a]? with
    | some (.table t) => k a t
    | _ => (w, .error .ub)
  | _ => (w, .error .type)

/-- `YASLX_checknint`, yasl_aux.c:28-34. -/
def checkInt {α : Type} (w : World) (v : Val) (k : BitVec 64 → PRes World α) : PRes World α :=
  match v with
  | .int i => k i
  | _ => (w, .error .type)

/-- `YASLX_checknfloat`, yasl_aux.c:36-42. -/
def checkFloat {α : Type} (w : World) (v : Val) (k : BitVec 64 → PRes World α) : PRes World α :=
  match v with
  | .float x => k x
  | _ => (w, .error .type)

/-- `YASLX_checknbool`, yasl_aux.c:44-50. -/
def checkBool {α : Type} (w : World) (v : Val) (k : Bool → PRes World α) : PRes World α :=
  match v with
  | .bool b => k b
  | _ => (w, .error .type)

/-- `YASLX_checknundef`, yasl_aux.c:52-57. -/
def checkUndef {α : Type} (w : World) (v : Val) (k : PRes World α) : PRes World α :=
  match v with
  | .undef => k
  | _ => (w, .error .type)

/-- `YASLX_checknstr`, interpreter/str_methods.c:10-17.  The string is its own block (views of other strings: C44, C51). -/
def checkStr {α : Type} (w : World) (v : Val) (k : YStr → PRes World α) : PRes World α :=
  match v with
  | .str s => k (YStr.heap s)
  | _ => (w, .error .type)

/-- The bytes of a string, as a value (`YASL_STR`). YASL_String.c:20-22 -/
def strVal (w : World) (s : YStr) (k : List Byte → PRes World (List Val)) : PRes World (List Val) := w.out (s.sub 0 s.len) k

/-- The objects as `Verif.Model.Print` sees them; `none` if a slot of a list was never written. -/
def hobj : CObj → Option HObj
  | .table t => some (.table t)
  | .list l => match l.forItems with
    | .ok vs => some (.list vs)
    | _ => none

/-- What `vm_stringify_top` gives for a value that is not a list or a table: the `tostr` of its type (`undef_tostr`, `bool_tostr`, `int_tostr`, `float_tostr`,
`str_tostr`: undef_methods.c:6-10, bool_methods.c:5-10, int_methods.c:24-33, float_methods.c:25-31, str_methods.c:71-77).  Texts of functions and user pointers,
and of floats whose text is undefined behaviour (C75), are not modelled. -/
def leafText : Val → List Byte
  | .undef => ascii "undef"
  | .bool b => ascii (if b then "true" else "false")
  | .int i => intToStr i
  | .float x => match floatToStr x with
    | .ok t => t
    | _ => []
  | .str s => s
  | _ => []

/-- `list_tostr`, `table_tostr`, list_methods.c:121-131, table_methods.c:180-193, on a stack that is otherwise empty. -/
def textOf (f : Nat) (w : World) (a : Nat) : PRes World (List Val) :=
  match w.heap.mapM hobj with
  | none => (w, .error .ub)
  | some h => match Yasl.tostr h leafText f 0 a with
    | none => (w, .error .other)
    | some .overflow => (w, .error .stackOverflow)
    | some .ub => (w, .error .ub)
    | some (.ok t) => (w, .ok [.str t])

/-- `vm_EQ`, interpreter/VM.c:489-507, with `list___eq`, list_methods.c:196-217, and `table___eq`, table_methods.c:70-96, for lists and tables (found in the
metatables under `__eq`).  `f` bounds the probing in tables, the second number the depth. -/
def eqVals (f : Nat) (w : World) : Nat → Val → Val → Except RtErr Bool
  | 0, _, _ => .error .other
  | n + 1, .ref .list a, .ref .list b => match w.heap[a]?, w.heap[b]? with
    | some (.list l), some (.list r) =>
      if l.count ≠ r.count then .ok false
      else match l.forItems, r.forItems with
        | .ok xs, .ok ys => go (eqVals f w n) xs ys
        | _, _ => .error .ub
    | _, _ => .error .ub
  | n + 1, .ref .table a, .ref .table b => match w.heap[a]?, w.heap[b]? with
    | some (.table l), some (.table r) => if l.count ≠ r.count then .ok false else goTable f (eqVals f w n) r l.entries
    | _, _ => .error .ub
  | _ + 1, .ref .userdata _, .ref .userdata _ => .error .other
  | _ + 1, a, b => .ok (isEqual a b)
where
  /-- The loop, list_methods.c:205-213. -/
  go (eq : Val → Val → Except RtErr Bool) : List Val → List Val → Except RtErr Bool
    | x :: xs, y :: ys => match eq x y with
      | .ok true => go eq xs ys
      | .ok false => .ok false
      | .error e => .error e
    | _, _ => .ok true
  /-- The loop, table_methods.c:79-92. -/
  goTable (f : Nat) (eq : Val → Val → Except RtErr Bool) (right : Table) : List Item → Except RtErr Bool
    | [] => .ok true
    | it :: its => match right.search f it.key with
      | none => .error .other
      | some s =>
        if s.tag = .end_ then .ok false
        else match eq it.value s with
          | .ok true => goTable f eq right its
          | .ok false => .ok false
          | .error e => .error e

/-- The list of the pieces of a string: `YASL_List_push` to a new list for each piece, str_methods.c:184-189, 208-211, YASL_String.c:183-230. -/
def strList (w : World) (ps : List YStr) : PRes World (List Val) :=
  w.out (ps.foldr (fun p r => (p.sub 0 p.len).bind fun b => r.bind fun bs => .ok (.str b :: bs)) (.ok [])) fun bs =>
    w.out (YList.new.appendAll bs) fun l => (w.add (.list l), .ok [.ref .list w.heap.length])

/-- `vm_stringify_top` on an element of a list, interpreter/VM.c:537-560, with the `tostr` methods found in the built-in metatables.  Texts of functions and user pointers
are not modelled. -/
def elemText (f : Nat) (w : World) (v : Val) : Except RtErr (List Byte) :=
  match v with
  | .ref .list a | .ref .table a => match (w.textOf f a).2 with
    | .ok [.str t] => .ok t
    | .ok _ => .error .ub
    | .error e => .error e
  | .float x => match floatToStr x with
    | .ok t => .ok t
    | _ => .error .ub
  | .undef | .bool _ | .int _ | .str _ => .ok (leafText v)
  | _ => .error .other

/-- The bytes of a string (`vm_popstr`, list_methods.c:286, 308). -/
def bytesOf : Val → List Byte
  | .str s => s
  | _ => []

/-- `list_join` after the checks of the arguments, interpreter/list_methods.c:275-320.  (The texts of the elements are taken first, and not one by one while the buffer is
filled; taking a text changes nothing.) -/
def joined (f : Nat) (w : World) (l : YList) (sep : List Byte) : PRes World (List Val) :=
  w.out l.forItems fun vs => match vs.mapM (w.elemText f) with
    | .error e => (w, .error e)
    | .ok ts => match listJoin f bytesOf (ts.map Val.str) sep with
      | none => (w, .error .other)
      | some b => w.out b fun b => match b.mapM id with
        | some b => (w, .ok [.str b])
        | none => (w, .error .ub)

/-- A C function with its arguments on the stack: the values it returns.  `strtod` is the function of the C library. -/
def callMeth (f : Nat) (strtod : List Byte → BitVec 64) (w : World) (m : Meth) (a : Nat → Val) : PRes World (List Val) :=
  match m with
  -- undef_methods.c:6-16
  | .undefTostr => w.checkUndef (a 0) (w, .ok [.str (ascii "undef")])
  | .undefTobool => w.checkUndef (a 0) (w, .ok [.bool false])
  -- bool_methods.c:5-15
  | .boolTostr => w.checkBool (a 0) fun b => (w, .ok [.str (ascii (if b then "true" else "false"))])
  | .boolTobool => w.checkBool (a 0) fun b => (w, .ok [.bool b])
  -- int_methods.c:6-33
  | .intToint => w.checkInt (a 0) fun i => (w, .ok [.int i])
  | .intTobool => w.checkInt (a 0) fun _ => (w, .ok [.bool true])
  | .intTofloat => w.checkInt (a 0) fun i => (w, .ok [.float (intToFloat i)])
  | .intTostr => w.checkInt (a 0) fun i => (w, .ok [.str (intToStr i)])
  -- float_methods.c:6-31
  | .floatToint => w.checkFloat (a 0) fun x => match floatToInt x with
    | some i => (w, .ok [.int i])
    | none => (w, .error .ub)
  | .floatTobool => w.checkFloat (a 0) fun x => (w, .ok [.bool (feq x x)])
  | .floatTofloat => w.checkFloat (a 0) fun x => (w, .ok [.float x])
  | .floatTostr => w.checkFloat (a 0) fun x => w.out (floatToStr x) fun t => (w, .ok [.str t])
  -- str_methods.c:19-77
  | .strLen => w.checkStr (a 0) fun s => (w, .ok [.int (BitVec.ofNat 64 s.len)])
  | .strGet => w.checkStr (a 0) fun s => w.checkInt (a 1) fun i => w.out (strGet s i) fun p => w.strVal p fun b => (w, .ok [.str b])
  | .strTofloat => w.checkStr (a 0) fun s => w.out ((s.sub 0 s.len).bind (strToFloat strtod)) fun x => (w, .ok [.float x])
  | .strToint => w.checkStr (a 0) fun s => w.out ((s.sub 0 s.len).bind strToInt) fun i => (w, .ok [.int i])
  | .strTobool => w.checkStr (a 0) fun s => (w, .ok [.bool (s.len ≠ 0)])
  | .strTostr => w.checkStr (a 0) fun s => w.strVal s fun b => (w, .ok [.str b])
  -- str_methods.c:79-125
  | .strToupper => w.checkStr (a 0) fun s => w.out (strToupper s) fun p => w.strVal p fun b => (w, .ok [.str b])
  | .strTolower => w.checkStr (a 0) fun s => w.out (strTolower s) fun p => w.strVal p fun b => (w, .ok [.str b])
  | .strIsalnum => w.checkStr (a 0) fun s => w.out (strIsalnum s) fun b => (w, .ok [.bool b])
  | .strIsal => w.checkStr (a 0) fun s => w.out (strIsal s) fun b => (w, .ok [.bool b])
  | .strIsnum => w.checkStr (a 0) fun s => w.out (strIsnum s) fun b => (w, .ok [.bool b])
  | .strIsspace => w.checkStr (a 0) fun s => w.out (strIsspace s) fun b => (w, .ok [.bool b])
  | .strStartswith => w.checkStr (a 0) fun s => w.checkStr (a 1) fun t => w.out (strStartswith s t) fun b => (w, .ok [.bool b])
  | .strEndswith => w.checkStr (a 0) fun s => w.checkStr (a 1) fun t => w.out (strEndswith s t) fun b => (w, .ok [.bool b])
  -- str_methods.c:127-162
  | .strReplace => match a 3 with
    | .undef => w.checkStr (a 2) fun r => w.checkStr (a 1) fun t => w.checkStr (a 0) fun s => w.run (strReplace f s t r) fun p => w.strVal p fun b => (w, .ok [.str b])
    | _ => w.checkInt (a 3) fun n => w.checkStr (a 2) fun r => w.checkStr (a 1) fun t => w.checkStr (a 0) fun s =>
      w.run (strReplaceMax f s t r n) fun p => w.strVal p fun b => (w, .ok [.str b])
  -- str_methods.c:164-180
  | .strSearch => w.checkStr (a 1) fun t => w.checkStr (a 0) fun s => w.out (strFind s t) fun i => match i with
    | some i => (w, .ok [.int (BitVec.ofNat 64 i)])
    | none => (w, .ok [.undef])
  | .strCount => w.checkStr (a 1) fun t => w.checkStr (a 0) fun s => w.run (strCount f s t) fun n => (w, .ok [.int (BitVec.ofNat 64 n)])
  -- str_methods.c:182-212
  | .strSplit => match a 1 with
    | .undef => w.checkStr (a 0) fun s => w.run (strSplitWs f s) w.strList
    | _ => w.checkStr (a 1) fun t => w.checkStr (a 0) fun s => w.run (strSplit f s t) w.strList
  -- str_methods.c:214-269
  | .strLtrim => match a 1 with
    | .undef => w.checkStr (a 0) fun s => w.run (strLtrimWs f s) fun p => w.strVal p fun b => (w, .ok [.str b])
    | _ => w.checkStr (a 1) fun t => w.checkStr (a 0) fun s => w.run (strLtrim f s t) fun p => w.strVal p fun b => (w, .ok [.str b])
  | .strRtrim => match a 1 with
    | .undef => w.checkStr (a 0) fun s => w.out (strRtrimWs s) fun p => w.strVal p fun b => (w, .ok [.str b])
    | _ => w.checkStr (a 1) fun t => w.checkStr (a 0) fun s => w.run (strRtrim f s t) fun p => w.strVal p fun b => (w, .ok [.str b])
  | .strTrim => match a 1 with
    | .undef => w.checkStr (a 0) fun s => w.run (strTrimWs f s) fun p => w.strVal p fun b => (w, .ok [.str b])
    | _ => w.checkStr (a 1) fun t => w.checkStr (a 0) fun s => w.run (strTrim f s t) fun p => w.strVal p fun b => (w, .ok [.str b])
  -- str_methods.c:271-282
  | .strRep => w.checkInt (a 1) fun n => w.checkStr (a 0) fun s => w.run (strRep f s n) fun m => match m.mapM id with
    | some b => (w, .ok [.str b])
    | none => (w, .error .ub)
  -- list_methods.c:18-61
  | .listLen => w.checkList (a 0) fun _ l => (w, .ok [.int (BitVec.ofNat 64 l.count)])
  | .listGet => w.checkInt (a 1) fun i => w.checkList (a 0) fun _ l => w.out (listGet l i) fun v => (w, .ok [v])
  | .listSet => w.checkInt (a 1) fun i => w.checkList (a 0) fun p l => w.out (listSet l i (a 2)) fun l => (w.put p (.list l), .ok [.int i])
  -- list_methods.c:121-139
  | .listTostr => w.checkList (a 0) fun p _ => w.textOf f p
  | .listPush => w.checkList (a 0) fun p l => w.out (listPush l (a 1)) fun l => (w.put p (.list l), .ok [a 0])
  -- list_methods.c:161-227
  | .listCopy => w.checkList (a 0) fun _ l => w.out (listCopy l) fun l => (w.add (.list l), .ok [.ref .list w.heap.length])
  | .listAdd => w.checkList (a 1) fun _ r => w.checkList (a 0) fun _ l => w.out (listConcat l r) fun l => (w.add (.list l), .ok [.ref .list w.heap.length])
  | .listEq => w.checkList (a 1) fun _ _ => w.checkList (a 0) fun _ _ => match w.eqVals f f (a 0) (a 1) with
    | .ok b => (w, .ok [.bool b])
    | .error e => (w, .error e)
  | .listPop => w.checkList (a 0) fun p l => w.out (listPop l) fun r => (w.put p (.list r.1), .ok [r.2])
  -- list_methods.c:229-258
  | .listSearch => w.checkList (a 0) fun _ l => w.out (listSearch l (a 1)) fun v => (w, .ok [v])
  | .listReverse => w.checkList (a 0) fun p l => w.out l.reverse fun l => (w.put p (.list l), .ok [])
  | .listClear => w.checkList (a 0) fun p l => w.out (listClear l) fun l => (w.put p (.list l), .ok [])
  -- list_methods.c:260-321
  | .listJoin => w.checkStr (a 1) fun t => w.checkList (a 0) fun _ l => w.strVal t fun sep => w.joined f l sep
  -- not modelled here (`listSort`)
  | .listSort => (w, .error .other)
  -- list_methods.c:323-345, 447-470
  | .listSpread => w.checkList (a 0) fun _ l => w.out (listSpread l) fun vs => (w, .ok vs)
  | .listCount => w.checkList (a 0) fun _ l => w.out (listCount l (a 1)) fun v => (w, .ok [v])
  | .listInsert => w.checkInt (a 1) fun i => w.checkList (a 0) fun p l => w.out (listInsert l i (a 2)) fun l => (w.put p (.list l), .ok [a 0])
  -- table_methods.c:16-49
  | .tableLen => w.checkTable (a 0) fun _ t => (w, .ok [.int (BitVec.ofNat 64 t.length)])
  | .tableGet => w.checkTable (a 0) fun _ t => match t.get f (a 1) with
    | some v => (w, .ok [v])
    | none => (w, .error .other)
  | .tableSet => w.checkTable (a 0) fun p t => match t.set f (a 1) (a 2) with
    | some (.ok t) => (w.put p (.table t), .ok [a 0])
    | some .typeError => (w, .error .type)
    | none => (w, .error .other)
  -- table_methods.c:51-68
  | .tableBor => w.checkTable (a 1) fun _ r => w.checkTable (a 0) fun _ l => match l.union f r with
    | some t => (w.add (.table t), .ok [.ref .table w.heap.length])
    | none => (w, .error .other)
  -- table_methods.c:70-96
  | .tableEq => w.checkTable (a 1) fun _ _ => w.checkTable (a 0) fun _ _ => match w.eqVals f f (a 0) (a 1) with
    | .ok b => (w, .ok [.bool b])
    | .error e => (w, .error e)
  -- table_methods.c:180-193
  | .tableTostr => w.checkTable (a 0) fun p _ => w.textOf f p
  -- table_methods.c:218-228: the table is what is left on the stack
  | .tableRemove => w.checkTable (a 0) fun p t => match t.rm f (a 1) with
    | some t => (w.put p (.table t), .ok [a 0])
    | none => (w, .error .other)
  -- table_methods.c:242-261
  | .tableClear => w.checkTable (a 0) fun p t => (w.put p (.table t.clear), .ok [])
  -- not modelled here (the copy of a table has no metatable: C122)
  | .tableCopy | .tableKeys | .tableValues => (w, .error .other)

/-- The first of the results of a call (`vm_INIT_CALL_offset(…, 1)`: `undef` if there are none). interpreter/VM.c:1149-1166 -/
def one (r : PRes World (List Val)) : PRes World Val := r.bind fun w vs => (w, .ok (vs.headD .undef))

/-- Call of a value found in a metatable. -/
def callFound (f : Nat) (strtod : List Byte → BitVec 64) (w : World) (fn : Val) (args : List Val) : PRes World (List Val) :=
  match allBuiltins.find? fun e => e.2.1.val = fn with
  | some e => w.callMeth f strtod e.2.1 fun i => (fillArgs e.2.2 args).getD i .undef
  | none => (w, .error .other)

/-- `vm_lookup_method_throwing`, interpreter/VM.c:311-326, with `vm_lookup_method_helper`, VM.c:750-761, and the call of the method. -/
def viaMethod (f : Nat) (strtod : List Byte → BitVec 64) (w : World) (v : Val) (name : String) (args : List Val) : PRes World (List Val) :=
  match mtOf f v with
  | .error e => (w, .error e)
  | .ok mt => match mt.search f (.str (ascii name)) with
    | none => (w, .error .other)
    | some m => if m.tag = .end_ then (w, .error .type) else w.callFound f strtod m args

/-- `vm_stringify_top`, interpreter/VM.c:537-560.  Texts of functions and user pointers are not modelled. -/
def tostr (f : Nat) (strtod : List Byte → BitVec 64) (w : World) (v : Val) : PRes World (List Byte) :=
  if v.printsDirectly then (w, .error .other)
  else (one (w.viaMethod f strtod v "tostr" [v])).bind fun w r => match r with
    | .str t => (w, .ok t)
    | _ => (w, .error .type)

/-- The names of operators, interpreter/operator_names.h; `__lt` … VM.c:532-535, `__eq` VM.c:497. -/
def binName : BinOp → String
  | .bor => "__bor" | .bxor => "__bxor" | .band => "__band" | .bandnot => "__bandnot" | .shl => "__bshl" | .shr => "__bshr"
  | .add => "__add" | .sub => "__sub" | .mul => "__mul" | .fdiv => "__div" | .idiv => "__idiv" | .mod => "__mod" | .pow => "__pow"
  | .lt => "__lt" | .le => "__le" | .gt => "__gt" | .ge => "__ge" | .eq => "__eq" | .id => "" | .cnct => "__concat"

/-- The operators on values they are not defined for, interpreter/VM.c:377-386, 410-419, 431-437, 494-500, 509-524; `vm_CNCT` converts both operands, the
right one first. -/
def binary (f : Nat) (strtod : List Byte → BitVec 64) (w : World) (o : BinOp) (a b : Val) : PRes World Val :=
  match o with
  | .cnct => (w.tostr f strtod b).bind fun w y => (w.tostr f strtod a).bind fun w x => (w, .ok (.str (x ++ y)))
  | .id => (w, .error .other)
  | o => one (w.viaMethod f strtod a (binName o) [a, b])

/-- `vm_call_method_now_1_top`, interpreter/VM.c:328-335, 456-487; `O_NOT` is defined for all values. -/
def unary (f : Nat) (strtod : List Byte → BitVec 64) (w : World) (o : UnOp) (a : Val) : PRes World Val :=
  match o with
  | .len => one (w.viaMethod f strtod a "__len" [a])
  | .neg => one (w.viaMethod f strtod a "__neg" [a])
  | .pos => one (w.viaMethod f strtod a "__pos" [a])
  | .bnot => one (w.viaMethod f strtod a "__bnot" [a])
  | .not => (w, .error .other)

/-- `O_NEWLIST`, interpreter/VM.c:1506-1519. -/
def newList (w : World) (vs : List Val) : PRes World Val :=
  w.out (YList.new.appendAll vs) fun l => (w.add (.list l), .ok (.ref .list w.heap.length))

/-- The loop of `O_NEWTABLE`, interpreter/VM.c:1488-1499: pairs from the top of the stack. -/
def insertPairs (f : Nat) : List (Val × Val) → Table → Except RtErr Table
  | [], t => .ok t
  | (k, v) :: r, t =>
    if v.tag = .undef then insertPairs f r t
    else match t.insert f k v with
      | none => .error .other
      | some (t, true) => insertPairs f r t
      | some (_, false) => .error .type

/-- `O_NEWTABLE`, interpreter/VM.c:1485-1505. -/
def newTable (f : Nat) (w : World) (es : List (Val × Val)) : PRes World Val :=
  match insertPairs f es.reverse Table.new with
  | .ok t => (w.add (.table t), .ok (.ref .table w.heap.length))
  | .error e => (w, .error e)

/-- The collection, if it is a table (VM.c:840). -/
def tableOf (w : World) (v : Val) : Option Table :=
  match v with
  | .ref .table a => match w.heap[a]? with
    | some (.table t) => some t
    | _ => none
  | _ => none

/-- `vm_GET`, interpreter/VM.c:783-863. -/
def get (f : Nat) (strtod : List Byte → BitVec 64) (w : World) (c k : Val) : PRes World Val :=
  match mtOf f c with
  | .error e => (w, .error e)
  | .ok mt => match vmGet f (some mt) (w.tableOf c) k with
    | none => (w, .error .other)
    | some (.value v) => (w, .ok v)
    | some (.callGet m) => one (w.callFound f strtod m [c, k])
    | some .valueError => (w, .error .value)

/-- `vm_SET`, interpreter/VM.c:865-873. -/
def set (f : Nat) (strtod : List Byte → BitVec 64) (w : World) (c k v : Val) : PRes World Unit :=
  (w.viaMethod f strtod c "__set" [c, k, v]).bind fun w _ => (w, .ok ())

/-- `vm_SLICE`, interpreter/VM.c:712-722 (parts of strings: C44; the string here is its own block). -/
def slice (w : World) (c a b : Val) : PRes World Val :=
  match c with
  | .str s => match strSlice (YStr.heap s) a b with
    | .ok p => one (w.strVal p fun t => (w, .ok [.str t]))
    | .typeError => (w, .error .type)
    | .valueError => (w, .error .value)
    | .ub => (w, .error .ub)
  | c => w.checkList c fun _ l => w.out (listSlice l a b) fun l => (w.add (.list l), .ok (.ref .list w.heap.length))

/-- The collection of a loop as `iter1` sees it, interpreter/VM.c:875-918. -/
def collOf (w : World) (v : Val) : Option Coll :=
  match v with
  | .ref .list a => match w.heap[a]? with
    | some (.list l) => match l.forItems with
      | .ok vs => some (.list vs)
      | _ => none
    | _ => none
  | .ref .table a => match w.heap[a]? with
    | some (.table t) => some (.table t)
    | _ => none
  | .str s => some (.str (YStr.heap s))
  | _ => some .other

/-- `O_ITER_1`, interpreter/VM.c:875-918. -/
def next (w : World) (c : Val) (i : Nat) : PRes World (Option (Val × Nat)) :=
  match w.collOf c with
  | none => (w, .error .ub)
  | some c => match iter1 c i with
    | .stop => (w, .ok none)
    | .next (.val v) j => (w, .ok (some (v, j)))
    | .next (.str s) j => (one (w.strVal s fun t => (w, .ok [.str t]))).bind fun w v => (w, .ok (some (v, j)))
    | .typeError => (w, .error .type)
    | .ub => (w, .error .ub)

/-- The sentinel `Y_END` marks the end of literals on the stack; no program gets it as a value, and the model stops if one did (model glue). -/
def noEnd (r : PRes World Val) : PRes World Val := r.bind fun w v => if v = .end_ then (w, .error .ub) else (w, .ok v)

/-- The operations. -/
def prims (f : Nat) (strtod : List Byte → BitVec 64) : Prims World where
  binary w o a b := noEnd (w.binary f strtod o a b)
  unary w o a := noEnd (w.unary f strtod o a)
  newList := newList
  newTable := newTable f
  get w c k := noEnd (w.get f strtod c k)
  slice w c a b := noEnd (w.slice c a b)
  set := set f strtod
  tostr := tostr f strtod
  next w c i := (w.next c i).bind fun w r => match r with
    | some (v, j) => if v = .end_ then (w, .error .ub) else (w, .ok (some (v, j)))
    | none => (w, .ok none)

/-- Calls of C functions, interpreter/VM.c:1251-1263 (`vm_CALL_cfn`). -/
def calls (f : Nat) (strtod : List Byte → BitVec 64) (w : World) (fn : Val) (args : List Val) : PRes World (List Val) :=
  (w.callFound f strtod fn args).bind fun w vs => if .end_ ∈ vs then (w, .error .ub) else (w, .ok vs)

end World
end Yasl
