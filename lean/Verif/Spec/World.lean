import Verif.Spec.Lang
import Verif.Spec.Host
import Verif.Spec.Str
import Verif.Model.Num
set_option autoImplicit false
/-!
# What programs do with lists, tables and the methods of values

Lists are sequences, tables are finite maps from keys to values; there is no memory, no hashing, no growth.  This makes the operations of `Verif.Spec.Lang` (`Prims`, and
`Q` of `Verif.Spec.FLang`) concrete.  `RtErr.other`: not described here, nothing is claimed.

Not described: removing an entry which is not there and the eighth removal from a table (C04, C06), keys which are `undef`, NaN or −0.0, the order of the entries of a table (loops over tables, `keys`, `values`, the text
of a table that is not empty), `copy` and `clear` of tables, tables of more than 2^29 entries, parts of strings (`s[a:b]`, loops over strings: these depend on how the string was made, C44),
string methods on strings of 2 GB, `list.sort`, `str.tofloat`, and the calls which have undefined behaviour or do not end (C46, C47, C48, C49, C70).  Numbers and their texts are those of C52, C71, C74 and C75 (`intToStr`, `floatToStr`, `strToInt`, `floatToInt`).
-/
namespace Yasl

/-- The methods of values which are not given a metatable by the program; the name starts with the type. -/
inductive Meth where
  | undefTostr | undefTobool
  | floatToint | floatTobool | floatTofloat | floatTostr
  | intToint | intTobool | intTofloat | intTostr
  | boolTostr | boolTobool
  | strLen | strTofloat | strToint | strIsalnum | strIsal | strIsnum | strIsspace | strTobool | strTostr | strToupper | strTolower | strStartswith | strEndswith
  | strReplace | strSearch | strCount | strSplit | strLtrim | strRtrim | strTrim | strGet | strRep
  | listLen | listPush | listCopy | listAdd | listEq | listPop | listGet | listSet | listTostr | listSearch | listReverse | listClear | listJoin | listSort | listSpread
  | listCount | listInsert
  | tableLen | tableRemove | tableKeys | tableValues | tableCopy | tableTostr | tableGet | tableSet | tableBor | tableEq | tableClear
deriving DecidableEq, Repr

/-- The value which the method is. -/
def Meth.val (m : Meth) : Val := .ref .cfn m.ctorIdx

/-- The methods of a type, by their names. -/
def methodsOf : Val → List (String × Meth)
  | .undef => [("tostr", .undefTostr), ("tobool", .undefTobool)]
  | .float _ => [("toint", .floatToint), ("tobool", .floatTobool), ("tofloat", .floatTofloat), ("tostr", .floatTostr)]
  | .int _ => [("toint", .intToint), ("tobool", .intTobool), ("tofloat", .intTofloat), ("tostr", .intTostr)]
  | .bool _ => [("tostr", .boolTostr), ("tobool", .boolTobool)]
  | .str _ => [("__get", .strGet), ("__len", .strLen), ("count", .strCount), ("endswith", .strEndswith), ("isal", .strIsal), ("isalnum", .strIsalnum),
      ("isnum", .strIsnum), ("isspace", .strIsspace), ("ltrim", .strLtrim), ("rep", .strRep), ("replace", .strReplace), ("rtrim", .strRtrim), ("search", .strSearch),
      ("split", .strSplit), ("startswith", .strStartswith), ("tobool", .strTobool), ("tofloat", .strTofloat), ("toint", .strToint), ("tolower", .strTolower),
      ("tostr", .strTostr), ("toupper", .strToupper), ("trim", .strTrim)]
  | .ref .list _ => [("__add", .listAdd), ("__eq", .listEq), ("__get", .listGet), ("__len", .listLen), ("__set", .listSet), ("clear", .listClear), ("copy", .listCopy),
      ("count", .listCount), ("insert", .listInsert), ("join", .listJoin), ("pop", .listPop), ("push", .listPush), ("reverse", .listReverse),
      ("search", .listSearch), ("sort", .listSort), ("spread", .listSpread), ("tostr", .listTostr)]
  | .ref .table _ => [("__bor", .tableBor), ("__eq", .tableEq), ("__get", .tableGet), ("__len", .tableLen), ("__set", .tableSet), ("clear", .tableClear),
      ("copy", .tableCopy), ("keys", .tableKeys), ("remove", .tableRemove), ("tostr", .tableTostr), ("values", .tableValues)]
  | _ => []

/-- The method of a value with this name. -/
def methodOf (c k : Val) : Option Meth :=
  match k with
  | .str s => ((methodsOf c).find? fun p => printedName p.1 = s).map Prod.snd
  | _ => none
where
  /-- The bytes of a name. -/
  printedName (s : String) : List Byte := s.toList.map fun c => BitVec.ofNat 8 c.toNat

/-- Lists and tables; a table has one entry for each key, in no particular order, and it is known how many were removed from it. -/
inductive WObj where
  | list (xs : List Val)
  | table (kvs : List (Val × Val)) (removed : Nat)
deriving DecidableEq

/-- The value at a key. -/
def entryAt (kvs : List (Val × Val)) (k : Val) : Option Val := (kvs.find? fun p => p.1 = k).map Prod.snd

/-- Make `v` the value at the key `k`. -/
def putEntry (kvs : List (Val × Val)) (k v : Val) : List (Val × Val) := (k, v) :: kvs.filter fun p => p.1 ≠ k

/-- The entries at other keys. -/
def without (kvs : List (Val × Val)) (k : Val) : List (Val × Val) := kvs.filter fun p => p.1 ≠ k

/-- The entries of both; those of `ys` count. -/
def unionOf (xs ys : List (Val × Val)) : List (Val × Val) := ys ++ xs.filter fun p => (entryAt ys p.1).isNone

/-- The lists and tables made so far. -/
structure AWorld where
  heap : List WObj

namespace AWorld

/-- Nothing is said. -/
def unknown {α : Type} (w : AWorld) : PRes AWorld α := (w, .error .other)
/-- `TypeError`. -/
def typeErr {α : Type} (w : AWorld) : PRes AWorld α := (w, .error .type)
/-- `ValueError`. -/
def valueErr {α : Type} (w : AWorld) : PRes AWorld α := (w, .error .value)
/-- A value (which is not the sentinel: no program can have that). -/
def give (w : AWorld) (v : Val) : PRes AWorld Val := if v = .end_ then w.unknown else (w, .ok v)
/-- Change an object. -/
def put (w : AWorld) (a : Nat) (o : WObj) : AWorld := { w with heap := w.heap.set a o }
/-- A new object. -/
def add (w : AWorld) (o : WObj) : AWorld := { w with heap := w.heap ++ [o] }

/-- The key is one about which something is said. -/
def plainKey (k : Val) : Prop := GoodKey k ∨ k.hashable = false

instance (k : Val) : Decidable (plainKey k) := by unfold plainKey; infer_instance

/-- If the value is a list. -/
def onList {α : Type} (w : AWorld) (v : Val) (k : Nat → List Val → PRes AWorld α) : PRes AWorld α :=
  match v with
  | .ref .list a => match w.heap[a]? with
    | some (.list xs) => k a xs
    | _ => w.unknown
  | _ => w.typeErr

/-- If the value is a table. -/
def onTable {α : Type} (w : AWorld) (v : Val) (k : Nat → List (Val × Val) → Nat → PRes AWorld α) : PRes AWorld α :=
  match v with
  | .ref .table a => match w.heap[a]? with
    | some (.table kvs d) => k a kvs d
    | _ => w.unknown
  | _ => w.typeErr

/-- If the value is an int. -/
def onInt {α : Type} (w : AWorld) (v : Val) (k : BitVec 64 → PRes AWorld α) : PRes AWorld α :=
  match v with
  | .int i => k i
  | _ => w.typeErr

/-- If the value is a string. -/
def onStr {α : Type} (w : AWorld) (v : Val) (k : List Byte → PRes AWorld α) : PRes AWorld α :=
  match v with
  | .str s => k s
  | _ => w.typeErr

/-- The element of a sequence at an index, which counts from the end if it is negative. -/
def index {α : Type} (w : AWorld) (xs : List α) (i : BitVec 64) (k : α → PRes AWorld Val) : PRes AWorld Val :=
  match Spec.pos xs.length i.toInt with
  | some p => match xs[p]? with
    | some x => k x
    | none => w.unknown
  | none => w.valueErr

/-- `c[k]`: a method of the type, or the element, byte or entry. -/
def get (w : AWorld) (c k : Val) : PRes AWorld Val :=
  if plainKey k then
    match methodOf c k with
    | some m => (w, .ok m.val)
    | none => match c with
      | .ref .list _ => w.onList c fun _ xs => w.onInt k fun i => w.index xs i w.give
      | .ref .table _ => w.onTable c fun _ kvs _ => w.give ((entryAt kvs k).getD .undef)
      | .str s => w.onInt k fun i => w.index s i fun b => w.give (.str [b])
      | .undef | .bool _ | .int _ | .float _ => w.valueErr
      | _ => w.unknown
  else w.unknown

/-- The entry at a key goes away from the table at `a`: it has to be there.  Nothing is done if no entry can have the key. -/
def remove {α : Type} (w : AWorld) (a : Nat) (kvs : List (Val × Val)) (d : Nat) (k : Val) (r : α) : PRes AWorld α :=
  if k.hashable = false then (w, .ok r)
  else if GoodKey k ∧ (entryAt kvs k).isSome ∧ d < 7 then (w.put a (.table (without kvs k) (d + 1)), .ok r)
  else w.unknown

/-- `c[k] = v`; the entry goes away if `v` is `undef` -/
def set (w : AWorld) (c k v : Val) : PRes AWorld Unit :=
  match c with
  | .ref .list _ => w.onList c fun a xs => w.onInt k fun i => match Spec.pos xs.length i.toInt with
    | some p => (w.put a (.list (xs.set p v)), .ok ())
    | none => w.valueErr
  | .ref .table _ => w.onTable c fun a kvs d =>
    if v = .undef then w.remove a kvs d k ()
    else if v = .end_ then w.unknown
    else if k.hashable = false then w.typeErr
    else if GoodKey k ∧ kvs.length < 2 ^ 29 then (w.put a (.table (putEntry kvs k v) d), .ok ())
    else w.unknown
  | .undef | .bool _ | .int _ | .float _ | .str _ => w.typeErr
  | _ => w.unknown

/-- `[x, y, …]` -/
def newList (w : AWorld) (vs : List Val) : PRes AWorld Val := (w.add (.list vs), .ok (.ref .list w.heap.length))

/-- The entries of a table literal, from the last to the first; those with the value `undef` are left out. -/
def putAll : List (Val × Val) → List (Val × Val) → Except RtErr (List (Val × Val))
  | [], kvs => .ok kvs
  | (k, v) :: r, kvs =>
    if v = .undef then putAll r kvs
    else if v = .end_ then .error .other
    else if k.hashable = false then .error .type
    else if GoodKey k then putAll r (putEntry kvs k v)
    else .error .other

/-- `{ k : v, … }`: if a key is there twice, the first entry counts. -/
def newTable (w : AWorld) (es : List (Val × Val)) : PRes AWorld Val :=
  if es.length ≤ 2 ^ 29 then
    match putAll es.reverse [] with
    | .ok kvs => (w.add (.table kvs 0), .ok (.ref .table w.heap.length))
    | .error e => (w, .error e)
  else w.unknown

/-- A bound of a slice: `undef` if it is left out. -/
def bound : Val → Option (Option Int)
  | .undef => some none
  | .int i => some (some i.toInt)
  | _ => none

/-- `c[a:b]` -/
def slice (w : AWorld) (c a b : Val) : PRes AWorld Val :=
  match c with
  | .str _ => w.unknown
  | _ => w.onList c fun _ xs => match bound a, bound b with
    | some a, some b => w.newList (Spec.slice xs a b)
    | _, _ => w.typeErr

/-- The text of a value; a list inside of itself is `[...]`.  At most `n` lists inside of each other. -/
def text (heap : List WObj) : Nat → List Nat → Val → Option (List Byte)
  | _, _, .undef => some (methodOf.printedName "undef")
  | _, _, .bool b => some (methodOf.printedName (if b then "true" else "false"))
  | _, _, .int i => some (intToStr i)
  | _, _, .float x => match floatToStr x with
    | .ok t => some t
    | _ => none
  | _, _, .str s => some s
  | 0, _, _ => none
  | n + 1, anc, .ref .list a =>
    if a ∈ anc then some (methodOf.printedName "[...]")
    else match heap[a]? with
      | some (.list xs) =>
        (xs.mapM fun x => text heap n (anc ++ [a]) x).map fun ts => methodOf.printedName "[" ++ (List.intercalate (methodOf.printedName ", ") ts) ++ methodOf.printedName "]"
      | _ => none
  | _ + 1, anc, .ref .table a =>
    if a ∈ anc then none
    else match heap[a]? with
      | some (.table [] _) => some (methodOf.printedName "{}")
      | _ => none
  | _, _, _ => none

/-- The text of a value, for `echo` and `~`. -/
def tostr (w : AWorld) (v : Val) : PRes AWorld (List Byte) :=
  match text w.heap 500 [] v with
  | some t => (w, .ok t)
  | none => w.unknown

/-- Are two values equal?  Lists are equal if they have equal elements, tables if they have the same keys with equal values; at most `n` lists and tables inside of each
other. -/
def same (heap : List WObj) : Nat → Val → Val → Option Bool
  | _, .ref .userdata _, .ref .userdata _ => none
  | 0, .ref .list _, .ref .list _ | 0, .ref .table _, .ref .table _ => none
  | n + 1, .ref .list a, .ref .list b => match heap[a]?, heap[b]? with
    | some (.list xs), some (.list ys) => if xs.length = ys.length then all2 (same heap n) xs ys else some false
    | _, _ => none
  | n + 1, .ref .table a, .ref .table b => match heap[a]?, heap[b]? with
    | some (.table xs _), some (.table ys _) =>
      if xs.length = ys.length then (xs.mapM (entry (same heap n) ys)).map fun rs => rs.all id else some false
    | _, _ => none
  | _, a, b => some (isEqual a b)
where
  /-- Are they equal one by one? -/
  all2 (eq : Val → Val → Option Bool) : List Val → List Val → Option Bool
    | x :: xs, y :: ys => match eq x y with
      | some true => all2 eq xs ys
      | r => r
    | _, _ => some true
  /-- Is the entry in the other table? -/
  entry (eq : Val → Val → Option Bool) (ys : List (Val × Val)) (e : Val × Val) : Option Bool :=
    match entryAt ys e.1 with
    | some v => eq e.2 v
    | none => some false

/-- An operator on values which are not numbers or strings both. -/
def binary (w : AWorld) (o : BinOp) (a b : Val) : PRes AWorld Val :=
  match o with
  | .cnct => (w.tostr b).bind fun w y => (w.tostr a).bind fun w x => (w, .ok (.str (x ++ y)))
  | .eq => match a, b with
    | .ref .list _, .ref .list _ | .ref .table _, .ref .table _ => match same w.heap 300 a b with
      | some r => (w, .ok (.bool r))
      | none => w.unknown
    | _, _ => w.unknown
  | .add => match a with
    | .ref .list _ => w.onList a fun _ xs => w.onList b fun _ ys => w.newList (xs ++ ys)
    | .ref .table _ | .undef | .bool _ | .int _ | .float _ | .str _ => w.typeErr
    | _ => w.unknown
  | .bor => match a with
    | .ref .table _ => match b with
      | .ref .table _ => w.onTable b fun _ ys _ => w.onTable a fun _ xs _ =>
        if xs.length + ys.length ≤ 2 ^ 29 then (w.add (.table (unionOf xs ys) 0), .ok (.ref .table w.heap.length)) else w.unknown
      | _ => w.onTable a fun _ _ _ => w.typeErr
    | .ref .list _ | .undef | .bool _ | .int _ | .float _ | .str _ => w.typeErr
    | _ => w.unknown
  | .id => w.unknown
  | _ => match a with
    | .ref .list _ | .ref .table _ | .undef | .bool _ | .int _ | .float _ | .str _ => w.typeErr
    | _ => w.unknown

/-- `len x`, `-x`, `+x`, `^x` of values which are not numbers. -/
def unary (w : AWorld) (o : UnOp) (a : Val) : PRes AWorld Val :=
  match o, a with
  | .len, .ref .list _ => w.onList a fun _ xs => (w, .ok (.int (BitVec.ofNat 64 xs.length)))
  | .len, .ref .table _ => w.onTable a fun _ kvs _ => (w, .ok (.int (BitVec.ofNat 64 kvs.length)))
  | .not, _ => w.unknown
  | .len, .str s => (w, .ok (.int (BitVec.ofNat 64 s.length)))
  | _, .ref .list _ | _, .ref .table _ | _, .undef | _, .bool _ | _, .int _ | _, .float _ | _, .str _ => w.typeErr
  | _, _ => w.unknown

/-- A loop over a list: the elements one after the other (the list may change in between). -/
def next (w : AWorld) (c : Val) (i : Nat) : PRes AWorld (Option (Val × Nat)) :=
  match c with
  | .ref .list _ => w.onList c fun _ xs => match xs[i]? with
    | some v => if v = .end_ then w.unknown else (w, .ok (some (v, i + 1)))
    | none => (w, .ok none)
  | .undef | .bool _ | .int _ | .float _ => w.typeErr
  | _ => w.unknown

/-- Where a byte string occurs first in another. -/
def firstAt (needle hay : List Byte) : Option Nat := (List.range (hay.length + 1)).find? fun i => decide (needle <+: hay.drop i)

/-- The white space at the left is taken away. -/
def trimLeft (s : List Byte) : List Byte := s.dropWhile fun c => decide (c ∈ [0x20#8, 0x09#8, 0x0A#8, 0x0B#8, 0x0D#8])

/-- The pieces of `s` between the occurrences of `a`, from left to right (at most `n` of them). -/
def pieces (a : List Byte) : Nat → List Byte → List (List Byte)
  | 0, s => [s]
  | n + 1, s => match firstAt a s with
    | some i => s.take i :: pieces a n (s.drop (i + a.length))
    | none => [s]

/-- The parts without white space (at most `n` of them). -/
def words : Nat → List Byte → List (List Byte)
  | 0, _ => []
  | n + 1, s => match trimLeft s with
    | [] => []
    | c :: r => (c :: r).takeWhile inWord :: words n ((c :: r).dropWhile inWord)
where
  /-- Not white space. -/
  inWord (c : Byte) : Bool := decide (c ∉ [0x20#8, 0x09#8, 0x0A#8, 0x0B#8, 0x0D#8])

/-- `t` is taken away from the left as often as it is there (at most `n` times). -/
def stripLeft (t : List Byte) : Nat → List Byte → List Byte
  | 0, s => s
  | n + 1, s => if t <+: s then stripLeft t n (s.drop t.length) else s

/-- `t` is taken away from the right. -/
def stripRight (t : List Byte) (n : Nat) (s : List Byte) : List Byte := (stripLeft t.reverse n s.reverse).reverse

/-- If the two strings are not too long and the second is not empty. -/
def small (w : AWorld) (s t : List Byte) (r : PRes AWorld (List Val)) : PRes AWorld (List Val) := if s.length < 2 ^ 31 ∧ t ≠ [] then r else w.unknown

/-- The texts of values. -/
def texts (w : AWorld) (xs : List Val) : Option (List (List Byte)) := xs.mapM fun x => text w.heap 500 [] x

/-- The last position of a value in a list, as a value: `undef` if it is not there. -/
def lastAt (xs : List Val) (v : Val) : Val := match (List.range xs.length).reverse.find? fun i => (xs[i]?).any fun x => isEqual x v with
  | some i => .int (BitVec.ofNat 64 i)
  | none => .undef

/-- A method called with arguments (`a 0` is the value before the dot; an argument that is missing is `undef`). -/
def call (w : AWorld) (m : Meth) (a : Nat → Val) : PRes AWorld (List Val) :=
  match m with
  | .undefTostr | .intTostr | .floatTostr | .boolTostr | .strTostr => if hasType m (a 0) then (w.tostr (a 0)).bind fun w t => (w, .ok [.str t]) else w.typeErr
  | .undefTobool => if hasType m (a 0) then (w, .ok [.bool false]) else w.typeErr
  | .boolTobool => if hasType m (a 0) then (w, .ok [a 0]) else w.typeErr
  | .intTobool => w.onInt (a 0) fun _ => (w, .ok [.bool true])
  | .intToint => w.onInt (a 0) fun i => (w, .ok [.int i])
  | .intTofloat => w.onInt (a 0) fun i => (w, .ok [.float (intToFloat i)])
  | .floatTobool => match a 0 with
    | .float x => (w, .ok [.bool (!fnan x)])
    | _ => w.typeErr
  | .floatTofloat => match a 0 with
    | .float x => (w, .ok [.float x])
    | _ => w.typeErr
  | .floatToint => match a 0 with
    | .float x => match floatToInt x with
      | some i => (w, .ok [.int i])
      | none => w.unknown
    | _ => w.typeErr
  | .strToint => w.onStr (a 0) fun s => match strToInt s with
    | .ok i => (w, .ok [.int i])
    | _ => w.unknown
  | .strLen => w.onStr (a 0) fun s => (w, .ok [.int (BitVec.ofNat 64 s.length)])
  | .strTobool => w.onStr (a 0) fun s => (w, .ok [.bool (s ≠ [])])
  | .strToupper => w.onStr (a 0) fun s => (w, .ok [.str (s.map asciiUpper)])
  | .strTolower => w.onStr (a 0) fun s => (w, .ok [.str (s.map asciiLower)])
  | .strStartswith => w.onStr (a 0) fun s => w.onStr (a 1) fun t => (w, .ok [.bool (t <+: s)])
  | .strEndswith => w.onStr (a 0) fun s => w.onStr (a 1) fun t => (w, .ok [.bool (t <:+ s)])
  | .strIsspace => w.onStr (a 0) fun s => (w, .ok [.bool (∀ c ∈ s, c ∈ [0x20#8, 0x09#8, 0x0A#8, 0x0B#8, 0x0D#8])])
  | .strSearch => w.onStr (a 1) fun t => w.onStr (a 0) fun s => (w, .ok [match firstAt t s with
    | some i => .int (BitVec.ofNat 64 i)
    | none => .undef])
  | .strRep => w.onInt (a 1) fun n => w.onStr (a 0) fun s =>
    if n.toInt < 0 then w.valueErr
    else if n.toNat < 2 ^ 31 ∧ s.length < 2 ^ 31 then (w, .ok [.str (repeatBytes n.toNat s)])
    else w.unknown
  | .strLtrim => match a 1 with
    | .undef => w.onStr (a 0) fun s => if s.length < 2 ^ 31 then (w, .ok [.str (trimLeft s)]) else w.unknown
    | _ => w.onStr (a 1) fun t => w.onStr (a 0) fun s => w.small s t (w, .ok [.str (stripLeft t s.length s)])
  | .strRtrim => match a 1 with
    | .undef => w.onStr (a 0) fun s => (w, .ok [.str (trimLeft s.reverse).reverse])
    | _ => w.onStr (a 1) fun t => w.onStr (a 0) fun s => w.small s t (w, .ok [.str (stripRight t s.length s)])
  | .strTrim => match a 1 with
    | .undef => w.onStr (a 0) fun s =>
      if s.length < 2 ^ 31 ∧ (s = [] ∨ ∃ c ∈ s, c ∉ [0x20#8, 0x09#8, 0x0A#8, 0x0B#8, 0x0D#8]) then (w, .ok [.str (trimLeft (trimLeft s).reverse).reverse]) else w.unknown
    | _ => w.onStr (a 1) fun t => w.onStr (a 0) fun s =>
      if s.length ≤ (stripLeft t s.length s).length + (stripRight t s.length s).length then
        w.small s t (w, .ok [.str ((stripLeft t s.length s).take ((stripLeft t s.length s).length + (stripRight t s.length s).length - s.length))])
      else w.unknown
  | .strIsal => w.onStr (a 0) fun s => if ∀ c ∈ s, c.toNat < 128 then (w, .ok [.bool (∀ c ∈ s, IsLetter c)]) else w.unknown
  | .strIsnum => w.onStr (a 0) fun s => if ∀ c ∈ s, c.toNat < 128 then (w, .ok [.bool (∀ c ∈ s, IsDigit c)]) else w.unknown
  | .strIsalnum => w.onStr (a 0) fun s => if ∀ c ∈ s, c.toNat < 128 then (w, .ok [.bool (∀ c ∈ s, IsLetter c ∨ IsDigit c)]) else w.unknown
  | .strCount => w.onStr (a 1) fun t => w.onStr (a 0) fun s => w.small s t (w, .ok [.int (BitVec.ofNat 64 ((pieces t s.length s).length - 1))])
  | .strReplace => match a 3 with
    | .undef => w.onStr (a 2) fun r => w.onStr (a 1) fun t => w.onStr (a 0) fun s =>
      if t = [] then w.valueErr else w.small s t (w, .ok [.str (List.intercalate r (pieces t s.length s))])
    | _ => w.onInt (a 3) fun n => w.onStr (a 2) fun r => w.onStr (a 1) fun t => w.onStr (a 0) fun s =>
      if t = [] then w.valueErr
      else if s.length ≤ n.toInt then w.small s t (w, .ok [.str (List.intercalate r (pieces t s.length s))])
      else if n.toInt ≤ 0 ∧ -2 ^ 62 ≤ n.toInt then w.small s t (w, .ok [.str s])
      else w.unknown
  | .strSplit => match a 1 with
    | .undef => w.onStr (a 0) fun s =>
      if s.length < 2 ^ 31 then (w.newList ((words (s.length + 1) s).map Val.str)).bind fun w v => (w, .ok [v]) else w.unknown
    | _ => w.onStr (a 1) fun t => w.onStr (a 0) fun s =>
      if t = [] then w.valueErr
      else if t.length = 1 ∧ s.length < 2 ^ 31 then (w.newList ((pieces t s.length s).map Val.str)).bind fun w v => (w, .ok [v])
      else w.unknown
  | .listJoin => w.onStr (a 1) fun t => w.onList (a 0) fun _ xs => match w.texts xs with
    | some ts => if (List.intercalate t ts).length < 2 ^ 31 then (w, .ok [.str (List.intercalate t ts)]) else w.unknown
    | none => w.unknown
  | .listLen => w.onList (a 0) fun _ xs => (w, .ok [.int (BitVec.ofNat 64 xs.length)])
  | .tableLen => w.onTable (a 0) fun _ kvs _ => (w, .ok [.int (BitVec.ofNat 64 kvs.length)])
  | .tableRemove => w.onTable (a 0) fun p kvs d => w.remove p kvs d (a 1) [a 0]
  | .listPush => w.onList (a 0) fun p xs => (w.put p (.list (xs ++ [a 1])), .ok [a 0])
  | .listPop => w.onList (a 0) fun p xs => match xs.reverse with
    | [] => w.valueErr
    | x :: r => if x = .end_ then w.unknown else (w.put p (.list r.reverse), .ok [x])
  | .listInsert => w.onInt (a 1) fun i => w.onList (a 0) fun p xs => match (Spec.LOp.insert i (a 2)).step xs with
    | some ys => (w.put p (.list ys), .ok [a 0])
    | none => w.valueErr
  | .listReverse => w.onList (a 0) fun p xs => (w.put p (.list xs.reverse), .ok [])
  | .listClear => w.onList (a 0) fun p _ => (w.put p (.list []), .ok [])
  | .listCopy => w.onList (a 0) fun _ xs => (w.newList xs).bind fun w v => (w, .ok [v])
  | .listCount => w.onList (a 0) fun _ xs => (w, .ok [.int (BitVec.ofNat 64 (xs.countP fun x => isEqual x (a 1)))])
  | .listSearch => w.onList (a 0) fun _ xs => (w, .ok [lastAt xs (a 1)])
  | .listSpread => w.onList (a 0) fun _ xs => if xs.any fun x => x = .end_ then w.unknown else (w, .ok xs)
  | .listTostr => w.onList (a 0) fun _ _ => (w.tostr (a 0)).bind fun w t => (w, .ok [.str t])
  | _ => w.unknown
where
  /-- Is it a value of the type which the method is for? -/
  hasType (m : Meth) (v : Val) : Bool := (methodsOf v).any fun p => p.2 = m

/-- The operations of the language. -/
def prims : Prims AWorld where
  binary := binary
  unary := unary
  newList := newList
  newTable := newTable
  get := get
  slice := slice
  set := set
  tostr := tostr
  next := next

/-- Calls of the functions which are methods. -/
def calls (w : AWorld) (f : Val) (args : List Val) : PRes AWorld (List Val) :=
  match allMeths.find? fun m => m.val = f with
  | some m => w.call m fun i => args.getD i .undef
  | none => w.unknown
where
  /-- All methods. -/
  allMeths : List Meth := ([.undef, .float 0, .int 0, .bool false, .str [], .ref .list 0, .ref .table 0] : List Val).flatMap fun v => (methodsOf v).map Prod.snd

end AWorld
end Yasl
