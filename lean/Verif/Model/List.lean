import Verif.Model.Mem
import Verif.Model.Ops
/-!
# `data-structures/YASL_List.c` and `interpreter/list_methods.c` — lists

Reference counts are modelled in `Verif.Model.Refcount`; argument type checks (`YASLX_checknlist`, `YASLX_checknint`) precede
these functions and are not modelled.  `count` and `size` are natural numbers (allocation never fails, so they stay far
below 2^60 and the casts to `int64_t` and the size computations are exact).
-/
namespace Yasl

/-- `struct YASL_List`, data-structures/YASL_List.h:12-16. -/
structure YList where
  size : Nat
  count : Nat
  items : Block Val
deriving DecidableEq, Repr

/-- `LIST_BASESIZE`, data-structures/YASL_List.h:8. -/
def LIST_BASESIZE : Nat := 4

/-- `YASL_List_new_sized`, data-structures/YASL_List.c:10-16. -/
def YList.newSized (n : Nat) : YList := { size := n, count := 0, items := Block.malloc n }

/-- `rcls_new`, data-structures/YASL_List.c:29-31. -/
def YList.new : YList := YList.newSized LIST_BASESIZE

/-- `ls_resize`, data-structures/YASL_List.c:43-46. -/
def YList.resize (ls : YList) (n : Nat) : YList := { ls with items := ls.items.realloc n, size := n }

/-- `ls_resize_up`, data-structures/YASL_List.c:48-51. -/
def YList.resizeUp (ls : YList) : YList := ls.resize (if ls.size ≠ 0 then ls.size * 2 else 1)

/-- `YASL_List_append`, data-structures/YASL_List.c:53-57. -/
def YList.append (ls : YList) (v : Val) : Out YList :=
  let ls := if ls.count ≥ ls.size then ls.resizeUp else ls
  (ls.items.st ls.count v).bind fun m => .ok { ls with items := m, count := ls.count + 1 }

/-- `YASL_List_insert`, data-structures/YASL_List.c:59-65. -/
def YList.insertAt (ls : YList) (index : Nat) (v : Val) : Out YList :=
  let ls := if ls.count ≥ ls.size then ls.resizeUp else ls
  (ls.items.memmove (index + 1) index (ls.count - index)).bind fun m =>
  (m.st index v).bind fun m => .ok { ls with items := m, count := ls.count + 1 }

/-- One iteration of the loop of `YASL_reverse`, data-structures/YASL_List.c:68-72. -/
def revStep (n : Nat) (m : Block Val) (i : Nat) : Out (Block Val) :=
  (m.ld i).bind fun tmp =>
  (m.ld (n - i - 1)).bind fun x =>
  (m.st i x).bind fun m => m.st (n - i - 1) tmp

/-- The loop of `YASL_reverse` (iterations `i`, `i+1`, …, `count/2 - 1`), data-structures/YASL_List.c:67-73. -/
def revLoop (n : Nat) : Nat → Nat → Block Val → Out (Block Val)
  | 0, _, m => .ok m
  | k + 1, i, m => (revStep n m i).bind (revLoop n k (i + 1))

/-- `YASL_reverse` / `list_reverse`, data-structures/YASL_List.c:67-73, interpreter/list_methods.c:243-248. -/
def YList.reverse (ls : YList) : Out YList :=
  (revLoop ls.count (ls.count / 2) 0 ls.items).bind fun m => .ok { ls with items := m }

/-- `FOR_LIST` read of the live items `i, i+1, …` (`k` of them), data-structures/YASL_List.h:10. -/
def readItems (m : Block Val) : Nat → Nat → Out (List Val)
  | 0, _ => .ok []
  | k + 1, i => (m.ld i).bind fun v => (readItems m k (i + 1)).bind fun vs => .ok (v :: vs)

/-- All live items in `FOR_LIST` order. -/
def YList.forItems (ls : YList) : Out (List Val) := readItems ls.items ls.count 0

/-- `list___get` with `list___get_helper`, interpreter/list_methods.c:24-43. -/
def listGet (ls : YList) (index : BitVec 64) : Out Val :=
  if index.toInt < -(ls.count : Int) ∨ index.toInt ≥ ls.count then .valueError
  else if index.toInt ≥ 0 then ls.items.ld index.toInt.toNat
  else ls.items.ld (index.toInt + ls.count).toNat

/-- `list___set`, interpreter/list_methods.c:45-61. -/
def listSet (ls : YList) (index : BitVec 64) (v : Val) : Out YList :=
  if index.toInt < -(ls.count : Int) ∨ index.toInt ≥ ls.count then .valueError
  else
    let i := if index.toInt < 0 then index.toInt + ls.count else index.toInt
    (ls.items.ld i.toNat).bind fun _ =>
    (ls.items.st i.toNat v).bind fun m => .ok { ls with items := m }

/-- `list_push`, interpreter/list_methods.c:133-139. -/
def listPush (ls : YList) (v : Val) : Out YList := ls.append v

/-- `list_pop`, interpreter/list_methods.c:219-227. -/
def listPop (ls : YList) : Out (YList × Val) :=
  if ls.count = 0 then .valueError
  else (ls.items.ld (ls.count - 1)).bind fun v => .ok ({ ls with count := ls.count - 1 }, v)

/-- `list_insert`, interpreter/list_methods.c:447-470. -/
def listInsert (ls : YList) (index : BitVec 64) (v : Val) : Out YList :=
  if index.toInt = ls.count then ls.append v
  else if index.toInt ≥ ls.count ∨ index.toInt < -(ls.count : Int) then .valueError
  else
    let i := if index.toInt < 0 then index.toInt + ls.count else index.toInt
    ls.insertAt i.toNat v

/-- `list_clear`, interpreter/list_methods.c:250-258. -/
def listClear (ls : YList) : Out YList :=
  ls.forItems.bind fun _ =>
  .ok { count := 0, size := LIST_BASESIZE, items := ls.items.realloc LIST_BASESIZE }

/-- Append every value in order (the loops of `list_copy`, `list_concat`, `vm_SLICE_list`). -/
def YList.appendAll : YList → List Val → Out YList
  | ls, [] => .ok ls
  | ls, v :: vs => (ls.append v).bind fun ls => ls.appendAll vs

/-- `list_copy`, interpreter/list_methods.c:161-172. -/
def listCopy (ls : YList) : Out YList :=
  ls.forItems.bind fun vs => (YList.newSized ls.size).appendAll vs

/-- `list_concat` / `list___add`, interpreter/list_methods.c:174-194. -/
def listConcat (a b : YList) : Out YList :=
  a.forItems.bind fun va =>
  b.forItems.bind fun vb =>
  ((YList.newSized (a.count + b.count)).appendAll va).bind fun l => l.appendAll vb

/-- A slice bound: `undef` (omitted), an int, or anything else. -/
def sliceEnd (len : Int) : Val → Out Int
  | .undef => .ok len
  | .int e =>
    let e := if e.toInt < 0 then e.toInt + len else e.toInt
    .ok (if e > len then len else e)
  | _ => .typeError

/-- The computation of `start`, interpreter/VM.c:643-655. -/
def sliceStart (len : Int) : Val → Out Int
  | .undef => .ok 0
  | .int s =>
    let s := if s.toInt < 0 then s.toInt + len else s.toInt
    .ok (if s < 0 then 0 else s)
  | _ => .typeError

/-- `vm_SLICE_list`, interpreter/VM.c:623-668. -/
def listSlice (ls : YList) (start stop : Val) : Out YList :=
  (sliceEnd ls.count stop).bind fun e =>
  (sliceStart ls.count start).bind fun s =>
  (readItems ls.items (e - s).toNat s.toNat).bind fun vs => YList.new.appendAll vs

/-- The loop of `list_search`: the last equal index, interpreter/list_methods.c:229-241. -/
def lsSearchLoop (needle : Val) : List Val → Nat → Val → Val
  | [], _, index => index
  | v :: vs, i, index => lsSearchLoop needle vs (i + 1) (if isEqual v needle then .int (BitVec.ofNat 64 i) else index)

/-- `list_search`, interpreter/list_methods.c:229-241. -/
def listSearch (ls : YList) (needle : Val) : Out Val :=
  ls.forItems.bind fun vs => .ok (lsSearchLoop needle vs 0 .undef)

/-- `list_count`, interpreter/list_methods.c:334-345. -/
def listCount (ls : YList) (v : Val) : Out Val :=
  ls.forItems.bind fun vs =>
    .ok (.int (vs.foldl (fun c x => c + (if isEqual x v then 1#64 else 0#64)) 0#64))

/-- `list_spread`: the values pushed, in order, interpreter/list_methods.c:323-332. -/
def listSpread (ls : YList) : Out (List Val) := ls.forItems

/-- `list___eq`, interpreter/list_methods.c:196-217.  `eq` is the effect of `vm_EQ` on two values (which can call user-defined
`__eq` methods), reduced to the boolean popped. -/
def eqLoop (eq : Val → Val → Out Bool) : List Val → List Val → Out Bool
  | a :: as, b :: bs => (eq a b).bind fun r => if r then eqLoop eq as bs else .ok false
  | _, _ => .ok true

/-- `list___eq`, interpreter/list_methods.c:196-217. -/
def listEq (eq : Val → Val → Out Bool) (l r : YList) : Out Bool :=
  if l.count ≠ r.count then .ok false
  else l.forItems.bind fun a => r.forItems.bind fun b => eqLoop eq a b

/-! ## join -/

/-- The buffer of `list_join`: allocated `mem` (`buffer_size = mem.length`) and `count` bytes written. -/
structure JoinBuf where
  count : Nat
  size : Nat
  mem : Block Byte
deriving DecidableEq, Repr

/-- `while (buffer_count + len >= buffer_size) { buffer_size *= 2; buffer = realloc(…); }`,
interpreter/list_methods.c:288-291, 298-301, 310-313 (fuel bounds the loop). -/
def joinGrow (len : Nat) : Nat → JoinBuf → Option JoinBuf
  | 0, _ => none
  | f + 1, b =>
    if b.count + len ≥ b.size then joinGrow len f { b with size := b.size * 2, mem := b.mem.realloc (b.size * 2) }
    else some b

/-- Grow, `memcpy` and advance, interpreter/list_methods.c:288-294. -/
def joinAdd (f : Nat) (s : List Byte) (b : JoinBuf) : Option (Out JoinBuf) :=
  (joinGrow s.length f b).map fun b =>
    (b.mem.memcpy b.count s).bind fun m => .ok { b with mem := m, count := b.count + s.length }

/-- The loop over the remaining elements, interpreter/list_methods.c:297-317.  `str` is `vm_stringify_top`. -/
def joinLoop (f : Nat) (str : Val → List Byte) (sep : List Byte) : List Val → JoinBuf → Option (Out JoinBuf)
  | [], b => some (.ok b)
  | v :: vs, b =>
    match joinAdd f sep b with
    | some (.ok b) =>
      match joinAdd f (str v) b with
      | some (.ok b) => joinLoop f str sep vs b
      | r => r
    | r => r

/-- `list_join`, interpreter/list_methods.c:260-321.  The conversion of an element to a string (`vm_stringify_top`) is the
parameter `str`.  Result: the bytes `buffer[0 .. buffer_count)`. -/
def listJoin (f : Nat) (str : Val → List Byte) (vs : List Val) (sep : List Byte) : Option (Out (Block Byte)) :=
  match vs with
  | [] => some (.ok [])
  | v :: vs =>
    match joinAdd f (str v) { count := 0, size := 8, mem := Block.malloc 8 } with
    | some (.ok b) =>
      match joinLoop f str sep vs b with
      | some (.ok b) => some (.ok (b.mem.take b.count))
      | some .ub => some .ub
      | some .valueError => some .valueError
      | some .typeError => some .typeError
      | none => none
    | some .ub => some .ub
    | some .valueError => some .valueError
    | some .typeError => some .typeError
    | none => none

end Yasl
