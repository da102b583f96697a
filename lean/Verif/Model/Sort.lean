import Verif.Model.List
/-!
# `list.sort`: interpreter/list_methods.c:347-445

`rand()` is an arbitrary stream `r 0, r 1, …`; the position in the stream is threaded through.  The array is the list of
its (initialised) elements; an access outside it is `ub`.
-/
namespace Yasl

/-- `yasl_object_cmp`, interpreter/YASL_Object.c:57-79. -/
def objCmp : Val → Val → Int
  | .str a, .str b => strCmp a b
  | a, b =>
    if a.isNum && b.isNum then
      if flt a.getNum b.getNum then -1 else if flt b.getNum a.getNum then 1 else 0
    else 0

/-- `while (yasl_object_cmp(list[left], mid) < 0) left++;`, list_methods.c:383.  The first argument is the array from `left` on. -/
def scanL (mid : Val) : List Val → Nat → Out Nat
  | [], _ => .ub
  | x :: xs, left => if objCmp x mid < 0 then scanL mid xs (left + 1) else .ok left

/-- `while (yasl_object_cmp(list[right], mid) >= 0) { if (right == 0) break; right--; }`, list_methods.c:384-387. -/
def scanR (mid : Val) (l : List Val) : Nat → Out Nat
  | 0 => match l[0]? with
    | none => .ub
    | some _ => .ok 0
  | r + 1 => match l[r + 1]? with
    | none => .ub
    | some x => if objCmp x mid ≥ 0 then scanR mid l r else .ok (r + 1)

/-- The partition loop, list_methods.c:382-401. -/
def partLoop (mid : Val) : Nat → Nat → Nat → List Val → Run (List Val)
  | 0, _, _, _ => none
  | f + 1, left, right, l =>
    if left < right then
      Run.bind (some (scanL mid (l.drop left) left)) fun left =>
      Run.bind (some (scanR mid l right)) fun right =>
      match l[left]?, l[right]? with
      | some a, some b =>
        if objCmp a b > 0 ∧ left < right then
          let l := (l.set right a).set left b
          if right = 0 then some (.ok l) else partLoop mid f (left + 1) (right - 1) l
        else if objCmp a b = 0 then
          if right = 0 then some (.ok l) else partLoop mid f (left + 1) (right - 1) l
        else partLoop mid f left right l
      | _, _ => some .ub
    else some (.ok l)

/-- `sort`, list_methods.c:350-406.  `i` is the position in the `rand()` stream; the final position is returned.  The for-loop
counting `ltCount` and `seenDifferent` reads every element once. -/
def sortC (r : Nat → Nat) : Nat → Nat → List Val → Run (List Val × Nat)
  | 0, _, _ => none
  | f + 1, i, l =>
    match l with
    | [] => some (.ok ([], i))
    | [a] => some (.ok ([a], i))
    | [a, b] => some (.ok (if objCmp a b > 0 then [b, a] else [a, b], i))
    | a :: b :: c :: rest =>
      let l := a :: b :: c :: rest
      match l[r i % l.length]? with
      | none => some .ub
      | some mid =>
        let ltCount := l.countP fun x => decide (objCmp x mid < 0)
        let seenDifferent := l.any fun x => decide (objCmp a x ≠ 0)
        if seenDifferent = false then some (.ok (l, i + 1))
        else
          Run.bind (partLoop mid f 0 (l.length - 1) l) fun l =>
          Run.bind (sortC r f (i + 1) (l.take ltCount)) fun x =>
          Run.bind (sortC r f x.2 (l.drop ltCount)) fun y =>
          some (.ok (x.1 ++ y.1, y.2))

/-- `type` in `list_sort`: SORT_TYPE_EMPTY, SORT_TYPE_STR, SORT_TYPE_NUM, list_methods.c:347-349. -/
inductive SortType where
  | empty | str | num
deriving DecidableEq, Repr

/-- The type-checking loop of `list_sort`, list_methods.c:409-438. -/
def sortType : SortType → List Val → Out SortType
  | t, [] => .ok t
  | t, .str _ :: vs =>
    match t with
    | .num => .valueError
    | _ => sortType .str vs
  | t, .int _ :: vs | t, .float _ :: vs =>
    match t with
    | .str => .valueError
    | _ => sortType .num vs
  | _, _ :: _ => .valueError

/-- `list_sort`, list_methods.c:409-445, on the items of the list. -/
def listSort (r : Nat → Nat) (f i : Nat) (vs : List Val) : Run (List Val × Nat) :=
  Run.bind (some (sortType .empty vs)) fun t =>
    if t ≠ .empty then sortC r f i vs else some (.ok (vs, i))

end Yasl
