import Verif.Model.Table
/-!
# `data-structures/YASL_Set.c` and `collections.set` (std/yasl-std-collections.c)

Open addressing like `YASL_Table`, but elements are compared with `isequal` (not `isequal_typed`).
-/
namespace Yasl

/-- `struct YASL_Set`, data-structures/YASL_Set.h:9-14; `undef` marks an unused slot, `end_` a tombstone. -/
structure YSet where
  size : Nat
  base : Nat
  count : Nat
  items : List Val
deriving DecidableEq, Repr

/-- `SET_BASESIZE`, data-structures/YASL_Set.c:6. -/
def SET_BASESIZE : Nat := 30

/-- `set_new_sized`, data-structures/YASL_Set.c:8-15. -/
def YSet.newSized (f base : Nat) : Option YSet :=
  (nextPrimeC Nat.sqrt f base).map fun n => { size := n, base, count := 0, items := List.replicate n .undef }

/-- The condition of `FOR_SET`, data-structures/YASL_Set.h:6-7. -/
def elemLive (v : Val) : Bool := v.tag != .end_ && v.tag != .undef

/-- The elements visited by `FOR_SET`, in order, data-structures/YASL_Set.h:6-7. -/
def YSet.elems (s : YSet) : List Val := s.items.filter elemLive

/-- `set->count * 100 / set->size`, data-structures/YASL_Set.c:67 and 110. -/
def YSet.load (s : YSet) : Nat := (s.count * 100 % 2 ^ 64) / s.size

/-- The `while` loop of `YASL_Set_insert`, data-structures/YASL_Set.c:73-84: the slot, and whether an equal element was
found there. -/
def setInsertLoop (size : Nat) (items : List Val) (v : Val) : Nat → Nat → Nat → Option (Nat × Bool)
  | 0, _, _ => none
  | f + 1, index, i =>
    match items[index]? with
    | none => none
    | some it =>
      if it.tag = .undef then some (index, false)
      else if it.tag ≠ .end_ ∧ isEqual it v = true then some (index, true)
      else setInsertLoop size items v f (getHash v size i) (i + 1)

/-- `YASL_Set_insert` after the resize, data-structures/YASL_Set.c:69-87. -/
def YSet.insertHere (f : Nat) (s : YSet) (v : Val) : Option YSet :=
  (setInsertLoop s.size s.items v f (getHash v s.size 0) 1).map fun (index, found) =>
    { s with items := s.items.set index v, count := if found then s.count else (s.count + 1) % 2 ^ 64 }

/-- `set_resize`, data-structures/YASL_Set.c:31-49. -/
def YSet.resizeWith (ins : YSet → Val → Option YSet) (f : Nat) (s : YSet) (base : Nat) : Option YSet :=
  if base < SET_BASESIZE then some s
  else (YSet.newSized f base).bind fun ns => s.elems.foldlM ins ns

/-- `YASL_Set_insert`, data-structures/YASL_Set.c:61-88 (with `set_resize_up`, 51-54), without the returned flag. -/
def YSet.insert : Nat → YSet → Val → Option YSet
  | 0, _, _ => none
  | f + 1, s, v =>
    if v.hashable then
      (if s.load > 70 then YSet.resizeWith (YSet.insert f) f s (s.base * 2) else some s).bind fun s => s.insertHere f v
    else some s

/-- The `while` loop of `YASL_Set_search`, data-structures/YASL_Set.c:94-100. -/
def setSearchLoop (s : YSet) (v : Val) : Nat → Nat → Nat → Option Bool
  | 0, _, _ => none
  | f + 1, index, i =>
    match s.items[index]? with
    | none => none
    | some it =>
      if it.tag = .undef then some false
      else if isEqual it v then some true
      else setSearchLoop s v f (getHash v s.size i) (i + 1)

/-- `YASL_Set_search`, data-structures/YASL_Set.c:90-102; also `collections.set.__get`, std/yasl-std-collections.c:304-310. -/
def YSet.search (f : Nat) (s : YSet) (v : Val) : Option Bool := setSearchLoop s v f (getHash v s.size 0) 1

/-- The `while` loop of `YASL_Set_rm`, data-structures/YASL_Set.c:114-123. -/
def setRmLoop (v : Val) (size : Nat) : Nat → List Val → Nat → Nat → Option (List Val)
  | 0, _, _, _ => none
  | f + 1, items, index, i =>
    match items[index]? with
    | none => none
    | some it =>
      if it.tag = .undef then some items
      else
        let items := if it.tag ≠ .end_ ∧ isEqual it v = true then items.set index .end_ else items
        setRmLoop v size f items (getHash v size i) (i + 1)

/-- `YASL_Set_rm`, data-structures/YASL_Set.c:104-125 (with `set_resize_down`, 56-59). -/
def YSet.rm (f : Nat) (s : YSet) (v : Val) : Option YSet :=
  if v.hashable then
    (if s.load < 10 then YSet.resizeWith (YSet.insert f) f s (s.base / 2) else some s).bind fun s =>
    (setRmLoop v s.size f s.items (getHash v s.size 0) 1).bind fun items =>
    some { s with items, count := (s.count + (2 ^ 64 - 1)) % 2 ^ 64 }
  else some s

/-- `YASL_Set_new`, data-structures/YASL_Set.c:17-19. -/
def YSet.new : YSet := { size := 31, base := SET_BASESIZE, count := 0, items := List.replicate 31 .undef }

/-- `YASL_Set_length`, data-structures/YASL_Set.c:179-181. -/
def YSet.length (s : YSet) : Nat := s.count

/-- `YASL_Set_union`, data-structures/YASL_Set.c:127-136. -/
def YSet.union (f : Nat) (l r : YSet) : Option YSet :=
  (l.elems.foldlM (YSet.insert f) YSet.new).bind fun t => r.elems.foldlM (YSet.insert f) t

/-- A `FOR_SET(left) { if (search(right, item) == keep) insert }` loop as in
data-structures/YASL_Set.c:140-145, 151-156, 157-162, 169-174. -/
def filterInto (f : Nat) (keep : Bool) (right : YSet) (t : YSet) : List Val → Option YSet
  | [] => some t
  | x :: xs =>
    (right.search f x).bind fun c =>
    (if c = keep then t.insert f x else some t).bind fun t => filterInto f keep right t xs

/-- `YASL_Set_intersection`, data-structures/YASL_Set.c:138-147. -/
def YSet.inter (f : Nat) (l r : YSet) : Option YSet := filterInto f true r YSet.new l.elems
/-- `YASL_Set_symmetric_difference`, data-structures/YASL_Set.c:149-165. -/
def YSet.symDiff (f : Nat) (l r : YSet) : Option YSet :=
  (filterInto f false r YSet.new l.elems).bind fun t => filterInto f false l t r.elems
/-- `YASL_Set_difference`, data-structures/YASL_Set.c:167-176. -/
def YSet.diff (f : Nat) (l r : YSet) : Option YSet := filterInto f false r YSet.new l.elems
/-- `YASL_collections_set_copy`, std/yasl-std-collections.c:281-293. -/
def YSet.copy (f : Nat) (s : YSet) : Option YSet := s.elems.foldlM (YSet.insert f) YSet.new

/-- The loop `FOR_SET(items) { if (!search(other, item)) return false }` of the comparison methods,
std/yasl-std-collections.c:178-183. -/
def allIn (f : Nat) (other : YSet) : List Val → Option Bool
  | [] => some true
  | x :: xs => (other.search f x).bind fun c => if c then allIn f other xs else some false

/-- `collections.set.__eq`, std/yasl-std-collections.c:171-189. -/
def YSet.eq (f : Nat) (l r : YSet) : Option Bool :=
  if l.length ≠ r.length then some false else allIn f r l.elems
/-- `collections.set.__gt`, std/yasl-std-collections.c:191-204. -/
def YSet.gt (f : Nat) (l r : YSet) : Option Bool :=
  (allIn f l r.elems).map fun b => b && decide (l.length > r.length)
/-- `collections.set.__ge`, std/yasl-std-collections.c:206-219. -/
def YSet.ge (f : Nat) (l r : YSet) : Option Bool :=
  (allIn f l r.elems).map fun b => b && decide (l.length ≥ r.length)
/-- `collections.set.__lt`, std/yasl-std-collections.c:221-234. -/
def YSet.lt (f : Nat) (l r : YSet) : Option Bool :=
  (allIn f r l.elems).map fun b => b && decide (l.length < r.length)
/-- `collections.set.__le`, std/yasl-std-collections.c:236-249. -/
def YSet.le (f : Nat) (l r : YSet) : Option Bool :=
  (allIn f r l.elems).map fun b => b && decide (l.length ≤ r.length)

/-- `collections.set.clear`, std/yasl-std-collections.c:295-302: removes each element while iterating
over the slots `i`; `rm` may resize the set (and move elements) during the iteration. -/
def YSet.clearLoop (f : Nat) : Nat → YSet → Nat → Option YSet
  | 0, _, _ => none
  | g + 1, s, i =>
    if i < s.size then
      match s.items[i]? with
      | none => none
      | some it => (if elemLive it then s.rm f it else some s).bind fun s => YSet.clearLoop f g s (i + 1)
    else some s

/-- Operations of a set's history: `s.add(x)`, `s.remove(x)`. -/
inductive SOp where
  | add (x : Val)
  | rm (x : Val)
deriving DecidableEq

/-- One operation (model glue for `collections.set.add`/`.remove`). -/
def YSet.step (f : Nat) (s : YSet) : SOp → Option YSet
  | .add x => s.insert f x
  | .rm x => s.rm f x

/-- A history (model glue). -/
def YSet.run (f : Nat) (s : YSet) (ops : List SOp) : Option YSet := ops.foldlM (YSet.step f) s

end Yasl
