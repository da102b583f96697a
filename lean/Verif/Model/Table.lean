import Verif.Model.Hash
import Verif.Model.Prime
/-!
# `data-structures/YASL_Table.c` — hash tables, and `interpreter/table_methods.c`

Open addressing with double hashing and tombstones.  Loops carry fuel: `none` means the fuel ran out (if it is `none`
for every fuel, the C loop does not terminate).  An access outside `items` would also be `none`; it never happens when
`items.length = size > 0`, which all operations maintain.

Reference counting of keys and values (`new_item`, `del_item`) is modelled separately (`Verif.Model.Refcount`).
-/
namespace Yasl

/-- `struct YASL_Table_Item`, data-structures/YASL_Table.h:35-38. -/
structure Item where
  key : Val
  value : Val
deriving DecidableEq, Repr

/-- A `calloc`ed slot: all bytes zero, so both types are `Y_UNDEF` = 0 (yasl_types.h:9-11). -/
def emptyItem : Item := ⟨.undef, .undef⟩
/-- `TOMBSTONE`, data-structures/YASL_Table.c:15. -/
def tombstone : Item := ⟨.end_, .end_⟩

/-- `struct YASL_Table`, data-structures/YASL_Table.h:40-45. -/
structure Table where
  size : Nat
  base : Nat
  count : Nat
  items : List Item
deriving DecidableEq, Repr

/-- `TABLE_BASESIZE`, data-structures/YASL_Table.h:8. -/
def TABLE_BASESIZE : Nat := 30

/-- `table_new_sized`, data-structures/YASL_Table.c:29-36. Fuel is for `next_prime`. -/
def Table.newSized (f base : Nat) : Option Table :=
  (nextPrimeC Nat.sqrt f base).map fun n => { size := n, base, count := 0, items := List.replicate n emptyItem }

/-- The condition of the `FOR_TABLE` iteration macro, data-structures/YASL_Table.h:10-11. -/
def Item.live (it : Item) : Bool := it.key.tag != .end_ && it.value.tag != .undef

/-- The items visited by `FOR_TABLE`, in order, data-structures/YASL_Table.h:10-11. -/
def Table.entries (t : Table) : List Item := t.items.filter Item.live

/-- `table->count * 100 / table->size` in `size_t` arithmetic, data-structures/YASL_Table.c:124 and 182. -/
def Table.load (t : Table) : Nat := (t.count * 100 % 2 ^ 64) / t.size

/-- The `while` loop of `YASL_Table_getindex`, data-structures/YASL_Table.c:108-117; `index` is the slot in
`curr_item`. -/
def getIndexLoop (t : Table) (key : Val) : Nat → Nat → Nat → Option Nat
  | 0, _, _ => none
  | f + 1, index, i =>
    match t.items[index]? with
    | none => none
    | some it =>
      if it.value.tag = .undef then some index
      else if it.key.tag ≠ .end_ ∧ isEqualTyped it.key key = true then some index
      else getIndexLoop t key f (getHash key t.size i) (i + 1)

/-- `YASL_Table_getindex`, data-structures/YASL_Table.c:104-119. -/
def Table.getIndex (f : Nat) (t : Table) (key : Val) : Option Nat :=
  getIndexLoop t key f (getHash key t.size 0) 1

/-- Body of the insertion after a possible resize, data-structures/YASL_Table.c:126-136. -/
def Table.insertHere (f : Nat) (t : Table) (key value : Val) : Option Table := do
  let index ← t.getIndex f key
  let curr ← t.items[index]?
  some { t with
    count := if isEqualTyped curr.key key then t.count else (t.count + 1) % 2 ^ 64
    items := t.items.set index ⟨key, value⟩ }

/-- `table_resize`, data-structures/YASL_Table.c:70-88, given the insertion function. -/
def Table.resizeWith (ins : Table → Val → Val → Option Table) (f : Nat) (t : Table) (base : Nat) : Option Table :=
  if base < TABLE_BASESIZE then some t
  else do
    let nt ← Table.newSized f base
    t.entries.foldlM (fun nt it => ins nt it.key it.value) nt

/-- `YASL_Table_insert_fast` with `table_resize_up`, data-structures/YASL_Table.c:121-137 and 90-93 (mutually recursive
through `table_resize`). -/
def Table.insertFast : Nat → Table → Val → Val → Option Table
  | 0, _, _, _ => none
  | f + 1, t, key, value =>
    (if t.load > 70 then Table.resizeWith (Table.insertFast f) f t (t.base * 2) else some t).bind fun t =>
    t.insertHere f key value

/-- `YASL_Table_insert`, data-structures/YASL_Table.c:139-146: the flag is the returned `bool`. -/
def Table.insert (f : Nat) (t : Table) (key value : Val) : Option (Table × Bool) :=
  if key.hashable then (t.insertFast f key value).map (·, true) else some (t, false)

/-- The `while` loop of `YASL_Table_search`, data-structures/YASL_Table.c:168-174. (`int i` is modelled as a natural
number.) -/
def searchLoop (t : Table) (key : Val) : Nat → Nat → Nat → Option Val
  | 0, _, _ => none
  | f + 1, index, i =>
    match t.items[index]? with
    | none => none
    | some it =>
      if it.key.tag = .undef then some .end_
      else if isEqualTyped it.key key then some it.value
      else searchLoop t key f (getHash key t.size i) (i + 1)

/-- `YASL_Table_search`, data-structures/YASL_Table.c:162-176.  The value `end_` means "absent". -/
def Table.search (f : Nat) (t : Table) (key : Val) : Option Val :=
  if key.hashable then searchLoop t key f (getHash key t.size 0) 1 else some .end_

/-- The `while` loop of `YASL_Table_rm`, data-structures/YASL_Table.c:187-196; it goes on after a match. -/
def rmLoop (key : Val) (size : Nat) : Nat → List Item → Nat → Nat → Option (List Item)
  | 0, _, _, _ => none
  | f + 1, items, index, i =>
    match items[index]? with
    | none => none
    | some it =>
      if it.key.tag = .undef then some items
      else
        let items := if it.key.tag ≠ .end_ ∧ isEqualTyped it.key key = true then items.set index tombstone else items
        rmLoop key size f items (getHash key size i) (i + 1)

/-- `YASL_Table_rm` with `table_resize_down`, data-structures/YASL_Table.c:180-198 and 95-98.  `count--` wraps around in
`size_t`. -/
def Table.rm (f : Nat) (t : Table) (key : Val) : Option Table :=
  if key.hashable then
    (if t.load < 10 then Table.resizeWith (Table.insertFast f) f t (t.base / 2) else some t).bind fun t =>
    (rmLoop key t.size f t.items (getHash key t.size 0) 1).bind fun items =>
    some { t with items, count := (t.count + (2 ^ 64 - 1)) % 2 ^ 64 }
  else some t

/-- `YASL_Table_length`, data-structures/YASL_Table.c:157-159. -/
def Table.length (t : Table) : Nat := t.count

/-! ## Methods (interpreter/table_methods.c) -/

/-- `table___get`, interpreter/table_methods.c:23-33 (also `t[k]` when no method shadows the key). -/
def Table.get (f : Nat) (t : Table) (key : Val) : Option Val :=
  (t.search f key).map fun r => if r = .end_ then .undef else r

/-- Result of `t[k] = v`. -/
inductive SetRes where
  | ok (t : Table)
  | typeError
deriving DecidableEq

/-- `table___set`, interpreter/table_methods.c:35-49. -/
def Table.set (f : Nat) (t : Table) (key value : Val) : Option SetRes :=
  if value = .undef then (t.rm f key).map .ok
  else (t.insert f key value).map fun (t, ok) => if ok then .ok t else .typeError

/-- `table_keys`, interpreter/table_methods.c:195-205; a for-loop over the table visits the same list. -/
def Table.keys (t : Table) : List Val := t.entries.map Item.key
/-- `table_values`, interpreter/table_methods.c:207-216. -/
def Table.values (t : Table) : List Val := t.entries.map Item.value

/-- Insert all the items of a list, as the loops of `table___bor` and `table_copy` do,
interpreter/table_methods.c:58-64, 234-236. -/
def Table.insertAll (f : Nat) (t : Table) (items : List Item) : Option Table :=
  items.foldlM (fun t it => t.insertFast f it.key it.value) t

/-- `table___bor`, interpreter/table_methods.c:51-68. -/
def Table.union (f : Nat) (left right : Table) : Option Table := do
  let nt ← Table.newSized f left.base
  let nt ← nt.insertAll f left.entries
  nt.insertAll f right.entries

/-- `table_copy`, interpreter/table_methods.c:230-240. -/
def Table.copy (f : Nat) (t : Table) : Option Table := do
  let nt ← Table.newSized f t.base
  nt.insertAll f t.entries

/-- `table_clear`, interpreter/table_methods.c:242-261: the size becomes 30, which is not prime; `base_size` is kept. -/
def Table.clear (t : Table) : Table :=
  { t with count := 0, size := TABLE_BASESIZE, items := List.replicate TABLE_BASESIZE emptyItem }

/-- The loop of `table___eq`, interpreter/table_methods.c:79-92; `eqv` is `==` on the values (`vm_EQ`). -/
def tableEqLoop (f : Nat) (eqv : Val → Val → Bool) (right : Table) : List Item → Option Bool
  | [] => some true
  | it :: its =>
    match right.search f it.key with
    | none => none
    | some s => if s = .end_ then some false else if eqv it.value s then tableEqLoop f eqv right its else some false

/-- `table___eq`, interpreter/table_methods.c:70-96. -/
def Table.eq (f : Nat) (eqv : Val → Val → Bool) (left right : Table) : Option Bool :=
  if left.count ≠ right.count then some false else tableEqLoop f eqv right left.entries

/-! ## Histories -/

/-- An operation of a table's history: `t[k] = v` through `YASL_Table_insert`, or `t.remove(k)`. -/
inductive TOp where
  | set (k v : Val)
  | rm (k : Val)
deriving DecidableEq

/-- One operation (model glue). -/
def Table.step (f : Nat) (t : Table) : TOp → Option Table
  | .set k v => (t.insert f k v).map Prod.fst
  | .rm k => t.rm f k

/-- A history, starting in a given table (model glue). -/
def Table.run (f : Nat) (t : Table) (ops : List TOp) : Option Table := ops.foldlM (fun t op => t.step f op) t

/-- `YASL_Table_new`, data-structures/YASL_Table.c:38-40: `next_prime(30)` is 31 (theorem `C17_next_prime_correct`). -/
def Table.new : Table := { size := 31, base := TABLE_BASESIZE, count := 0, items := List.replicate 31 emptyItem }

end Yasl
