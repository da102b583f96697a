import Verif.Model.Set
import Verif.Model.List
import Verif.Model.Mem
import Verif.Spec.Print
set_option autoImplicit false
/-!
# Constructors and conversions of `collections`: std/yasl-std-collections.c:15-150

The arguments of a variadic C function are on the stack, the last one on top; `args` lists them from the top.  Reference counts are not part of this model.
`none`: a loop of the hash table needs more than the given fuel.
-/
namespace Yasl

/-- Inserting values one after the other; a value that cannot be hashed is a type error (std/yasl-std-collections.c:24-31, 45-53). -/
def setFill (f : Nat) : YSet → List Val → Run YSet
  | s, [] => some (.ok s)
  | s, v :: vs => if v.hashable then (s.insert f v).bind fun s => setFill f s vs else some .typeError

/-- `YASL_collections_set_new`, std/yasl-std-collections.c:39-59, with `YASL_collections_set_fromlist`, 15-37: `items` gives the elements of a list. -/
def collSet (f : Nat) (items : Nat → List Val) (args : List Val) : Run YSet :=
  match args with
  | [.ref .list a] => setFill f YSet.new (items a)
  | args => setFill f YSet.new args

/-- `YASL_collections_list_new`, std/yasl-std-collections.c:61-71. -/
def collList (args : List Val) : Out YList :=
  (args.foldl (fun (l : Out YList) v => l.bind fun l => l.append v) (.ok YList.new)).bind YList.reverse

/-- The loop of `YASL_collections_table_new`, std/yasl-std-collections.c:80-90; the values from the top, `undef` pushed first if their number is odd (76-78). -/
def tableFill (f : Nat) : Table → List Val → Run Table
  | t, [] => some (.ok t)
  | _, [_] => some .ub
  | t, v :: k :: rest => (t.insert f k v).bind fun r => if r.2 then tableFill f r.1 rest else some .typeError

/-- `YASL_collections_table_new`, std/yasl-std-collections.c:73-94. -/
def collTable (f : Nat) (args : List Val) : Run Table :=
  tableFill f Table.new (if args.length % 2 ≠ 0 then .undef :: args else args)

/-- `while (string_count + len >= string_size)` doubling, std/yasl-std-collections.c:113-116; `none`: more than the given rounds. -/
def growWhile (count len : Nat) : Nat → Block Byte → Nat → Option (Block Byte × Nat)
  | 0, _, _ => none
  | k + 1, m, size => if count + len ≥ size then growWhile count len k (Block.realloc m (size * 2)) (size * 2) else some (m, size)

/-- The loop of `set.tostr`, std/yasl-std-collections.c:109-127: block, count, size. -/
def setTextLoop (g : Nat) (text : Val → List Byte) : List Val → Block Byte → Nat → Nat → Run (Block Byte × Nat)
  | [], m, count, _ => some (.ok (m, count))
  | v :: vs, m, count, size =>
    match growWhile count (text v).length g m size with
    | none => none
    | some (m, size) =>
      Run.bind (some (m.memcpy count (text v))) fun m =>
      let count := count + (text v).length
      let size' := if count + 2 ≥ size then size * 2 else size
      let m := if count + 2 ≥ size then Block.realloc m size' else m
      Run.bind (some (m.st count 44#8)) fun m =>
      Run.bind (some (m.st (count + 1) 32#8)) fun m => setTextLoop g text vs m (count + 2) size'

/-- The first `n` bytes of a block (they become the string). -/
def blockText (m : Block Byte) : Nat → Nat → Out (List Byte)
  | 0, _ => .ok []
  | k + 1, i => (m.ld i).bind fun c => (blockText m k (i + 1)).bind fun r => .ok (c :: r)

/-- `YASL_collections_set_tostr`, std/yasl-std-collections.c:96-133; `text` is what `vm_stringify_top` gives for an element.  (`string_count -= 2` on `size_t`: the count
is at least 4.) -/
def setTostr (g : Nat) (text : Val → List Byte) (s : YSet) : Run (List Byte) :=
  Run.bind (some ((Block.malloc 8 : Block Byte).memcpy 0 (printBytes "set("))) fun m =>
  if s.length = 0 then Run.bind (some (m.st 4 41#8)) fun m => some (blockText m 5 0)
  else
    Run.bind (setTextLoop g text s.elems m 4 8) fun r =>
    Run.bind (some (r.1.st (r.2 - 2) 41#8)) fun m => some (blockText m (r.2 - 2 + 1) 0)

/-- `YASL_collections_set_tolist`, std/yasl-std-collections.c:135-146. -/
def setTolist (s : YSet) : Out YList := s.elems.foldl (fun (l : Out YList) v => l.bind fun l => l.append v) (.ok YList.new)

end Yasl
