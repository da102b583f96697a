import Verif.Model.Table
import Verif.Model.Str
set_option autoImplicit false
/-!
# `for x <- collection`: `vm_ITER_1`, interpreter/VM.c:875-918

`frame->iter` is an `int`; here it is a natural number (collections of 2^31 or more elements are not modelled).
-/
namespace Yasl

/-- What `frame->iterable` is: a list, a table, a string, or a value of another type. -/
inductive Coll where
  | list (items : List Val)
  | table (t : Table)
  | str (s : YStr)
  | other
deriving DecidableEq

/-- What a loop variable is bound to: a value, or a new string. -/
inductive Elem where
  | val (v : Val)
  | str (s : YStr)
deriving DecidableEq

/-- The outcome of `O_ITER_1`: the value `false`, or an element with the new `iter` and the value `true`. -/
inductive IterRes where
  | stop
  | next (e : Elem) (iter : Nat)
  | typeError
  | ub
deriving DecidableEq

/-- The key is `Y_END` or `Y_UNDEF`, VM.c:891. -/
def Item.free (it : Item) : Bool := it.key.tag == .end_ || it.key.tag == .undef

/-- The `while` loop over free slots, VM.c:890-893; the first argument is `table->size - frame->iter`. -/
def skipFree (items : List Item) : Nat → Nat → Nat
  | 0, iter => iter
  | n + 1, iter => match items[iter]? with
    | some it => if it.free then skipFree items n (iter + 1) else iter
    | none => iter

/-- `vm_ITER_1`, interpreter/VM.c:875-918. -/
def iter1 (c : Coll) (iter : Nat) : IterRes :=
  match c with
  | .list items => match items[iter]? with
    | none => .stop
    | some v => .next (.val v) (iter + 1)
  | .table t =>
    let i := skipFree t.items (t.size - iter) iter
    if t.size ≤ i then .stop
    else match t.items[i]? with
      | some it => .next (.val it.key) (i + 1)
      | none => .ub
  | .str s =>
    if s.len ≤ iter then .stop
    else match s.substring iter (iter + 1) with
      | .ok p => .next (.str p) (iter + 1)
      | _ => .ub
  | .other => .typeError

/-- The loop compiled by `visit_ForIter`, compiler/compiler.c:480-523: `O_ITER_1`, leave if `false`, bind the variable, run the body, repeat.  The state
of the program is `W`, the collection in it is `coll`; the result is the values of the loop variable and the last state.  The first argument bounds the
number of rounds. -/
def forEach {W : Type} (coll : W → Coll) (body : Elem → W → W) : Nat → Nat → W → Run (List Elem × W)
  | 0, _, _ => none
  | f + 1, iter, w => match iter1 (coll w) iter with
    | .stop => some (.ok ([], w))
    | .next e iter' => Run.bind (forEach coll body f iter' (body e w)) fun r => some (.ok (e :: r.1, r.2))
    | .typeError => some .typeError
    | .ub => some .ub

end Yasl
