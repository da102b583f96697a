import Verif.Model.Table
import Verif.Model.List
import Verif.Spec.Host
set_option autoImplicit false
/-!
# The part of the API for containers, yasl.c:274-437

The stack is a list of values, top first (that the array behaves as one is C55).  Objects are never freed here; reference counts are `Verif.Model.RefCount`.
`none`: a loop needs more than the given fuel.
-/
namespace Yasl

/-- `YASL_Table`, `YASL_List`. -/
inductive CObj where
  | table (t : Table)
  | list (l : YList)

/-- Objects, `S->vm.stack`, and the values returned so far, newest first. -/
structure Host where
  heap : List CObj
  stack : List Val
  replies : List HReply

/-- `vm_push`, interpreter/VM.c:188-199. -/
def Host.push (h : Host) (v : Val) : HRes Host := if h.stack.length ≥ 1024 then .overflow else .ok { h with stack := v :: h.stack }

/-- One call. -/
def Host.step (f : Nat) (h : Host) : HOp → Option (HRes Host)
  -- yasl.c:274-338: `vm_push` of the value
  | .push v => some (h.push v)
  -- `YASL_pushtable`, yasl.c:340-344, `rcht_new`: `YASL_Table_new`
  | .newTable => some (({ h with heap := h.heap ++ [.table Table.new] } : Host).push (.ref .table h.heap.length))
  -- `YASL_pushlist`, yasl.c:346-350
  | .newList => some (({ h with heap := h.heap ++ [.list YList.new] } : Host).push (.ref .list h.heap.length))
  -- `YASL_duptop`, yasl.c:364-368
  | .dup => match h.stack with
    | [] => some .ub
    | v :: _ => some (h.push v)
  -- `YASL_pop`, yasl.c:359-362
  | .pop => match h.stack with
    | [] => some .ub
    | _ :: s => some (.ok { h with stack := s })
  -- `YASL_tableset`, yasl.c:394-405
  | .tableSet => match h.stack with
    | v :: k :: t :: s => match t with
      | .ref .table a => match h.heap[a]? with
        | some (.table tb) => (tb.insert f k v).map fun r =>
            .ok { heap := h.heap.set a (.table r.1), stack := t :: s, replies := (if r.2 then .success else .typeError) :: h.replies }
        | _ => some .ub
      | _ => some (.ok { h with stack := t :: s, replies := .typeError :: h.replies })
    | _ => some .ub
  -- `YASL_listpush`, yasl.c:426-437
  | .listPush => match h.stack with
    | v :: t :: s => match t with
      | .ref .list a => match h.heap[a]? with
        | some (.list l) => match l.append v with
          | .ok l' => some (.ok { heap := h.heap.set a (.list l'), stack := t :: s, replies := .success :: h.replies })
          | _ => some .ub
        | _ => some .ub
      | _ => some (.ok { h with stack := t :: s, replies := .typeError :: h.replies })
    | _ => some .ub
  -- `YASL_listget`, yasl.c:415-424, `list___get_helper`, interpreter/list_methods.c:24-35
  | .listGet n => match h.stack with
    | [] => some .ub
    | t :: _ => match t with
      | .ref .list a => match h.heap[a]? with
        | some (.list l) => match listGet l n with
          | .ok v => some (({ h with replies := .success :: h.replies } : Host).push v)
          | .valueError => some .valueError
          | _ => some .ub
        | _ => some .ub
      | _ => some (.ok { h with replies := .typeError :: h.replies })

/-- A sequence of calls (model glue). -/
def Host.run (f : Nat) (h : Host) : List HOp → Option (HRes Host)
  | [] => some (.ok h)
  | op :: ops => match h.step f op with
    | none => none
    | some (.ok h') => h'.run f ops
    | some r => some r

/-- The slots from `index` on, without those skipped by the loop of `YASL_tablenext`, yasl.c:380-383. -/
def nextItem (items : List Item) (index : Nat) : Option Item := (items.drop index).find? fun it => it.key.tag != .end_ && it.key.tag != .undef

/-- `YASL_tablenext`, yasl.c:370-392: the returned `bool` and the stack. -/
def Host.tableNext (f : Nat) (h : Host) : Option (HRes (Bool × Host)) :=
  match h.stack with
  | key :: t :: s => match t with
    | .ref .table a => match h.heap[a]? with
      | some (.table tb) =>
        (if key.tag = .undef then some 0 else (tb.getIndex f key).map (· + 1)).map fun index =>
          match nextItem tb.items index with
          | none => .ok (false, { h with stack := t :: s })
          | some it => match ({ h with stack := t :: s } : Host).push it.key with
            | .ok h' => match h'.push it.value with
              | .ok h'' => .ok (true, h'')
              | _ => .overflow
            | _ => .overflow
      | _ => some .ub
    | _ => some (.ok (false, { h with stack := t :: s }))
  | _ => some .ub

/-- The loop of a host program over a table (test/unit_tests/test_api/tablenexttest.c:17-24): `while (YASL_tablenext(S)) { …; YASL_pop(S); }`, with the
keys and values seen in the body.  At most `n` rounds. -/
def Host.visit (f : Nat) : Nat → Host → Option (HRes (List (Val × Val) × Host))
  | 0, _ => none
  | n + 1, h => match h.tableNext f with
    | none => none
    | some (.ok (false, h')) => some (.ok ([], h'))
    | some (.ok (true, h')) => match h'.stack with
      | v :: k :: s => match Host.visit f n { h' with stack := k :: s } with
        | some (.ok (l, h'')) => some (.ok ((k, v) :: l, h''))
        | r => r
      | _ => some .ub
    | some .overflow => some .overflow
    | some .valueError => some .valueError
    | some .ub => some .ub

end Yasl
