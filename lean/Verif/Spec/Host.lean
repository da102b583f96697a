import Verif.Spec.Table
import Verif.Spec.List
set_option autoImplicit false
/-!
# What a host program does with containers

A host program (C code that embeds the interpreter) works on a stack of values.  Here tables are partial functions and lists are sequences.
-/
namespace Yasl

/-- Calls of the API: `YASL_pushundef`, `YASL_pushint`, …; `YASL_pushtable`; `YASL_pushlist`; `YASL_duptop`; `YASL_pop`; `YASL_tableset`; `YASL_listpush`;
`YASL_listget`. -/
inductive HOp where
  | push (v : Val)
  | newTable
  | newList
  | dup
  | pop
  | tableSet
  | listPush
  | listGet (n : BitVec 64)

/-- What was returned: `YASL_SUCCESS` or `YASL_TYPE_ERROR`. -/
inductive HReply where
  | success
  | typeError
deriving DecidableEq

/-- How a sequence of calls ended: with a state, or with an error thrown (stack overflow, `YASL_VALUE_ERROR`), or with undefined behaviour. -/
inductive HRes (α : Type) where
  | ok (a : α)
  | overflow
  | valueError
  | ub

/-- Objects. -/
inductive AObj where
  | table (m : Val → Option Val)
  | list (xs : List Val)

/-- Objects (numbered in the order they were made), the stack, top first, and what was returned, latest first. -/
structure AHost where
  heap : List AObj
  stack : List Val
  replies : List HReply

instance decGoodKey (k : Val) : Decidable (GoodKey k) := by
  cases k <;> unfold GoodKey <;> infer_instance

instance decLiveVal (v : Val) : Decidable (LiveVal v) := by unfold LiveVal; infer_instance

/-- The stack has 1024 places. -/
def AHost.push (h : AHost) (v : Val) : HRes AHost := if h.stack.length < 1024 then .ok { h with stack := v :: h.stack } else .overflow

/-- Values that are not references to tables or lists (a host program gets those only from the API). -/
def Val.plain : Val → Bool
  | .end_ => false
  | .ref .table _ => false
  | .ref .list _ => false
  | _ => true

/-- What a call is to do.  `none`: the call is outside the claim (too few values on the stack, a key that is `undef`, NaN or −0.0, or the value `undef`). -/
def AHost.step (h : AHost) : HOp → Option (HRes AHost)
  | .push v => if v.plain then some (h.push v) else none
  | .newTable => some (({ h with heap := h.heap ++ [.table fun _ => none] } : AHost).push (.ref .table h.heap.length))
  | .newList => some (({ h with heap := h.heap ++ [.list []] } : AHost).push (.ref .list h.heap.length))
  | .dup => match h.stack with
    | v :: _ => some (h.push v)
    | [] => none
  | .pop => match h.stack with
    | _ :: s => some (.ok { h with stack := s })
    | [] => none
  | .tableSet => match h.stack with
    | v :: k :: .ref .table a :: s => match h.heap[a]? with
      | some (.table m) =>
        if k.hashable = false then some (.ok { h with stack := .ref .table a :: s, replies := .typeError :: h.replies })
        else if GoodKey k ∧ LiveVal v then
          some (.ok { heap := h.heap.set a (.table fun x => if x = k then some v else m x), stack := .ref .table a :: s, replies := .success :: h.replies })
        else none
      | _ => none
    | _ :: _ :: t :: s => some (.ok { h with stack := t :: s, replies := .typeError :: h.replies })
    | _ => none
  | .listPush => match h.stack with
    | v :: .ref .list a :: s => match h.heap[a]? with
      | some (.list xs) => some (.ok { heap := h.heap.set a (.list (xs ++ [v])), stack := .ref .list a :: s, replies := .success :: h.replies })
      | _ => none
    | _ :: t :: s => some (.ok { h with stack := t :: s, replies := .typeError :: h.replies })
    | _ => none
  | .listGet n => match h.stack with
    | .ref .list a :: _ => match h.heap[a]? with
      | some (.list xs) => match Spec.pos xs.length n.toInt with
        | some i => match xs[i]? with
          | some v => some (({ h with replies := .success :: h.replies } : AHost).push v)
          | none => none
        | none => some .valueError
      | _ => none
    | _ :: _ => some (.ok { h with replies := .typeError :: h.replies })
    | _ => none

/-- A sequence of calls. -/
def AHost.run (h : AHost) : List HOp → Option (HRes AHost)
  | [] => some (.ok h)
  | op :: ops => match h.step op with
    | none => none
    | some (.ok h') => h'.run ops
    | some r => some r

end Yasl
