import Verif.Model.Value
set_option autoImplicit false
/-!
# Patterns of `match` and what they match
-/
namespace Yasl

/-- The type patterns `bool`, `int`, `float`, `str`, `list`, `table`. -/
inductive PType where
  | bool | int | float | str | list | table
deriving DecidableEq

/-- Keys of table patterns. -/
inductive PKey where
  | undef
  | bool (b : Bool)
  | lit (v : Val)

mutual
/-- Patterns.  `bind s` is `let x` or `const x`, where `s` is the slot of the variable; `ls rest ps` is `[p1, ..., pn]` or, with `rest`, `[p1, ..., pn, ...]`;
similarly `table`. -/
inductive Pat where
  | undef
  | bool (b : Bool)
  | lit (v : Val)
  | any
  | type (t : PType)
  | bind (slot : Nat)
  | ls (rest : Bool) (ps : Pats)
  | table (rest : Bool) (kvs : KVs)
  | alt (p q : Pat)
inductive Pats where
  | nil
  | cons (p : Pat) (ps : Pats)
inductive KVs where
  | nil
  | cons (k : PKey) (p : Pat) (kvs : KVs)
end

def Pats.length : Pats → Nat
  | .nil => 0
  | .cons _ ps => ps.length + 1

def KVs.length : KVs → Nat
  | .nil => 0
  | .cons _ _ kvs => kvs.length + 1

/-- The lists and tables that exist: the elements of each list; the number of entries of each table and its value for each key. -/
structure Heap where
  list : Nat → List Val
  count : Nat → Nat
  entry : Nat → Val → Option Val

def PType.of : PType → Val → Bool
  | .bool, .bool _ => true
  | .int, .int _ => true
  | .float, .float _ => true
  | .str, .str _ => true
  | .list, .ref .list _ => true
  | .table, .ref .table _ => true
  | _, _ => false

def PKey.value : PKey → Val
  | .undef => .undef
  | .bool b => .bool b
  | .lit v => v

mutual
/-- The bindings when the pattern matches the value (in the order of the pattern), else `none`. Alternatives are tried from the left. -/
def Pat.bindings (H : Heap) : Pat → Val → Option (List (Nat × Val))
  | .undef, v => if v = .undef then some [] else none
  | .bool b, v => if v = .bool b then some [] else none
  | .lit c, v => if isEqual c v then some [] else none
  | .any, _ => some []
  | .type t, v => if t.of v then some [] else none
  | .bind s, v => some [(s, v)]
  | .ls rest ps, v => match v with
    | .ref .list a => if (H.list a).length = ps.length ∨ (rest ∧ ps.length ≤ (H.list a).length) then ps.bindings H (H.list a) else none
    | _ => none
  | .table rest kvs, v => match v with
    | .ref .table a => if H.count a = kvs.length ∨ rest then kvs.bindings H (H.entry a) else none
    | _ => none
  | .alt p q, v => match p.bindings H v with
    | some l => some l
    | none => q.bindings H v
/-- Element by element. -/
def Pats.bindings (H : Heap) : Pats → List Val → Option (List (Nat × Val))
  | .nil, _ => some []
  | .cons _ _, [] => none
  | .cons p ps, v :: vs => (p.bindings H v).bind fun l => (ps.bindings H vs).map fun l' => l ++ l'
/-- Key by key. -/
def KVs.bindings (H : Heap) : KVs → (Val → Option Val) → Option (List (Nat × Val))
  | .nil, _ => some []
  | .cons k p kvs, e => (e k.value).bind fun v => (p.bindings H v).bind fun l => (kvs.bindings H e).map fun l' => l ++ l'
end

/-- The variables after some bindings. -/
def bindAllIn (slots : Nat → Val) : List (Nat × Val) → (Nat → Val)
  | [] => slots
  | (s, v) :: l => bindAllIn (fun t => if t = s then v else slots t) l

mutual
/-- The variables that occur in the pattern. -/
def Pat.vars : Pat → List Nat
  | .bind s => [s]
  | .ls _ ps => ps.vars
  | .table _ kvs => kvs.vars
  | .alt p q => p.vars ++ q.vars
  | _ => []
def Pats.vars : Pats → List Nat
  | .nil => []
  | .cons p ps => p.vars ++ ps.vars
def KVs.vars : KVs → List Nat
  | .nil => []
  | .cons _ p kvs => p.vars ++ kvs.vars
end

mutual
/-- The variables that are bound whenever the pattern matches. -/
def Pat.sure : Pat → List Nat
  | .bind s => [s]
  | .ls _ ps => ps.sure
  | .table _ kvs => kvs.sure
  | .alt p q => p.sure.filter fun s => q.sure.contains s
  | _ => []
def Pats.sure : Pats → List Nat
  | .nil => []
  | .cons p ps => p.sure ++ ps.sure
def KVs.sure : KVs → List Nat
  | .nil => []
  | .cons _ p kvs => p.sure ++ kvs.sure
end

mutual
/-- In every alternative the right side binds the variables of the left side. -/
def Pat.Balanced : Pat → Prop
  | .ls _ ps => ps.Balanced
  | .table _ kvs => kvs.Balanced
  | .alt p q => p.Balanced ∧ q.Balanced ∧ ∀ s ∈ p.vars, s ∈ q.sure
  | _ => True
def Pats.Balanced : Pats → Prop
  | .nil => True
  | .cons p ps => p.Balanced ∧ ps.Balanced
def KVs.Balanced : KVs → Prop
  | .nil => True
  | .cons _ p kvs => p.Balanced ∧ kvs.Balanced
end

mutual
/-- In every alternative, the right side has no variable that the left side has not. -/
def Pat.SameSides : Pat → Prop
  | .ls _ ps => ps.SameSides
  | .table _ kvs => kvs.SameSides
  | .alt p q => p.SameSides ∧ q.SameSides ∧ ∀ s ∈ q.vars, s ∈ p.vars
  | _ => True
def Pats.SameSides : Pats → Prop
  | .nil => True
  | .cons p ps => p.SameSides ∧ ps.SameSides
def KVs.SameSides : KVs → Prop
  | .nil => True
  | .cons _ p kvs => p.SameSides ∧ kvs.SameSides
end

mutual
/-- The pattern has no table pattern with a key in it. -/
def Pat.noKeys : Pat → Bool
  | .ls _ ps => ps.noKeys
  | .table _ kvs => match kvs with
    | .nil => true
    | .cons _ _ _ => false
  | .alt p q => p.noKeys && q.noKeys
  | _ => true
def Pats.noKeys : Pats → Bool
  | .nil => true
  | .cons p ps => p.noKeys && ps.noKeys
end

mutual
/-- No alternative has a table pattern with a key on its left side. -/
def Pat.PlainLeft : Pat → Prop
  | .ls _ ps => ps.PlainLeft
  | .table _ kvs => kvs.PlainLeft
  | .alt p q => p.noKeys = true ∧ p.PlainLeft ∧ q.PlainLeft
  | _ => True
def Pats.PlainLeft : Pats → Prop
  | .nil => True
  | .cons p ps => p.PlainLeft ∧ ps.PlainLeft
def KVs.PlainLeft : KVs → Prop
  | .nil => True
  | .cons _ p kvs => p.PlainLeft ∧ kvs.PlainLeft
end

mutual
/-- Matching the pattern meets no table that lacks a key of the pattern. -/
def Pat.KeysMet (H : Heap) : Pat → Val → Prop
  | .ls rest ps, v => match v with
    | .ref .list a => (H.list a).length = ps.length ∨ (rest ∧ ps.length ≤ (H.list a).length) → ps.KeysMet H (H.list a)
    | _ => True
  | .table rest kvs, v => match v with
    | .ref .table a => H.count a = kvs.length ∨ rest → kvs.KeysMet H (H.entry a)
    | _ => True
  | .alt p q, v => p.KeysMet H v ∧ (p.bindings H v = none → q.KeysMet H v)
  | .undef, _ => True | .bool _, _ => True | .lit _, _ => True | .any, _ => True | .type _, _ => True | .bind _, _ => True
def Pats.KeysMet (H : Heap) : Pats → List Val → Prop
  | .nil, _ => True
  | .cons _ _, [] => True
  | .cons p ps, v :: vs => p.KeysMet H v ∧ ((p.bindings H v).isSome → ps.KeysMet H vs)
def KVs.KeysMet (H : Heap) : KVs → (Val → Option Val) → Prop
  | .nil, _ => True
  | .cons k p kvs, e => match e k.value with
    | none => False
    | some v => p.KeysMet H v ∧ ((p.bindings H v).isSome → kvs.KeysMet H e)
end

mutual
/-- The same for the left sides of alternatives only. -/
def Pat.LeftKeysMet (H : Heap) : Pat → Val → Prop
  | .ls rest ps, v => match v with
    | .ref .list a => (H.list a).length = ps.length ∨ (rest ∧ ps.length ≤ (H.list a).length) → ps.LeftKeysMet H (H.list a)
    | _ => True
  | .table rest kvs, v => match v with
    | .ref .table a => H.count a = kvs.length ∨ rest → kvs.LeftKeysMet H (H.entry a)
    | _ => True
  | .alt p q, v => p.LeftKeysMet H v ∧ (p.bindings H v = none → p.KeysMet H v ∧ q.LeftKeysMet H v)
  | .undef, _ => True | .bool _, _ => True | .lit _, _ => True | .any, _ => True | .type _, _ => True | .bind _, _ => True
def Pats.LeftKeysMet (H : Heap) : Pats → List Val → Prop
  | .nil, _ => True
  | .cons _ _, [] => True
  | .cons p ps, v :: vs => p.LeftKeysMet H v ∧ ((p.bindings H v).isSome → ps.LeftKeysMet H vs)
def KVs.LeftKeysMet (H : Heap) : KVs → (Val → Option Val) → Prop
  | .nil, _ => True
  | .cons k p kvs, e => match e k.value with
    | none => True
    | some v => p.LeftKeysMet H v ∧ ((p.bindings H v).isSome → kvs.LeftKeysMet H e)
end

def PKey.lits : PKey → List Val
  | .lit v => [v]
  | _ => []

mutual
/-- The literals of the pattern. -/
def Pat.lits : Pat → List Val
  | .lit v => [v]
  | .ls _ ps => ps.lits
  | .table _ kvs => kvs.lits
  | .alt p q => p.lits ++ q.lits
  | _ => []
def Pats.lits : Pats → List Val
  | .nil => []
  | .cons p ps => p.lits ++ ps.lits
def KVs.lits : KVs → List Val
  | .nil => []
  | .cons k p kvs => k.lits ++ p.lits ++ kvs.lits
end

mutual
/-- No list or table pattern has 2^62 or more parts. -/
def Pat.Sized : Pat → Prop
  | .ls _ ps => ps.length < 2 ^ 62 ∧ ps.Sized
  | .table _ kvs => kvs.length < 2 ^ 62 ∧ kvs.Sized
  | .alt p q => p.Sized ∧ q.Sized
  | .bind s => s < 256
  | _ => True
def Pats.Sized : Pats → Prop
  | .nil => True
  | .cons p ps => p.Sized ∧ ps.Sized
def KVs.Sized : KVs → Prop
  | .nil => True
  | .cons _ p kvs => p.Sized ∧ kvs.Sized
end

end Yasl
