import Verif.Model.Table
set_option autoImplicit false
/-!
# Specification of printing: the text of a list or a table

The collections are in a list; the address of a collection is its position.
-/
namespace Yasl

/-- A list with its elements, or a table. -/
inductive HObj where
  | list (items : List Val)
  | table (t : Table)
deriving DecidableEq

/-- The bytes of an ASCII text. -/
def printBytes (s : String) : List Byte := s.toList.map fun c => BitVec.ofNat 8 c.toNat

/-- The texts with ", " between. -/
def commaSep : List (List Byte) → List Byte
  | [] => []
  | [x] => x
  | x :: xs => x ++ printBytes ", " ++ commaSep xs

mutual
/-- `Prints h leaf anc v text`: `text` is the text of `v` inside of the collections `anc`.  A collection inside of itself is "[...]" or "{...}"; `leaf`
gives the texts of all other values. -/
inductive Prints (h : List HObj) (leaf : Val → List Byte) : List Nat → Val → List Byte → Prop
  | leaf (anc : List Nat) (v : Val) (hv : ∀ a, v ≠ .ref .list a ∧ v ≠ .ref .table a) : Prints h leaf anc v (leaf v)
  | listAgain (anc : List Nat) (a : Nat) (ha : a ∈ anc) : Prints h leaf anc (.ref .list a) (printBytes "[...]")
  | tableAgain (anc : List Nat) (a : Nat) (ha : a ∈ anc) : Prints h leaf anc (.ref .table a) (printBytes "{...}")
  | list (anc : List Nat) (a : Nat) (ha : a ∉ anc) (items : List Val) (texts : List (List Byte)) (hg : h[a]? = some (.list items))
      (ht : PrintsAll h leaf (anc ++ [a]) items texts) : Prints h leaf anc (.ref .list a) (printBytes "[" ++ commaSep texts ++ printBytes "]")
  | table (anc : List Nat) (a : Nat) (ha : a ∉ anc) (t : Table) (texts : List (List Byte)) (hg : h[a]? = some (.table t))
      (ht : PrintsEntries h leaf (anc ++ [a]) t.entries texts) : Prints h leaf anc (.ref .table a) (printBytes "{" ++ commaSep texts ++ printBytes "}")

/-- the texts of a list of values -/
inductive PrintsAll (h : List HObj) (leaf : Val → List Byte) : List Nat → List Val → List (List Byte) → Prop
  | nil (anc : List Nat) : PrintsAll h leaf anc [] []
  | cons (anc : List Nat) (v : Val) (x : List Byte) (vs : List Val) (xs : List (List Byte)) (hv : Prints h leaf anc v x)
      (hs : PrintsAll h leaf anc vs xs) : PrintsAll h leaf anc (v :: vs) (x :: xs)

/-- the texts of entries: "key: value" -/
inductive PrintsEntries (h : List HObj) (leaf : Val → List Byte) : List Nat → List Item → List (List Byte) → Prop
  | nil (anc : List Nat) : PrintsEntries h leaf anc [] []
  | cons (anc : List Nat) (it : Item) (x : List Byte) (its : List Item) (xs : List (List Byte)) (hv : Prints h leaf anc it.value x)
      (hs : PrintsEntries h leaf anc its xs) : PrintsEntries h leaf anc (it :: its) ((leaf it.key ++ printBytes ": " ++ x) :: xs)
end

end Yasl
