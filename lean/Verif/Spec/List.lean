import Verif.Model.Value
/-!
# What list operations are supposed to do, on mathematical lists
-/
namespace Yasl.Spec

/-- Position denoted by an index `i` of a list of length `n`: `i` itself, or counted from the end if negative. -/
def pos (n : Nat) (i : Int) : Option Nat :=
  if 0 ≤ i ∧ i < n then some i.toNat
  else if -(n : Int) ≤ i ∧ i < 0 then some (i + n).toNat
  else none

/-- The bounds of the slice `[a:b]` of a sequence of length `n` (a missing bound is `none`): positions
`lo ≤ k < hi` are selected. -/
def sliceLo (n : Nat) : Option Int → Int
  | none => 0
  | some a => max 0 (if a < 0 then a + n else a)

/-- Upper bound of a slice. -/
def sliceHi (n : Nat) : Option Int → Int
  | none => n
  | some b => min n (if b < 0 then b + n else b)

/-- The slice of a sequence: exactly the elements whose index lies in `[lo, hi)`, in order. -/
def slice {α : Type} (xs : List α) (a b : Option Int) : List α :=
  (xs.zipIdx.filter fun p => decide (sliceLo xs.length a ≤ p.2 ∧ (p.2 : Int) < sliceHi xs.length b)).map (·.1)

/-- Mutating list operations. -/
inductive LOp where
  | push (v : Val)
  | pop
  | insert (i : BitVec 64) (v : Val)
  | set (i : BitVec 64) (v : Val)
  | reverse
  | clear
deriving Repr

/-- Effect of an operation on a mathematical list; `none` is a ValueError, which changes nothing. -/
def LOp.step (xs : List Val) : LOp → Option (List Val)
  | .push v => some (xs ++ [v])
  | .pop => if xs = [] then none else some xs.dropLast
  | .insert i v =>
    if i.toInt = xs.length then some (xs ++ [v])
    else (pos xs.length i.toInt).map fun k => xs.take k ++ v :: xs.drop k
  | .set i v => (pos xs.length i.toInt).map fun k => xs.set k v
  | .reverse => some xs.reverse
  | .clear => some []

/-- Effect of a history; erroneous operations leave the list as it was. -/
def LOp.runAll (xs : List Val) (ops : List LOp) : List Val := ops.foldl (fun xs o => (o.step xs).getD xs) xs

end Yasl.Spec
