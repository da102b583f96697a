import Verif.Model.Value
set_option autoImplicit false
/-!
# What captured variables mean

A history of pushes, calls, returns, captures and assignments.  Every value pushed is a new variable; a function sees the variables of its own
frame, numbered from the oldest; a capture remembers a variable; an assignment through a capture assigns that variable, whether or not the function
that declared it is still running.
-/
namespace Yasl

/-- The events of a program that concern variables. -/
inductive CapOp where
  /-- a value is pushed: a declaration, an argument, a function to be called, a returned value, a temporary -/
  | push (v : Val)
  /-- the newest value is popped: at the end of a block, or a temporary -/
  | pop
  /-- the function under the newest `n` values is called with these -/
  | call (n : Nat)
  /-- the running function returns; `closing` when its code says `O_CRET` and not `O_RET` -/
  | ret (closing : Bool)
  /-- a closure is made which captures variable number `k` of the running function -/
  | capture (k : Nat)
  /-- variable number `k` of the running function is assigned -/
  | assign (k : Nat) (v : Val)
  /-- the variable of the `j`-th capture is assigned by a closure -/
  | assignCaptured (j : Nat) (v : Val)

/-- The variables: `frames`, innermost first, the newest variable of each first; `captured` the variable of each capture, the latest first;
`value` of each variable; `next` variable to be made. -/
structure Vars where
  frames : List (List Nat)
  captured : List Nat
  value : Nat → Val
  next : Nat

def Vars.initial : Vars := { frames := [[]], captured := [], value := fun _ => .undef, next := 0 }

/-- All variables that exist, the newest first. -/
def Vars.live (s : Vars) : List Nat := s.frames.flatten

/-- Variable number `k` of the running function. -/
def Vars.var (s : Vars) (k : Nat) : Option Nat := (s.frames.headD []).reverse[k]?

/-- The variable of the `j`-th capture of the history. -/
def Vars.cap (s : Vars) (j : Nat) : Option Nat := s.captured.reverse[j]?

def Vars.set (s : Vars) (w : Nat) (v : Val) : Vars := { s with value := fun u => if u = w then v else s.value u }

/-- Meaning of an event. -/
def Vars.op (s : Vars) : CapOp → Vars
  | .push v => match s.frames with
    | f :: fs => { s with frames := (s.next :: f) :: fs, next := s.next + 1, value := fun u => if u = s.next then v else s.value u }
    | [] => s
  | .pop => match s.frames with
    | f :: fs => { s with frames := f.tail :: fs }
    | [] => s
  | .call n => match s.frames with
    | f :: fs => { s with frames := f.take n :: f.drop n :: fs }
    | [] => s
  | .ret _ => match s.frames with
    | _ :: f :: fs => { s with frames := f.tail :: fs }
    | _ => s
  | .capture k => match s.var k with
    | some w => { s with captured := w :: s.captured }
    | none => s
  | .assign k v => match s.var k with
    | some w => s.set w v
    | none => s
  | .assignCaptured j v => match s.cap j with
    | some w => s.set w v
    | none => s

/-- The event is possible: there is something to pop, call, return from, capture, assign. -/
def Vars.possible (s : Vars) : CapOp → Prop
  | .push _ => True
  | .pop => s.frames.headD [] ≠ []
  | .call n => n < (s.frames.headD []).length
  | .ret _ => 2 ≤ s.frames.length
  | .capture k => (s.var k).isSome
  | .assign k _ => (s.var k).isSome
  | .assignCaptured j _ => (s.cap j).isSome

/-- `P` holds at each event of a history. -/
def Vars.each (P : Vars → CapOp → Prop) (s : Vars) : List CapOp → Prop
  | [] => True
  | o :: ops => P s o ∧ Vars.each P (s.op o) ops

end Yasl
