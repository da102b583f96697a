import Verif.Model.Value
set_option autoImplicit false
/-!
# Specification: what calls do to the values a program is working with

Independently of any machine: the values are in *regions*.  The base region belongs to the program (or to the host); every call that has been started opens a region
on top, which holds the callee and what has been pushed since: the arguments while they are being evaluated (`called = false`), then the parameters and variables of
the running function.  Only the top region is ever touched.
-/
namespace Yasl

/-- What the host and the compiler say about a callee: the number of parameters of a function written in YASL and where it starts; the number of parameters of
a C function, or the number of parameters before the variable ones. -/
inductive Callee where
  | code (params : Nat) (entry : Nat)
  | c (params : Nat)
  | cVariadic (fixed : Nat)
  | notCallable
deriving DecidableEq

/-- Exactly `n` values: cut, or padded with `undef`. -/
def exactly (n : Nat) (l : List Val) : List Val := l.take n ++ List.replicate (n - l.length) .undef

/-- What a call that wants `want` results leaves: all of them if `want` is negative. -/
def wanted (want : Int) (results : List Val) : List Val := if want < 0 then results else exactly want.toNat results

/-- A call in progress. -/
structure Region where
  fn : Val
  vals : List Val
  want : Int
  returnTo : Nat
  called : Bool
  loops : List (Nat × Val)
deriving DecidableEq

/-- The whole state: `calls` has the innermost call first. -/
structure Regions where
  base : List Val
  baseLoops : List (Nat × Val)
  calls : List Region
  at_ : Nat
deriving DecidableEq

/-- The things that happen. -/
inductive CallOp where
  /-- a value is pushed -/
  | push (v : Val)
  /-- the top value is dropped -/
  | pop
  /-- execution gets to another place of the code -/
  | goto_ (pc : Nat)
  /-- the top value is going to be called, and `want` results are wanted (a negative number: all) -/
  | start (want : Int)
  /-- it is called with the values pushed since -/
  | call
  /-- the running function returns everything above its `len` lowest variables -/
  | ret (len : Nat)
  /-- the running C function returns its `n` top values -/
  | retC (n : Nat)
  /-- a loop over the top value begins -/
  | loop
  /-- the innermost loop ends -/
  | endLoop

/-- The values in order. -/
def Regions.valuesOf (base : List Val) : List Region → List Val
  | [] => base
  | r :: rs => Regions.valuesOf base rs ++ r.fn :: r.vals

def Regions.values (s : Regions) : List Val := Regions.valuesOf s.base s.calls

/-- The loops that are running, innermost first. -/
def Regions.loopsOf (base : List (Nat × Val)) : List Region → List (Nat × Val)
  | [] => base
  | r :: rs => r.loops ++ Regions.loopsOf base rs

def Regions.loops (s : Regions) : List (Nat × Val) := Regions.loopsOf s.baseLoops s.calls

/-- The values of the top region (without its callee). -/
def Regions.top (s : Regions) : List Val := match s.calls with | [] => s.base | r :: _ => r.vals
def Regions.setTop (s : Regions) (l : List Val) : Regions :=
  match s.calls with | [] => { s with base := l } | r :: rs => { s with calls := { r with vals := l } :: rs }

def Regions.topLoops (s : Regions) : List (Nat × Val) := match s.calls with | [] => s.baseLoops | r :: _ => r.loops
def Regions.setTopLoops (s : Regions) (l : List (Nat × Val)) : Regions :=
  match s.calls with | [] => { s with baseLoops := l } | r :: rs => { s with calls := { r with loops := l } :: rs }

/-- Limits: at most 1024 values, at most 1000 calls. -/
inductive CallRes (α : Type) where
  | ok (a : α)
  | overflow
  | outOfBounds
deriving DecidableEq

def CallRes.bind {α β : Type} : CallRes α → (α → CallRes β) → CallRes β
  | .ok a, f => f a
  | .overflow, _ => .overflow
  | .outOfBounds, _ => .outOfBounds

/-- A state, unless it has too many values. -/
def Regions.checked (s : Regions) : CallRes Regions := if s.values.length ≤ 1024 then .ok s else .overflow

/-- The parameters a callee gets. -/
def Callee.params (c : Callee) (args : List Val) : List Val :=
  match c with
  | .code n _ => exactly n args
  | .c n => exactly n args
  | .cVariadic n => args.take n ++ .int (BitVec.ofInt 64 ((args.length : Int) - n)) :: args.drop n
  | .notCallable => args

/-- When an operation makes sense. -/
def Regions.possible (callee : Val → Callee) (s : Regions) : CallOp → Prop
  | .push _ | .goto_ _ => True
  | .pop => s.top ≠ []
  | .start _ => match s.top.getLast? with | some v => callee v ≠ .notCallable | none => False
  | .call =>
    match s.calls with
    | r :: _ => r.called = false ∧ (match callee r.fn with | .notCallable => False | .cVariadic n => n ≤ r.vals.length | _ => True)
    | [] => False
  | .ret len => match s.calls with | r :: _ => r.called = true ∧ len ≤ r.vals.length | [] => False
  | .retC n => match s.calls with | r :: _ => r.called = true ∧ n ≤ r.vals.length | [] => False
  | .loop => s.top ≠ []
  | .endLoop => s.topLoops ≠ []

instance (callee : Val → Callee) (s : Regions) (o : CallOp) : Decidable (s.possible callee o) := by
  cases o <;> simp only [Regions.possible] <;> try infer_instance
  · split <;> infer_instance
  · split
    · rename_i r _ _
      cases callee r.fn <;> infer_instance
    · infer_instance
  · split <;> infer_instance
  · split <;> infer_instance

/-- The call ends with these results: its region is replaced by what was wanted of them. -/
def Regions.finish (s : Regions) (results : List Val) : CallRes Regions :=
  match s.calls with
  | [] => .ok s
  | r :: rs =>
    let below : Regions := { s with calls := rs, at_ := r.returnTo }
    (below.setTop (below.top ++ wanted r.want results)).checked

/-- What an operation does. -/
def Regions.op (callee : Val → Callee) (s : Regions) : CallOp → CallRes Regions
  | .push v => (s.setTop (s.top ++ [v])).checked
  | .pop => .ok (s.setTop s.top.dropLast)
  | .goto_ pc => .ok { s with at_ := pc }
  | .start want =>
    if s.calls.length < 1000 then
      let t := s.setTop s.top.dropLast
      .ok { t with calls := ⟨s.top.getLastD .undef, [], want, s.at_, false, []⟩ :: t.calls }
    else .overflow
  | .call =>
    match s.calls with
    | [] => .ok s
    | r :: rs =>
      ({ s with calls := { r with vals := (callee r.fn).params r.vals, called := true, returnTo := s.at_ } :: rs
                at_ := match callee r.fn with | .code _ entry => entry | _ => s.at_ } : Regions).checked
  | .ret len => s.finish (s.top.drop len)
  | .retC n => s.finish (s.top.drop (s.top.length - n))
  | .loop =>
    if s.loops.length < 16 then
      .ok ((s.setTop s.top.dropLast).setTopLoops ((0, s.top.getLastD .undef) :: s.topLoops))
    else .outOfBounds
  | .endLoop => .ok (s.setTopLoops s.topLoops.tail)

/-- The state in which a function `f` with the variables `vals` has just been started at `entry`: `f` was the top value, above `l`. -/
def Regions.entered (s : Regions) (l : List Val) (f : Val) (vals : List Val) (want : Int) (entry : Nat) : Regions :=
  { base := (s.setTop l).base, baseLoops := s.baseLoops, calls := ⟨f, vals, want, s.at_, true, []⟩ :: (s.setTop l).calls, at_ := entry }

/-- A history: every operation is possible where it happens. -/
def Regions.all (callee : Val → Callee) (s : Regions) : List CallOp → Prop
  | [] => True
  | o :: os => s.possible callee o ∧ match s.op callee o with | .ok t => t.all callee os | _ => True

instance Regions.decAll (callee : Val → Callee) : (s : Regions) → (ops : List CallOp) → Decidable (s.all callee ops)
  | _, [] => .isTrue trivial
  | s, o :: os => by
    unfold Regions.all
    have : Decidable (match s.op callee o with | .ok t => t.all callee os | _ => True) := by
      split
      · exact Regions.decAll callee _ os
      · infer_instance
    infer_instance

def Regions.run (callee : Val → Callee) (s : Regions) : List CallOp → CallRes Regions
  | [] => .ok s
  | o :: os => (s.op callee o).bind fun t => t.run callee os

end Yasl
