import Verif.Spec.Calls
set_option autoImplicit false
/-!
# Specification: what the report of an error should say

The state is described by its regions (`Verif.Spec.Calls`).  The report should name the line at which execution is, and the lines of the calls in progress, that is,
of those that have been made and have not ended: innermost first.  A C function has no lines: if one is running, the error is reported where it was called.
-/
namespace Yasl

/-- A C function. -/
def Callee.isC : Callee → Bool
  | .c _ | .cVariadic _ => true
  | _ => false

/-- The calls in progress, innermost first: those for which only the arguments are being computed are not among them. -/
def Regions.running (s : Regions) : List Region := s.calls.filter (·.called)

/-- The function that is running is a C function. -/
def Regions.inC (callee : Val → Callee) (s : Regions) : Bool := s.running.head?.any fun r => (callee r.fn).isC

/-- What should be reported. -/
def Regions.report (callee : Val → Callee) (line : Nat → Nat) (s : Regions) : List Nat :=
  line s.at_ :: ((if s.inC callee then s.running.tail else s.running).map fun r => line r.returnTo)

/-- In no function that is running are the arguments of another call being computed (they may be, outside of all functions). -/
def Regions.NonePending (s : Regions) : Prop := ∃ pending, s.calls = s.running ++ pending

end Yasl
