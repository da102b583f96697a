import Verif.Model.Calls
import Verif.Spec.Trace
set_option autoImplicit false
/-!
# The report of an error: interpreter/VM.c

Where an error is reported and which calls led there.  The message itself is not modelled, `line` is `vm_getcurrline` (VM.c:138-148; see `Verif.Model.Lines`, C20)
as a function of the program counter.  The report is the list of the lines printed: the first one is ` (line …)`, each of the others an `In function call on line …`.
-/
namespace Yasl

/-- `vm_exitframe`, VM.c:1177-1189. -/
def Mach.exitFrame (m : Mach) : CallRes Mach :=
  (m.rmRange m.fp m.sp).bind fun m =>
  match m.frames with
  | [] => .outOfBounds
  | frame :: rest => .ok { m with pc := frame.pc, fp := frame.prevFp, nextFp := frame.currFp, loops := dropLoops m.loops frame.lp, frames := rest }

/-- `while (vm->fp >= 0) { vm_exitframe(vm); … }`, VM.c:157-161: the lines printed, and the state afterwards; `none` if there are more than `fuel` rounds. -/
def Mach.unwind (line : Nat → Nat) : Nat → Mach → Option (CallRes (List Nat × Mach))
  | 0, _ => none
  | fuel + 1, m =>
    if m.fp ≥ 0 then
      match m.exitFrame with
      | .ok m => (Mach.unwind line fuel m).map fun r => r.bind fun p => .ok (line m.pc :: p.1, p.2)
      | .overflow => some .overflow
      | .outOfBounds => some .outOfBounds
    else some (.ok ([], m))

/-- `printline`, VM.c:150-162.  `callee`: is the value a C function? (`.type == Y_CFN`) -/
def Mach.printLine (callee : Val → Callee) (line : Nat → Nat) (fuel : Nat) (m : Mach) : Option (CallRes (List Nat × Mach)) :=
  match (if m.fp ≥ 0 ∧ (callee (m.slots m.fp)).isC = true then m.exitFrame else .ok m) with
  | .ok m' => (m'.unwind line fuel).map fun r => r.bind fun p => .ok (line m.pc :: p.1, p.2)
  | .overflow => some .overflow
  | .outOfBounds => some .outOfBounds

end Yasl
