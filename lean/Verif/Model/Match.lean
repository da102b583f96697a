import Verif.Spec.Match
import Verif.Model.Pattern
set_option autoImplicit false
/-!
# `match` statements: `visit_Match` and `visit_Match_helper` of compiler/compiler.c, and the instructions they use

Simplified: instructions are not encoded as bytes (except the patterns), and jumps count instructions; guards and bodies are single instructions: a guard pushes its value, a body
is recorded in a log with the variables it sees, and leaves the stack as it was (the variables declared in the body itself are part of it).  The stack is counted from the first
variable of the function (`vm->fp + 1`); reference counts and stack overflow are left out.
-/
namespace Yasl

inductive MI where
  | mtch (p : Pat) (skip : Nat)
  | incsp (n : Nat)
  | moveup (off : Nat)
  | delfp (off : Nat)
  | pop
  | brf (skip : Nat)
  | br (skip : Nat)
  | guard (n : Nat) (g : List Val → Val)
  | body (i : Nat)

/-- `visit_Match_helper`, compiler/compiler.c:952-1013, after `O_MATCH`: up to the body. -/
def clauseHead (vars : Nat) (c : Clause) (toNext : Nat) : List MI :=
  if c.binds > 0 then
    MI.incsp c.binds :: (match c.guard with
      | some g => [.moveup vars, .guard (vars + c.binds) g, .brf (toNext + 1), .pop]
      | none => [.delfp vars])
  else match c.guard with
    | some g => [.guard (vars + c.binds) g, .brf (toNext + 1), .pop]
    | none => [.pop]

/-- The instructions that remove the variables of a clause whose guard is false, compiler.c:1000-1006. -/
def guardPops (c : Clause) : List MI := match c.guard with
  | some _ => List.replicate c.binds .pop
  | none => []

/-- `visit_Match_helper`, compiler.c:952-1013. -/
def compileClauses (vars : Nat) : Nat → List Clause → List MI
  | _, [] => []
  | i, c :: cs =>
    let rest := compileClauses vars (i + 1) cs
    let leave := if cs.length > 0 then [MI.br ((guardPops c).length + rest.length)] else []
    let body := MI.body i :: (List.replicate c.binds .pop ++ leave)
    let code := clauseHead vars c body.length ++ body ++ guardPops c
    MI.mtch c.pat code.length :: (code ++ rest)

/-- `visit_Match`, compiler.c:1015-1027, after the expression. -/
def compileMatch (vars : Nat) (cs : List Clause) : List MI := if cs.length = 0 then [.pop] else compileClauses vars 0 cs

structure MatchState where
  len : Nat
  stack : Nat → Val
  log : List (Nat × List Val)

/-- One instruction: the state after it and how many instructions are jumped over.  `O_MATCH`: `vm_MATCH_IF`, VM.c:1111-1118 (variables are written one place higher, VM.c:1083-1092);
`O_MOVEUP_FP`: 1552-1557; `O_BR_8`, `O_BRF_8`: 1561-1567; `O_DEL_FP`, `O_INCSP`: 1629-1638, with `vm_rm`, 267-273.  `none`: the match stops inside the code of
the pattern, and would go on there. -/
def stepMatch (H : Heap) (K : List Val) (ix : Val → Nat) (fuel : Nat) : MI → MatchState → Option (MatchState × Nat)
  | .mtch p skip, s => (matchPat H K fuel (compilePat ix p) (s.stack (s.len - 1)) (fun t => s.stack (t + 1))).bind fun r =>
    if r.1 && !r.2.1.isEmpty then none else some ({ s with stack := fun t => if t = 0 then s.stack 0 else r.2.2 (t - 1) }, if r.1 then 0 else skip)
  | .incsp n, s => some ({ s with len := s.len + n }, 0)
  | .moveup off, s => some ({ s with stack := fun t => if t = s.len - 1 then s.stack off else if off ≤ t ∧ t < s.len then s.stack (t + 1) else s.stack t }, 0)
  | .delfp off, s => some ({ s with len := s.len - 1, stack := fun t => if off ≤ t then s.stack (t + 1) else s.stack t }, 0)
  | .pop, s => some ({ s with len := s.len - 1 }, 0)
  | .brf skip, s => some ({ s with len := s.len - 1 }, if (s.stack (s.len - 1)).falsey then skip else 0)
  | .br skip, s => some (s, skip)
  | .guard n g, s => some ({ s with len := s.len + 1, stack := fun t => if t = s.len then g (visible n s.stack) else s.stack t }, 0)
  | .body i, s => some ({ s with log := s.log ++ [(i, visible s.len s.stack)] }, 0)

/-- The interpreter loop. -/
def runMatch (H : Heap) (K : List Val) (ix : Val → Nat) (fuel : Nat) : List MI → MatchState → Option MatchState
  | [], s => some s
  | m :: code, s => match stepMatch H K ix fuel m s with
    | none => none
    | some (s, skip) => runMatch H K ix fuel (code.drop skip) s
termination_by code => code.length
decreasing_by simp; omega

end Yasl
