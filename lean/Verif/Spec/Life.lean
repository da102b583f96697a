import Verif.Model.Life
/-! # C118, C119: what the memory of a state and captured output should be, in terms of what the host did

The functions here look at the history only: a list of `LifeOp`. -/
set_option autoImplicit false
namespace Yasl
namespace LifeSpec

/-- Whether the compiler reported an error for a text since the state was made or given its present source. -/
def refused (h : List LifeOp) : Bool :=
  h.foldl (fun r o => match o with
    | .resetBB => false
    | .resetFile found => r && !found
    | .execute _ t => r || t.res != .accepted
    | .compile t => r || t.res != .accepted
    | _ => r) false

/-- The places in a history at which something holds of what was done before and what is done there. -/
def places (p : List LifeOp → LifeOp → Bool) (h : List LifeOp) : List Nat :=
  (List.range h.length).filter fun k => match h[k]? with
    | some o => p (h.take k) o
    | none => false

/-- A text is run: the compiler accepts it, and no error is left. -/
def isRun (h : List LifeOp) : LifeOp → Bool
  | .execute _ t => !refused h && t.res == .accepted
  | _ => false

/-- How many texts were run. -/
def textsRun (h : List LifeOp) : Nat := (places isRun h).length

/-- `YASL_compile` of a text that is accepted. -/
def isCompiled (h : List LifeOp) : LifeOp → Bool
  | .compile t => !refused h && t.res == .accepted
  | _ => false

/-- How often code was made by `YASL_compile`, which keeps it nowhere. -/
def onlyCompiled (h : List LifeOp) : Nat := (places isCompiled h).length

/-- An error of the parser, except for `YASL_execute_REPL`. -/
def isSyntaxError (_ : List LifeOp) : LifeOp → Bool
  | .execute false t => t.res == .syntaxError
  | .compile t => t.res == .syntaxError
  | _ => false

/-- How many texts could not be parsed. -/
def syntaxErrors (h : List LifeOp) : Nat := (places isSyntaxError h).length

/-- `YASL_resetstate_bb` was called when text `i` was the last one that had been run. -/
def codeFreed (h : List LifeOp) (i : Nat) : Bool := (places (fun a o => o == .resetBB && textsRun a == i + 1) h).length != 0

/-- The texts whose functions are called at a place. -/
def uses (h : List LifeOp) : LifeOp → List Nat
  | .call i => [i]
  | .execute r t => if isRun h (.execute r t) then t.calls else []
  | _ => []

/-- Functions are called only if they were made by a text whose code was not freed since. -/
def CallsKept (h : List LifeOp) : Prop :=
  ∀ k o, h[k]? = some o → ∀ i ∈ uses (h.take k) o, i < textsRun (h.take (k + 1)) ∧ codeFreed (h.take k) i = false

/-- Every function called was made by a text that was run before, or by the text that calls it: what any host can do. -/
def CallsExist (h : List LifeOp) : Prop :=
  ∀ k o, h[k]? = some o → ∀ i ∈ uses (h.take k) o, i < textsRun (h.take (k + 1))

/-- Texts that were run, are not the last one, and whose code was not freed. -/
def codeOverwritten (h : List LifeOp) : Nat := ((List.range (textsRun h - 1)).filter fun i => !codeFreed h i).length

/-- What is collected from these places. -/
def collected (p : List LifeOp → LifeOp → Bool) (f : LifeOp → List Nat) (h : List LifeOp) : List Nat :=
  ((places p h).map fun k => match h[k]? with
    | some o => f o
    | none => []).flatten

/-- What a text writes when it is run. -/
def outOf : LifeOp → List Nat
  | .execute _ t => t.out
  | _ => []

/-- The reports of errors during the run. -/
def errOf : LifeOp → List Nat
  | .execute _ t => t.err
  | _ => []

/-- The report of the compiler. -/
def reportOf : LifeOp → List Nat
  | .execute _ t => t.report
  | .compile t => t.report
  | _ => []

/-- A text is refused. -/
def isRefused : LifeOp → Bool
  | .execute _ t => t.res != .accepted
  | .compile t => t.res != .accepted
  | _ => false

/-- The output of the texts that were run after `YASL_setprintout_tostr` was called. -/
def outputCaptured (h : List LifeOp) : List Nat := collected (fun a o => isRun a o && a.contains .captureOut) outOf h

/-- The reports of errors during the runs after `YASL_setprinterr_tostr` was called. -/
def runErrorsCaptured (h : List LifeOp) : List Nat := collected (fun a o => isRun a o && a.contains .captureErr) errOf h

/-- The reports of the compiler after `YASL_setprinterr_tostr` was called. -/
def reportsCaptured (h : List LifeOp) : List Nat := collected (fun a o => isRefused o && a.contains .captureErr) reportOf h

/-- The part of a history since the source was changed. -/
def sinceReset (h : List LifeOp) : List LifeOp := (h.reverse.takeWhile fun o => o != .resetBB && o != .resetFile true).reverse

end LifeSpec
end Yasl
