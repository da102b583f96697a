import Verif.Proofs.Match
import Verif.Props.Pattern
set_option autoImplicit false
/-!
# `match` statements: C77

`selectClause` (in `Verif.Spec.Match`) says which clause is taken and what its body sees.  `vars` variables exist around the statement; the value that is matched is on the stack
above them.
-/
namespace Yasl

/-- The machine before the statement. -/
def MatchState.start (vars : Nat) (stack : Nat → Val) : MatchState := { len := vars + 1, stack := stack, log := [] }

/-- **C77** (partial: patterns as in `C54_match_partial`; guards only on clauses without variables or as `let x if ...` before the last clause, see `C77_guard_fails` and
`C77_last_guard`; some clause is taken, see `C77_no_clause`.)  Exactly the first clause that matches and whose guard is true is run; its body sees the variables around the
statement and those of the pattern; after the statement the variables around it are as before and nothing else is on the stack. -/
theorem C77_match_partial (H : Heap) (K : List Val) (ix : Val → Nat) (vars : Nat) (cs : List Clause) (hok : ∀ c ∈ cs, ClauseOk K ix vars c) (hg : GuardsSafe vars cs) :
    ∃ d, ∀ F, d ≤ F → ∀ stack r, selectClause H vars (stack vars) stack 0 cs = some r →
      ∃ s, runMatch H K ix F (compileMatch vars cs) (.start vars stack) = some s ∧ s.log = [r] ∧ s.len = vars ∧ ∀ t, t < vars → s.stack t = stack t := by
  refine ⟨(cs.map fun c => c.pat.depth).foldr max 0, fun F hF stack r hr => ?_⟩
  have hd : ∀ c ∈ cs, c.pat.depth ≤ F := by
    have : ∀ (l : List Nat) (x : Nat), x ∈ l → x ≤ l.foldr max 0 := fun l => by
      induction l with
      | nil => simp
      | cons a l ih =>
        intro x hx
        rw [List.foldr_cons]
        rcases List.mem_cons.1 hx with rfl | h
        · exact Nat.le_max_left _ _
        · exact Nat.le_trans (ih x h) (Nat.le_max_right _ _)
    exact fun c hc => Nat.le_trans (this _ _ (List.mem_map.2 ⟨c, hc, rfl⟩)) hF
  obtain ⟨s, h1, h2⟩ := clauses_run (H := H) (F := F) (v := stack vars) (base := stack) cs 0 (.start vars stack) [] ⟨rfl, rfl, fun _ _ => rfl, rfl⟩ hok hg hd
  rw [hr] at h2
  have hne : ¬ cs.length = 0 := fun h => by
    rw [List.length_eq_zero_iff.1 h] at hr; simp [selectClause] at hr
  exact ⟨s, by rw [compileMatch, if_neg hne]; exact h1, h2.log, h2.len, h2.below⟩

/-- **C77 fails** when no clause is taken: nothing is run, but the value that was matched stays on the stack. -/
theorem C77_no_clause (H : Heap) (K : List Val) (ix : Val → Nat) (vars : Nat) (cs : List Clause) (hok : ∀ c ∈ cs, ClauseOk K ix vars c) (hg : GuardsSafe vars cs) (hne : cs ≠ []) :
    ∃ d, ∀ F, d ≤ F → ∀ stack, selectClause H vars (stack vars) stack 0 cs = none →
      ∃ s, runMatch H K ix F (compileMatch vars cs) (.start vars stack) = some s ∧ s.log = [] ∧ s.len = vars + 1 := by
  refine ⟨(cs.map fun c => c.pat.depth).foldr max 0, fun F hF stack hr => ?_⟩
  have hd : ∀ c ∈ cs, c.pat.depth ≤ F := by
    have : ∀ (l : List Nat) (x : Nat), x ∈ l → x ≤ l.foldr max 0 := fun l => by
      induction l with
      | nil => simp
      | cons a l ih =>
        intro x hx
        rw [List.foldr_cons]
        rcases List.mem_cons.1 hx with rfl | h
        · exact Nat.le_max_left _ _
        · exact Nat.le_trans (ih x h) (Nat.le_max_right _ _)
    exact fun c hc => Nat.le_trans (this _ _ (List.mem_map.2 ⟨c, hc, rfl⟩)) hF
  obtain ⟨s, h1, h2⟩ := clauses_run (H := H) (F := F) (v := stack vars) (base := stack) cs 0 (.start vars stack) [] ⟨rfl, rfl, fun _ _ => rfl, rfl⟩ hok hg hd
  rw [hr] at h2
  exact ⟨s, by rw [compileMatch, if_neg (by simpa using hne)]; exact h1, h2.1.log, h2.1.len⟩

/-! ## Examples and counterexamples -/

/-- `match v { 1 {}  let x if x is a number {}  [let a, let b] {}  * {} }` with two variables around it. -/
def demoClauses : List Clause := [
  { pat := .lit (.int 1), binds := 0, guard := none },
  { pat := .bind 2, binds := 1, guard := some fun l => .bool ((l.getD 2 .undef).isNum) },
  { pat := .ls false (.cons (.bind 2) (.cons (.bind 3) .nil)), binds := 2, guard := none },
  { pat := .any, binds := 0, guard := none }]

example : (∀ c ∈ demoClauses, ClauseOk demoConsts demoIx 2 c) ∧ GuardsSafe 2 demoClauses := by
  constructor
  · intro c hc
    simp only [demoClauses, List.mem_cons, List.not_mem_nil, or_false] at hc
    rcases hc with rfl | rfl | rfl | rfl <;> refine ⟨?_, ?_, ?_, ?_, ?_, ?_⟩ <;>
      simp [Pat.Balanced, Pats.Balanced, Pat.PlainLeft, Pats.PlainLeft, Pat.Sized, Pats.Sized, Pats.length, Pat.lits, Pats.lits, Pat.vars, Pats.vars, Pat.sure, Pats.sure, Numbered] <;>
      first | decide | omega
  · simp [demoClauses, GuardsSafe]

def demoStack : Nat → Val
  | 0 => .int 10
  | 1 => .int 11
  | 2 => .ref .list 0
  | _ => .undef

example : selectClause demoHeap 2 (demoStack 2) demoStack 0 demoClauses = some (2, [.int 10, .int 11, .int 7, .int 3]) := by decide +kernel

/-- **C77 fails** for `match [7, 3] { [let a, let b] if false {}  [*, *] {} }`: the second clause matches, but is not run: after the guard the machine matches 7. -/
theorem C77_guard_fails : let cs : List Clause := [{ pat := .ls false (.cons (.bind 2) (.cons (.bind 3) .nil)), binds := 2, guard := some fun _ => .bool false },
      { pat := .ls false (.cons .any (.cons .any .nil)), binds := 0, guard := none }]
    (∀ c ∈ cs, ClauseOk demoConsts demoIx 2 c) ∧ selectClause demoHeap 2 (demoStack 2) demoStack 0 cs = some (1, [.int 10, .int 11]) ∧
    (runMatch demoHeap demoConsts demoIx 5 (compileMatch 2 cs) (.start 2 demoStack)).map MatchState.log = some [] := by
  refine ⟨?_, by decide +kernel, by decide +kernel⟩
  intro c hc
  simp only [List.mem_cons, List.not_mem_nil, or_false] at hc
  rcases hc with rfl | rfl <;> refine ⟨?_, ?_, ?_, ?_, ?_, ?_⟩ <;>
    simp [Pat.Balanced, Pats.Balanced, Pat.PlainLeft, Pats.PlainLeft, Pat.Sized, Pats.Sized, Pats.length, Pat.lits, Pats.lits, Pat.vars, Pats.vars, Pat.sure, Pats.sure, Numbered] <;>
    first | decide | omega

/-- **C77 fails** for `match v { let x if true {} }`: the clause is run, but a variable around the statement is gone afterwards. -/
theorem C77_last_guard : let cs : List Clause := [{ pat := .bind 2, binds := 1, guard := some fun _ => .bool true }]
    selectClause demoHeap 2 (demoStack 2) demoStack 0 cs = some (0, [.int 10, .int 11, .ref .list 0]) ∧
    (runMatch demoHeap demoConsts demoIx 5 (compileMatch 2 cs) (.start 2 demoStack)).map MatchState.len = some 1 := by
  refine ⟨by decide +kernel, by decide +kernel⟩

end Yasl
