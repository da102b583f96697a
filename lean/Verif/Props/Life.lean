import Verif.Proofs.Life
set_option autoImplicit false
/-! # C118: the memory of a state; C119: captured output -/
namespace Yasl
open LifeSpec

/-- **C118** (exactly): a history is carried out without use of freed memory if and only if every function that is called was made by a text whose code was not freed by
`YASL_resetstate_bb` since. -/
theorem C118_calls (h : List LifeOp) : (Life.new.runs h).isSome ↔ CallsKept h := by
  by_cases c : CallsKept h
  · obtain ⟨s, C, P, e, _⟩ := (life_known h).1 c; rw [e]; simp [c]
  · rw [(life_known h).2 c]; simp [c]

/-- **C118** (exactly): `YASL_delstate` frees nothing twice if and only if at most one text could not be parsed, and the code of the last text that was run was not
freed by `YASL_resetstate_bb`. -/
theorem C118_delete (h : List LifeOp) (s : Life) (e : Life.new.runs h = some s) :
    s.delete.isSome ↔ syntaxErrors h ≤ 1 ∧ codeFreed h (textsRun h - 1) = false := by
  have k : CallsKept h := (C118_calls h).1 (by rw [e]; rfl)
  obtain ⟨s', C, P, e', K⟩ := (life_known h).1 k
  rw [e] at e'; cases e'
  have D := life_delete K
  by_cases c : syntaxErrors h ≤ 1 ∧ codeFreed h (textsRun h - 1) = false
  · rw [if_pos c] at D; obtain ⟨m, e2, _⟩ := D; rw [e2]; simp [c]
  · rw [if_neg c] at D; rw [D]; simp only [Option.isSome_none, Bool.false_eq_true, false_iff]; exact c

/-- **C118** (exactly): the blocks that are never freed: the code of texts that was overwritten by the next text, the constants of every run but the last, and the code
`YASL_compile` made. -/
theorem C118_lost (h : List LifeOp) (s : Life) (m : LifeMem) (e : Life.new.runs h = some s) (d : s.delete = some m) :
    m.live.length = codeOverwritten h + (textsRun h - 1) + onlyCompiled h := by
  have k : CallsKept h := (C118_calls h).1 (by rw [e]; rfl)
  obtain ⟨s', C, P, e', K⟩ := (life_known h).1 k
  rw [e] at e'; cases e'
  have D := life_delete K
  by_cases c : syntaxErrors h ≤ 1 ∧ codeFreed h (textsRun h - 1) = false
  · rw [if_pos c] at D; obtain ⟨m', e2, l⟩ := D; rw [d] at e2; cases e2; exact l
  · rw [if_neg c] at D; rw [D] at d; cases d

/-- **C118** (part): a state that ran at most one text, had at most one text that could not be parsed, and whose code is still there, is deleted without a trace. -/
theorem C118_frees_all_partial (h : List LifeOp) (calls : CallsKept h) (runs : textsRun h ≤ 1) (compiled : onlyCompiled h = 0) (syn : syntaxErrors h ≤ 1)
    (kept : codeFreed h 0 = false) : ∃ s m, Life.new.runs h = some s ∧ s.delete = some m ∧ m.live = [] := by
  obtain ⟨s, e⟩ := Option.isSome_iff_exists.1 ((C118_calls h).2 calls)
  have h0 : textsRun h - 1 = 0 := by omega
  obtain ⟨m, d⟩ := Option.isSome_iff_exists.1 ((C118_delete h s e).2 ⟨syn, by rw [h0]; exact kept⟩)
  refine ⟨s, m, e, d, List.length_eq_zero_iff.1 ?_⟩
  rw [C118_lost h s m e d, compiled, h0]
  unfold codeOverwritten; rw [h0]; rfl

/-- **C118** (part): a host that gives each text with `YASL_resetstate_bb`, and whose texts are all accepted and call only their own functions, never frees a block twice,
however many texts there are; only the constants of the texts before the last are lost. -/
theorem C118_texts_partial (t : LifeText) (ts : List LifeText) (ok : ∀ u ∈ t :: ts, u.res = .accepted) (own : ∀ u ∈ t :: ts, u.calls = []) :
    ∃ s m, Life.new.runs (.execute false t :: ts.flatMap fun u => [.resetBB, .execute false u]) = some s ∧ s.delete = some m ∧ m.live.length = ts.length := by
  -- the facts about the history
  have F : ∀ us : List LifeText, (∀ u ∈ us, u.res = .accepted) → (∀ u ∈ us, u.calls = []) →
      let h := LifeOp.execute false t :: us.flatMap fun u => [LifeOp.resetBB, .execute false u]
      refused h = false ∧ textsRun h = us.length + 1 ∧ onlyCompiled h = 0 ∧ syntaxErrors h = 0 ∧ CallsKept h ∧ ∀ i, codeFreed h i = decide (i < us.length) := by
    intro us
    induction us using List.reverseRecOn with
    | nil =>
      intro _ _
      have a := ok t (List.mem_cons_self ..)
      have b := own t (List.mem_cons_self ..)
      have hr : refused [LifeOp.execute false t] = false := by simp [refused, a]
      refine ⟨hr, ?_, rfl, ?_, ?_, fun i => ?_⟩
      · show textsRun ([] ++ [LifeOp.execute false t]) = 1
        rw [textsRun_snoc]; simp [isRun, refused, a, textsRun, places]
      · show syntaxErrors ([] ++ [LifeOp.execute false t]) = 0
        rw [syntaxErrors_snoc]; simp [isSyntaxError, a, syntaxErrors, places]
      · show CallsKept ([] ++ [LifeOp.execute false t])
        rw [callsKept_snoc]; exact ⟨fun k o e => by simp at e, fun i m => by simp [uses, b] at m⟩
      · show codeFreed ([] ++ [LifeOp.execute false t]) i = _
        rw [codeFreed_other (by simp)]; simp [codeFreed, places]
    | append_singleton us u ih =>
      intro a b
      have au := a u (by simp)
      have bu := b u (by simp)
      obtain ⟨i1, i2, i3, i4, i5, i6⟩ := ih (fun v m => a v (by simp [m])) (fun v m => b v (by simp [m]))
      have eh : (LifeOp.execute false t :: (us ++ [u]).flatMap fun u => [LifeOp.resetBB, .execute false u]) =
          ((LifeOp.execute false t :: us.flatMap fun u => [LifeOp.resetBB, .execute false u]) ++ [.resetBB]) ++ [.execute false u] := by simp
      intro h
      show refused h = _ ∧ _
      rw [show h = _ from eh]
      generalize hg : (LifeOp.execute false t :: us.flatMap fun u => [LifeOp.resetBB, .execute false u]) = g at *
      have r1 : refused (g ++ [.resetBB]) = false := by rw [refused_snoc]
      have ir : isRun (g ++ [.resetBB]) (.execute false u) = true := by simp [isRun, r1, au]
      have n1 : textsRun (g ++ [.resetBB]) = us.length + 1 := by rw [textsRun_snoc, i2]; rfl
      refine ⟨?_, ?_, ?_, ?_, ?_, fun i => ?_⟩
      · rw [refused_snoc]; simp [r1, au]
      · rw [textsRun_snoc, n1, ir]; simp
      · rw [onlyCompiled_snoc, onlyCompiled_snoc, i3]; rfl
      · rw [syntaxErrors_snoc, syntaxErrors_snoc, i4]; simp [isSyntaxError, au]
      · rw [callsKept_snoc, callsKept_snoc]
        exact ⟨⟨i5, fun i m => by simp [uses] at m⟩, fun i m => by simp [uses, bu] at m⟩
      · rw [codeFreed_other (by simp), codeFreed_snoc, i6, i2]
        simp only [List.length_append, List.length_singleton, BEq.rfl, Bool.true_and]
        by_cases c : i < us.length
        · simp [c]; omega
        · by_cases c2 : i = us.length
          · simp [c2]
          · have : ¬ i < us.length + 1 := by omega
            simp [c, this]; omega
  obtain ⟨_, n, c, sy, k, f⟩ := F ts (fun u m => ok u (List.mem_cons_of_mem _ m)) (fun u m => own u (List.mem_cons_of_mem _ m))
  generalize hg : (LifeOp.execute false t :: ts.flatMap fun u => [LifeOp.resetBB, .execute false u]) = g at *
  obtain ⟨s, e⟩ := Option.isSome_iff_exists.1 ((C118_calls g).2 k)
  obtain ⟨m, d⟩ := Option.isSome_iff_exists.1 ((C118_delete g s e).2 ⟨by omega, by rw [f, n]; simp⟩)
  refine ⟨s, m, e, d, ?_⟩
  have l := C118_lost g s m e d
  have z : codeOverwritten g = 0 := by
    unfold codeOverwritten
    rw [List.length_eq_zero_iff, List.filter_eq_nil_iff]
    intro i hi
    have := List.mem_range.1 hi
    rw [n] at this
    rw [f]; simp; omega
  rw [z, c, n] at l; simpa using l

/-- A text that is accepted. -/
def lifeGood (calls : List Nat) : LifeText := ⟨.accepted, [], calls, 0, [], []⟩
/-- A text that cannot be parsed. -/
def lifeBad : LifeText := ⟨.syntaxError, [83], [], 0, [], []⟩

/-- **C118** is false: a text is run, `YASL_resetstate_bb` gives the next one, which has an error (or is never run); `YASL_delstate` frees the code of the first text
a second time. -/
theorem C118_reset_counterexample : ∃ s, Life.new.runs [.execute false (lifeGood []), .resetBB, .execute false lifeBad] = some s ∧ s.delete = none := by
  refine ⟨_, rfl, ?_⟩; decide

/-- **C118** is false: after two texts that cannot be parsed, `YASL_delstate` frees a scope of the compiler twice. -/
theorem C118_scopes_counterexample : ∃ s, Life.new.runs [.execute false lifeBad, .resetBB, .execute false lifeBad] = some s ∧ s.delete = none := by
  refine ⟨_, rfl, ?_⟩; decide

/-- **C118** is false: a function made by the first line at the prompt is called in the second: its code was freed. -/
theorem C118_prompt_counterexample : CallsExist [.execute true (lifeGood []), .resetBB, .execute true (lifeGood [0])] ∧
    Life.new.runs [.execute true (lifeGood []), .resetBB, .execute true (lifeGood [0])] = none := by
  refine ⟨fun k o e i m => ?_, by decide⟩
  have hk : k < 3 := (List.getElem?_eq_some_iff.1 e).1
  have : k = 0 ∨ k = 1 ∨ k = 2 := by omega
  rcases this with rfl | rfl | rfl <;> simp at e <;> subst e <;> revert i <;> decide

/-- **C118** is false: the constants of the first of two texts are never freed. -/
theorem C118_constants_counterexample : ∃ s m, Life.new.runs [.execute false (lifeGood []), .resetBB, .execute false (lifeGood [])] = some s ∧ s.delete = some m ∧
    m.live.length = 1 := ⟨_, _, rfl, rfl, rfl⟩

-- a text that requires two modules and writes to captured output, and a host that calls its functions afterwards
example : ((Life.new.runs [.captureOut, .execute false ⟨.accepted, [], [0], 2, [104, 105, 10], []⟩, .call 0]).bind Life.delete).map (·.live) = some [] := by decide
-- the hypotheses of `C118_frees_all_partial`: an error of the compiler, a source given anew, a text that calls its function, a call from the host
example : textsRun [.execute false lifeBad, .resetFile true, .execute false (lifeGood [0]), .call 0] = 1 ∧
    syntaxErrors [.execute false lifeBad, .resetFile true, .execute false (lifeGood [0]), .call 0] = 1 ∧
    codeFreed [.execute false lifeBad, .resetFile true, .execute false (lifeGood [0]), .call 0] 0 = false ∧
    ((Life.new.runs [.execute false lifeBad, .resetFile true, .execute false (lifeGood [0]), .call 0]).bind Life.delete).map (·.live) = some [] := by decide
-- with a file instead of a buffer the code of the first text stays: its functions can be called
example : (Life.new.runs [.execute true (lifeGood []), .resetFile true, .execute true (lifeGood [0])]).isSome := by decide

/-! ## C119 -/

/-- **C119** (output): `YASL_loadprintout` pushes what the texts that were run wrote after `YASL_setprintout_tostr` was called, in order, whatever happened between. -/
theorem C119_output (h : List LifeOp) (s : Life) (e : Life.new.runs h = some s) : s.loadOut = outputCaptured h := (life_all h s e).2.out

/-- **C119** (part): `YASL_loadprinterr` pushes, if the compiler refused a text of the present source, its reports since `YASL_setprinterr_tostr` was called *for this
source*; otherwise the reports of errors of all runs since `YASL_setprinterr_tostr` was called. -/
theorem C119_errors_partial (h : List LifeOp) (s : Life) (e : Life.new.runs h = some s) :
    s.loadErr = if refused h then reportsCaptured (sinceReset h) else runErrorsCaptured h := by
  obtain ⟨⟨C, P, K⟩, T⟩ := life_all h s e
  unfold Life.loadErr
  rw [K.refused, T.lex, T.err]

/-- **C119** is false for errors: `YASL_setprinterr_tostr` is forgotten when the source is changed; the report of the compiler is not captured, and goes to the
terminal. -/
theorem C119_reset_counterexample : ∃ s, Life.new.runs [.captureErr, .resetBB, .execute false lifeBad] = some s ∧ reportsCaptured [.captureErr, .resetBB, .execute false lifeBad] = [83] ∧
    s.loadErr = [] ∧ s.terminal = [83] := ⟨_, rfl, by decide, by decide, by decide⟩

/-- **C119** is false for errors: what an accepted text wrote is not captured any more once the next one is refused: the reports of the run cannot be read. -/
theorem C119_hidden_counterexample : ∃ s, Life.new.runs [.captureErr, .execute false ⟨.accepted, [], [], 0, [], [69]⟩, .compile lifeBad] = some s ∧
    runErrorsCaptured [.captureErr, .execute false ⟨.accepted, [], [], 0, [], [69]⟩, .compile lifeBad] = [69] ∧ s.loadErr = [83] := ⟨_, rfl, by decide, by decide⟩

-- two texts with output captured from the second on, an error in the run of the second
example : ∃ s, Life.new.runs [.execute false ⟨.accepted, [], [], 0, [97], []⟩, .captureOut, .captureErr, .resetBB, .execute false ⟨.accepted, [], [], 1, [98, 99], [69]⟩] = some s ∧
    s.loadOut = [98, 99] ∧ s.loadErr = [69] ∧ s.terminal = [97] := ⟨_, rfl, by decide, by decide, by decide⟩

end Yasl
