import Verif.Proofs.SessionKept
import Verif.Proofs.SessionConst
set_option autoImplicit false
/-!
# C109: several texts, one after the other
-/
namespace Yasl

/-- What may be given to a state, and what the compiler says: a text that respects the limits and is accepted, and, unless it is the last, leaves no local variables on the stack
(see `C109_locals_stay`); or a line at the prompt that is refused and declares nothing outside of blocks (see `C109_refused_declares`). -/
def Session.Plan : List Given → CState → Prop
  | [], _ => True
  | g :: gs, c =>
    ((∃ image, (g.build c).2 = some image ∧ image.length < 2 ^ 63 ∧ g.bad = false ∧ FitsEntry g.how g.stmts ∧ (gs = [] ∨ g.how = .prompt ∨ Quiet g.stmts)) ∨
      ((g.build c).2 = none ∧ g.how = .prompt ∧ Quiet g.stmts)) ∧ Session.Plan gs (g.build c).1

/-- The texts that are accepted. -/
def acceptedTexts : List Given → CState → List (Entry × Stmts)
  | [], _ => []
  | g :: gs, c => (if (g.build c).2.isSome then [(g.how, g.stmts)] else []) ++ acceptedTexts gs (g.build c).1

/-- The answers if nothing fails: accepted texts run to their end. -/
def expectedAnswers : List Given → CState → List Answer
  | [], _ => []
  | g :: gs, c => (if (g.build c).2.isSome then .stopped .halt else .refused) :: expectedAnswers gs (g.build c).1

section
variable {W : Type} {F : FloatOps} {P : Prims W}

theorem gives_spec (hP : P.NoEnd) (fuel : Nat) : ∀ (gs : List Given) (s : Session W), s.Clean → Session.Plan gs s.comp →
    match execEntries F P fuel (acceptedTexts gs s.comp) s.state with
    | (t, .normal) => ∃ ks s', ks.length = gs.length ∧ Session.gives F P (gs.zip ks) s = (s', expectedAnswers gs s.comp) ∧
        s'.vm.out = t.out ∧ s'.vm.globals = t.globals ∧ s'.vm.world = t.world ∧ s'.vm.stack = t.env.map Prod.snd
    | (t, .err e) => ∃ n ks s', ks.length = n + 1 ∧ n < gs.length ∧ Session.gives F P (gs.zip ks) s = (s', (expectedAnswers gs s.comp).take n ++ [.stopped e]) ∧
        s'.vm.out = t.out ∧ s'.vm.globals = t.globals ∧ s'.vm.world = t.world
    | (_, .timeout) => ∃ n ks k s', ks.length = n ∧ n < gs.length ∧ fuel ≤ k ∧
        Session.gives F P (gs.zip (ks ++ [k])) s = (s', (expectedAnswers gs s.comp).take n ++ [.running])
    | _ => False
  | [], s, hs, hp => ⟨[], s, rfl, rfl, rfl, rfl, rfl, by simp [Session.state, hs.stack]⟩
  | g :: gs, s, hs, hp => by
    obtain ⟨hg, hp⟩ := hp
    have hgives : ∀ (k : Nat) (ks : List Nat) (s1 : Session W) (a : Answer), s.give F P g k = (s1, a) →
        Session.gives F P ((g :: gs).zip (k :: ks)) s = ((Session.gives F P (gs.zip ks) s1).1, a :: (Session.gives F P (gs.zip ks) s1).2) := by
      intro k ks s1 a h
      simp only [List.zip_cons_cons, Session.gives, h]
    rcases hbu : g.build s.comp with ⟨c, im⟩
    rw [hbu] at hg hp
    simp only at hg hp
    have rest : ∀ (s1 : Session W) (k0 : Nat) (a : Answer) (t0 : PState W), s.give F P g k0 = (s1, a) → s1.Clean → s1.comp = c → s1.state = t0 → a = (if im.isSome then .stopped .halt else .refused) →
        match execEntries F P fuel (acceptedTexts gs c) t0 with
        | (t, .normal) => ∃ ks s', ks.length = (g :: gs).length ∧ Session.gives F P ((g :: gs).zip ks) s = (s', expectedAnswers (g :: gs) s.comp) ∧
            s'.vm.out = t.out ∧ s'.vm.globals = t.globals ∧ s'.vm.world = t.world ∧ s'.vm.stack = t.env.map Prod.snd
        | (t, .err e) => ∃ n ks s', ks.length = n + 1 ∧ n < (g :: gs).length ∧ Session.gives F P ((g :: gs).zip ks) s = (s', (expectedAnswers (g :: gs) s.comp).take n ++ [.stopped e]) ∧
            s'.vm.out = t.out ∧ s'.vm.globals = t.globals ∧ s'.vm.world = t.world
        | (_, .timeout) => ∃ n ks k s', ks.length = n ∧ n < (g :: gs).length ∧ fuel ≤ k ∧
            Session.gives F P ((g :: gs).zip (ks ++ [k])) s = (s', (expectedAnswers (g :: gs) s.comp).take n ++ [.running])
        | _ => False := by
      intro s1 k0 a t0 h1 h2 h3 h4 h5
      have ih := gives_spec hP fuel gs s1 h2 (by rw [h3]; exact hp)
      rw [h3, h4] at ih
      have he : expectedAnswers (g :: gs) s.comp = a :: expectedAnswers gs c := by simp only [expectedAnswers, hbu, h5]
      rw [he]
      rcases hx : execEntries F P fuel (acceptedTexts gs c) t0 with ⟨t, sig⟩
      rw [hx] at ih
      cases sig with
      | normal =>
        obtain ⟨ks, s', e1, e2, e3⟩ := ih
        refine ⟨k0 :: ks, s', by simp [e1], ?_, e3⟩
        rw [hgives k0 ks s1 a h1, e2]
      | err e =>
        obtain ⟨n, ks, s', e1, e2, e3, e4⟩ := ih
        refine ⟨n + 1, k0 :: ks, s', by simp [e1], by simp [e2], ?_, e4⟩
        rw [hgives k0 ks s1 a h1, e3]; rfl
      | timeout =>
        obtain ⟨n, ks, k, s', e1, e2, e3, e4⟩ := ih
        refine ⟨n + 1, k0 :: ks, k, s', by simp [e1], by simp [e2], e3, ?_⟩
        rw [List.cons_append, hgives k0 (ks ++ [k]) s1 a h1, e4]; rfl
      | brk => exact ih
      | cont => exact ih
    rcases hg with ⟨image, hi, hlen, hbad, hF, hleft⟩ | ⟨hi, hh, hq⟩
    · subst hi
      have hone := give_spec (F := F) (P := P) hP s hs g hbad hF c image hbu hlen fuel
      have ha : acceptedTexts (g :: gs) s.comp = (g.how, g.stmts) :: acceptedTexts gs c := by simp [acceptedTexts, hbu]
      rw [ha, execEntries]
      rcases hx : execEntry F P fuel g.how g.stmts s.state with ⟨t, sig⟩
      rw [hx] at hone
      cases sig with
      | normal =>
        obtain ⟨k, s1, e1, e2, e3, e4, e5, e6, e7, e8⟩ := hone
        show match execEntries F P fuel (acceptedTexts gs c) t with
          | (t, .normal) => _
          | (t, .err e) => _
          | (_, .timeout) => _
          | _ => False
        by_cases hgs : gs = []
        · subst hgs
          refine ⟨[k], s1, rfl, ?_, e2, e3, e4, e5⟩
          rw [hgives k [] s1 _ e1]
          simp [Session.gives, expectedAnswers, hbu]
        · have henv : t.env = [] := e8 (hleft.resolve_left hgs)
          have hst : s1.state = t := by
            unfold Session.state
            rw [e2, e3, e4, ← henv]
          exact rest s1 k _ t e1 (e6 henv) e7 hst rfl
      | err e =>
        obtain ⟨k, s1, e1, e2, e3, e4⟩ := hone
        refine ⟨0, [k], s1, rfl, by simp, ?_, e2, e3, e4⟩
        rw [hgives k [] s1 _ e1]
        simp [Session.gives]
      | timeout =>
        obtain ⟨k, s1, hk, e1⟩ := hone
        refine ⟨0, [], k, s1, rfl, by simp, hk, ?_⟩
        rw [List.nil_append, hgives k [] s1 _ e1]
        simp [Session.gives]
      | brk => exact hone
      | cont => exact hone
    · subst hi
      obtain ⟨s1, e1, e2, e3⟩ := refused_spec s hs g hh hq (by rw [hbu]) F P 0
      have ha : acceptedTexts (g :: gs) s.comp = acceptedTexts gs c := by simp [acceptedTexts, hbu]
      rw [ha]
      have hc : s1.comp = c := by
        unfold Session.give at e1
        rw [hbu] at e1
        simp only [Prod.mk.injEq] at e1
        rw [← e1.1]
      exact rest s1 0 _ s.state e1 e2 hc e3 rfl

/-- C109: a state is given any number of texts, one after the other, by `YASL_execute` or at the prompt.  Running them does what they mean one after the other, with the
values of global variables kept from one to the next and the refused ones left out:

- if all end, the answers are as expected, and output, global variables and the state of the world are those the texts mean;
- if one fails, the ones before have been answered as expected and this one with the error, with the output, the globals and the world at that moment;
- if one is still running after `fuel` rounds of a loop, the machine is still running after at least that many steps.

Missing (`Session.Plan`): texts that are run after one which left local variables at the top level, after a run-time error, after a refused line that declared something, or
after a file with a syntax error, where it is false; and programs that do not respect the limits of C29. -/
theorem C109_session_partial (F : FloatOps) (P : Prims W) (hP : P.NoEnd) (globals : List Name) (G : Name → Option Val) (hG : ∀ x ∈ globals, G x ≠ none)
    (hE : ∀ x v, G x = some v → v ≠ .end_) (w : W) (texts : List Given) (hT : Session.Plan texts (Session.start globals G w).comp) (fuel : Nat) :
    match execEntries F P fuel (acceptedTexts texts (Session.start globals G w).comp) ⟨[], G, w, []⟩ with
    | (t, .normal) => ∃ ks s', ks.length = texts.length ∧
        Session.gives F P (texts.zip ks) (Session.start globals G w) = (s', expectedAnswers texts (Session.start globals G w).comp) ∧
        s'.vm.out = t.out ∧ s'.vm.globals = t.globals ∧ s'.vm.world = t.world ∧ s'.vm.stack = t.env.map Prod.snd
    | (t, .err e) => ∃ n ks s', ks.length = n + 1 ∧ n < texts.length ∧
        Session.gives F P (texts.zip ks) (Session.start globals G w) = (s', (expectedAnswers texts (Session.start globals G w).comp).take n ++ [.stopped e]) ∧
        s'.vm.out = t.out ∧ s'.vm.globals = t.globals ∧ s'.vm.world = t.world
    | (_, .timeout) => ∃ n ks k s', ks.length = n ∧ n < texts.length ∧ fuel ≤ k ∧
        Session.gives F P (texts.zip (ks ++ [k])) (Session.start globals G w) = (s', (expectedAnswers texts (Session.start globals G w).comp).take n ++ [.running])
    | _ => False := by
  obtain ⟨hgo, hge, hgs, hgb, hgc, hgh⟩ := declGlobals_spec globals CState.initial (by simp [PoolOk, CState.initial, Scope.get])
    (by simp [CState.HOk, CState.initial])
  refine gives_spec hP fuel texts (Session.start globals G w) ⟨hgs, hgc, hgo, hgh, rfl, rfl, rfl, ?_, hE⟩ hT
  intro x hx
  rcases hge x hx with h | h
  · exact hG x h
  · simp [CState.initial, Scope.get] at h

/-- C109: a constant of the prompt stays one.  When `const x = …` was accepted, a line that assigns to `x` outside of blocks is refused, whatever was given in between (but for
files with syntax errors, which leave a scope: `C109_syntax_error_stays`) and whatever became of it. -/
theorem C109_constants (F : FloatOps) (P : Prims W) (s : Session W) (hs : s.comp.scopes = []) (hl : s.comp.globals.length < 2 ^ 63)
    (x : Name) (values : Exprs) (lines : List Byte) (k : Nat)
    (hacc : (s.give F P ⟨.prompt, .of [.decl [.const_ x] values], false, lines⟩ k).2 ≠ .refused)
    (between : List (Given × Nat)) (hb : ∀ g ∈ between, g.1.how = .prompt ∨ g.1.bad = false)
    (line : Given) (hh : line.how = .prompt) (hx : line.stmts.assign x) (k' : Nat) :
    ((Session.gives F P between (s.give F P ⟨.prompt, .of [.decl [.const_ x] values], false, lines⟩ k).1).1.give F P line k').2 = .refused := by
  have hk := CKept.gives (x := x) F P between (s.give F P ⟨.prompt, .of [.decl [.const_ x] values], false, lines⟩ k).1 hb
  have h1 : CKept x s.comp (Given.build ⟨.prompt, .of [.decl [.const_ x] values], false, lines⟩ s.comp).1 := CKept.build _ _ (.inl rfl)
  rw [give_comp] at hk
  generalize (Session.gives F P between (s.give F P ⟨.prompt, .of [.decl [.const_ x] values], false, lines⟩ k).1).1 = s2 at hk
  have hd : s2.comp.scopes = [] := List.length_eq_zero_iff.1 (by rw [hk.depth, h1.depth, hs]; rfl)
  have hv : ∃ v, s2.comp.globals.get x = some v ∧ isConst v = true := by
    have hok : (visitStmt (.decl [.const_ x] values) s.comp.reset).ok = true := by
      by_contra hn
      apply hacc
      have e : (Given.build ⟨.prompt, .of [.decl [.const_ x] values], false, lines⟩ s.comp).2 = none := by
        have hc : (compileAll (Stmts.cons (.decl [.const_ x] values) .nil) s.comp.reset []).1.ok = false := by
          rw [compileAll, compileAll]; simpa using hn
        simp only [Given.build, Stmts.of, Stmts.echoLast, Bool.false_eq_true, if_false, hc]
      unfold Session.give
      rcases hgb : Given.build ⟨.prompt, .of [.decl [.const_ x] values], false, lines⟩ s.comp with ⟨c, im⟩
      rw [hgb] at e
      obtain rfl : im = none := e
      rfl
    obtain ⟨v, hv, hc⟩ := visit_const x values s.comp.reset hs hl hok
    exact ⟨v, hk.const v hv hc, hc⟩
  obtain ⟨v, hv, hc⟩ := hv
  have hb2 : (line.build s2.comp).2 = none := by
    rcases line with ⟨how, ss, bad, ls⟩
    obtain rfl : how = .prompt := hh
    cases bad with
    | true => rfl
    | false =>
      have := compileAll_const ss.echoLast s2.comp.reset [] v hd hv hc (Stmts.assign_echoLast ss hx)
      simp only [Given.build, Bool.false_eq_true, if_false, this]
  unfold Session.give
  rcases hgb : line.build s2.comp with ⟨c, im⟩
  rw [hgb] at hb2
  obtain rfl : im = none := hb2
  rfl

end

/-! ## Cases -/

/-- A text without syntax errors. -/
def Given.text (how : Entry) (ss : List Stmt) : Given := ⟨how, .of ss, false, []⟩

/-- Give texts to a new state: the answers and what was printed. -/
def demoGive (texts : List Given) : List Answer × List Byte :=
  let r := Session.gives demoFloat demoPrims (texts.map fun g => (g, 200)) (Session.start [] (fun _ => none) ())
  (r.2, r.1.vm.out)

/-- What the texts mean. -/
def demoTexts (texts : List Given) : List Byte × Sig :=
  let r := execEntries demoFloat demoPrims 10 (texts.map fun g => (g.how, g.stmts)) ⟨[], fun _ => none, (), []⟩
  (r.1.out, r.2)

/-- `let x = 1`, `y` (refused), `x = x + 4; if true { let z = x; echo z; }`, `const c, d = x, 2`, `c + d` -/
def demoSession : List Given := [.text .prompt [.decl [.let_ [120]] (.cons (.int 1) .nil)], .text .prompt [.expr (.var [121])],
  .text .prompt [.assign [120] (.bin (.op .add) (.var [120]) (.int 4)),
    .ifThen (.bool true) (.block (.of [.decl [.let_ [122]] (.cons (.var [120]) .nil), .echo (.var [122])]))],
  .text .prompt [.decl [.const_ [99], .const_ [100]] (.cons (.var [120]) (.cons (.int 2) .nil))],
  .text .prompt [.expr (.bin (.op .add) (.var [99]) (.var [100]))]]

/-- the hypotheses are met by a session at the prompt: its lines are accepted but for the second, and it prints 5 and 7 -/
example : Session.Plan demoSession (Session.start (W := Unit) [] (fun _ => none) ()).comp ∧
    demoGive demoSession = ([.stopped .halt, .refused, .stopped .halt, .stopped .halt, .stopped .halt], [53, 10, 55, 10]) := by
  refine ⟨?_, by decide +kernel⟩
  refine ⟨.inl ⟨_, (by rfl : (Given.build _ _).2 = some _), by decide +kernel, rfl, ?_, .inr (.inl rfl)⟩, .inr ⟨by decide +kernel, rfl, ?_⟩,
    .inl ⟨_, (by rfl : (Given.build _ _).2 = some _), by decide +kernel, rfl, ?_, .inr (.inl rfl)⟩,
    .inl ⟨_, (by rfl : (Given.build _ _).2 = some _), by decide +kernel, rfl, ?_, .inr (.inl rfl)⟩,
    .inl ⟨_, (by rfl : (Given.build _ _).2 = some _), by decide +kernel, rfl, ?_, .inr (.inl rfl)⟩, trivial⟩ <;>
  simp [Given.text, Quiet, FitsEntry, FitsLine, FitsPrompt, declared, Stmts.of, FitsAll, Fits, FitsL, FitsE, WfE, WfEs, needE, needEs, stackLimit, maxLocals, Stmt.declares,
    LVal.declares, Exprs.length]

/-- `const c = 5`, `let x = c; if true { let c = 1; c = 2; }`, `x, c = 1, 2` (refused), `c = 6` (refused), `c` -/
example : (demoGive [.text .prompt [.decl [.const_ [99]] (.cons (.int 5) .nil)],
    .text .prompt [.decl [.let_ [120]] (.cons (.var [99]) .nil), .ifThen (.bool true) (.block (.of [.decl [.let_ [99]] (.cons (.int 1) .nil), .assign [99] (.int 2)]))],
    .text .prompt [.decl [.assign [120], .assign [99]] (.cons (.int 1) (.cons (.int 2) .nil))], .text .prompt [.assign [99] (.int 6)], .text .prompt [.expr (.var [99])]]) =
    ([.stopped .halt, .stopped .halt, .refused, .refused, .stopped .halt], [53, 10]) ∧
    (Stmts.of [.decl [.assign [120], .assign [99]] (.cons (.int 1) (.cons (.int 2) .nil))]).assign [99] := by
  refine ⟨by decide +kernel, ?_⟩
  simp [Stmts.of, Stmts.assign, Stmt.assigns]

/-- C109 is false: `YASL_execute` leaves the local variables of the top level on the stack.  After `let x = 1`, `let y = 2; echo y` prints 1: `y` is read from the slot of `x`. -/
theorem C109_locals_stay :
    demoTexts [.text .file [.decl [.let_ [120]] (.cons (.int 1) .nil)], .text .file [.decl [.let_ [121]] (.cons (.int 2) .nil), .echo (.var [121])]] = ([50, 10], .normal) ∧
    demoGive [.text .file [.decl [.let_ [120]] (.cons (.int 1) .nil)], .text .file [.decl [.let_ [121]] (.cons (.int 2) .nil), .echo (.var [121])]] =
      ([.stopped .halt, .stopped .halt], [49, 10]) := by
  refine ⟨?_, ?_⟩ <;> decide +kernel

/-- C109 is false: a run-time error leaves what was on the stack there.  At the prompt, after `if true { let x = 1; 1 // 0; }` failed, `let y = 2` gives `y` the value
at the bottom of the stack, and `y` prints 1. -/
theorem C109_error_stays :
    demoGive [.text .prompt [.ifThen (.bool true) (.block (.of [.decl [.let_ [120]] (.cons (.int 1) .nil), .expr (.bin (.op .idiv) (.int 1) (.int 0))]))],
      .text .prompt [.decl [.let_ [121]] (.cons (.int 2) .nil)], .text .prompt [.expr (.var [121])]] =
      ([.stopped .divZero, .stopped .halt, .stopped .halt], [49, 10]) ∧
    demoTexts [.text .prompt [.decl [.let_ [121]] (.cons (.int 2) .nil)], .text .prompt [.expr (.var [121])]] = ([50, 10], .normal) := by
  refine ⟨?_, ?_⟩ <;> decide +kernel

/-- C109 is false: a line that is refused declares its variables all the same.  After `let x = y` was refused because `y` is not declared, `let x = 1` is refused too, and
`let z = x` is accepted: it reads a global variable that has no value. -/
theorem C109_refused_declares :
    demoGive [.text .prompt [.decl [.let_ [120]] (.cons (.var [121]) .nil)], .text .prompt [.decl [.let_ [120]] (.cons (.int 1) .nil)]] = ([.refused, .refused], []) ∧
    demoGive [.text .prompt [.decl [.let_ [122]] (.cons (.var [120]) .nil)]] = ([.refused], []) ∧
    demoGive [.text .prompt [.decl [.let_ [120]] (.cons (.var [121]) .nil)], .text .prompt [.decl [.let_ [122]] (.cons (.var [120]) .nil)]] ≠ ([.refused, .refused], []) := by
  refine ⟨?_, ?_, ?_⟩ <;> decide +kernel

/-- C109 is false: a file with a syntax error leaves its scope.  After `let x = 1; )`, the variable `x` is visible in `echo x`, and `let y = 2; echo y` reads `y` from a slot
above the stack (`RtErr.other`: what an earlier program left there). -/
theorem C109_syntax_error_stays :
    (demoGive [⟨.file, .of [.decl [.let_ [120]] (.cons (.int 1) .nil)], true, []⟩, .text .file [.echo (.var [120])]]).1 = [.refused, .stopped .other] ∧
    (demoGive [.text .file [.echo (.var [120])]]).1 = [.refused] ∧
    (demoGive [⟨.file, .of [.decl [.let_ [120]] (.cons (.int 1) .nil)], true, []⟩, .text .file [.decl [.let_ [121]] (.cons (.int 2) .nil), .echo (.var [121])]]).1 =
      [.refused, .stopped .other] ∧
    demoGive [.text .file [.decl [.let_ [121]] (.cons (.int 2) .nil), .echo (.var [121])]] = ([.stopped .halt], [50, 10]) := by
  refine ⟨?_, ?_, ?_, ?_⟩ <;> decide +kernel

end Yasl
