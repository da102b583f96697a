import Verif.Model.Trace
import Verif.Spec.Trace
import Verif.Props.Calls
set_option autoImplicit false
/-!
# C116 — the report of an error names the calls that led to it
-/
namespace Yasl

/-- The calls over which the machine unwinds: all but those that were begun outside of all functions that are running. -/
def unwound : List Region → List Region
  | [] => []
  | r :: rs => if (r :: rs).any (·.called) then r :: unwound rs else []

theorem unwound_none : ∀ (rs : List Region), rs.any (·.called) = false → unwound rs = []
  | [], _ => rfl
  | r :: rs, h => by rw [unwound, h]; rfl

theorem fpOf_nonneg (base : List Val) : ∀ (rs : List Region), 0 ≤ fpOf base rs ↔ rs.any (·.called) = true
  | [] => by simp [fpOf]
  | r :: rs => by
    rw [fpOf, List.any_cons]
    by_cases h : r.called = true
    · rw [if_pos h, h]; simp
    · rw [if_neg h, fpOf_nonneg base rs]; simp [h]

theorem fpOf_neg (base : List Val) : ∀ (rs : List Region), rs.any (·.called) = false → fpOf base rs = -1
  | [], _ => rfl
  | r :: rs, h => by
    rw [List.any_cons, Bool.or_eq_false_iff] at h
    rw [fpOf, h.1, if_neg (by simp), fpOf_neg base rs h.2]

theorem fpOf_lt (base : List Val) : ∀ (rs : List Region), fpOf base rs < (Regions.valuesOf base rs).length
  | [] => by rw [fpOf]; omega
  | r :: rs => by
    have := fpOf_lt base rs
    simp only [fpOf, Regions.valuesOf, List.length_append, List.length_cons]
    by_cases h : r.called = true
    · rw [if_pos h]; omega
    · rw [if_neg h]; omega

theorem fpOf_le (base : List Val) (r : Region) (rs : List Region) : fpOf base rs ≤ fpOf base (r :: rs) := by
  have := fpOf_lt base rs
  rw [fpOf]
  by_cases h : r.called = true
  · rw [if_pos h]; omega
  · rw [if_neg h]; omega

/-- What is known while the frames are left. -/
structure Mach.Unw (n0 : Int) (base : List Val) (bl : List (Nat × Val)) (rs : List Region) (m : Mach) : Prop where
  fp : m.fp = fpOf base rs
  frames : m.frames = framesOf n0 base bl rs
  sp : m.fp ≤ m.sp ∧ m.sp < 1024

theorem Mach.Unw.exit {n0 : Int} {base : List Val} {bl : List (Nat × Val)} {r : Region} {rs : List Region} {m : Mach} (h : m.Unw n0 base bl (r :: rs))
    (hp : 0 ≤ m.fp) : ∃ m', m.exitFrame = .ok m' ∧ m'.Unw n0 base bl rs ∧ m'.pc = r.returnTo := by
  have hf := h.frames
  have hs := h.sp
  have hle := fpOf_le base r rs
  rw [← h.fp] at hle
  rw [framesOf] at hf
  have e : ∃ sl, m.exitFrame = .ok ⟨sl, m.sp - (m.sp - m.fp), fpOf base rs, startOf n0 base rs, framesOf n0 base bl rs,
      dropLoops m.loops (((Regions.loopsOf bl rs).length : Int) - 1), r.returnTo⟩ := by
    unfold Mach.exitFrame Mach.rmRange
    rw [Mach.memmove_ok _ _ _ _ (by omega) (by omega)]
    simp only [CallRes.bind, hf]
    exact ⟨_, rfl⟩
  obtain ⟨sl, e⟩ := e
  refine ⟨_, e, ⟨rfl, rfl, ?_⟩, rfl⟩
  dsimp only; omega

theorem Mach.Unw.unwind {n0 : Int} {base : List Val} {bl : List (Nat × Val)} (line : Nat → Nat) : ∀ (rs : List Region) (m : Mach) (k : Nat), m.Unw n0 base bl rs →
    ∃ m', m.unwind line (rs.length + 1 + k) = some (.ok ((unwound rs).map (fun r => line r.returnTo), m')) ∧ m'.fp = -1
  | [], m, k, h => by
    have := h.fp
    rw [fpOf] at this
    refine ⟨m, ?_, this⟩
    rw [show ([] : List Region).length + 1 + k = k + 1 by simp; omega, Mach.unwind, if_neg (by omega)]
    rfl
  | r :: rs, m, k, h => by
    rw [show (r :: rs).length + 1 + k = (rs.length + 1 + k) + 1 by simp; omega, Mach.unwind]
    by_cases hp : 0 ≤ m.fp
    · have ha := (fpOf_nonneg base (r :: rs)).1 (h.fp ▸ hp)
      obtain ⟨m1, e1, h1, hpc⟩ := h.exit hp
      obtain ⟨m2, e2, h2⟩ := h1.unwind line rs m1 k
      refine ⟨m2, ?_, h2⟩
      rw [if_pos hp, e1]
      dsimp only
      rw [e2, unwound, if_pos ha, hpc]
      rfl
    · have ha : (r :: rs).any (·.called) = false := by
        rw [← Bool.not_eq_true]; intro h'; exact hp (h.fp ▸ (fpOf_nonneg base _).2 h')
      refine ⟨m, ?_, h.fp.trans (fpOf_neg base _ ha)⟩
      rw [if_neg hp, unwound_none _ ha]
      rfl

/-- The value in the slot of the frame is the function that is running. -/
theorem Mach.Rep.slot_fp {n0 : Int} {m : Mach} {s : Regions} (h : m.Rep n0 s) : ∀ (r : Region), s.running.head? = some r → m.slots m.fp = r.fn := by
  have hl := h.live.vals
  rw [h.fp]
  rw [Regions.values] at hl
  suffices ∀ (rs : List Region) (r : Region), (rs.filter (·.called)).head? = some r → ∃ i : Nat, fpOf s.base rs = i ∧ (Regions.valuesOf s.base rs)[i]? = some r.fn by
    intro r hr
    obtain ⟨i, e1, e2⟩ := this _ r hr
    rw [e1]; exact hl i _ e2
  intro rs
  induction rs with
  | nil => intro r hr; cases hr
  | cons a rs ih =>
    intro r hr
    rw [fpOf]
    by_cases ha : a.called = true
    · rw [List.filter_cons_of_pos (by simpa using ha)] at hr
      cases hr
      rw [if_pos ha]
      exact ⟨_, rfl, by simp [Regions.valuesOf]⟩
    · rw [List.filter_cons_of_neg (by simpa using ha)] at hr
      obtain ⟨i, e1, e2⟩ := ih r hr
      rw [if_neg ha]
      refine ⟨i, e1, ?_⟩
      rw [Regions.valuesOf, List.getElem?_append_left (List.getElem?_eq_some_iff.1 e2).1]; exact e2

/-- C116, exactly: after any history the report has the line of the error, and the lines of all calls that have been begun since the first function that is running
was called, whether or not they have been made; without the innermost one if a C function is running.  Afterwards no function is running. -/
theorem report_exact (callee : Val → Callee) (line : Nat → Nat) (n0 : Int) (m : Mach) (s : Regions) (h : m.Rep n0 s) (k : Nat) :
    ∃ m', m.printLine callee line (s.calls.length + 1 + k) =
      some (.ok (line s.at_ :: ((if s.inC callee then (unwound s.calls).tail else unwound s.calls).map fun r => line r.returnTo), m')) ∧ m'.fp = -1 := by
  have hu : m.Unw n0 s.base s.baseLoops s.calls := by
    refine ⟨h.fp, h.frames, ?_⟩
    have h1 := fpOf_lt s.base s.calls
    have h2 := h.live.sp
    have h3 := h.live.fits
    rw [← h.fp] at h1
    rw [Regions.values] at h2 h3
    omega
  have hC : (m.fp ≥ 0 ∧ (callee (m.slots m.fp)).isC = true) ↔ s.inC callee = true := by
    rw [Regions.inC]
    cases hh : s.running.head? with
    | none =>
      have : s.calls.any (·.called) = false := by
        rw [List.head?_eq_none_iff, Regions.running, List.filter_eq_nil_iff] at hh
        simpa using hh
      have := fpOf_neg s.base _ this
      rw [← h.fp] at this
      simp [this]
    | some r =>
      have hmem : r ∈ s.running := List.mem_of_head? hh
      rw [Regions.running, List.mem_filter] at hmem
      have hp := (fpOf_nonneg s.base s.calls).2 (List.any_eq_true.2 ⟨r, hmem.1, hmem.2⟩)
      rw [← h.fp] at hp
      rw [h.slot_fp r hh]
      simp only [Option.any_some, ge_iff_le, hp, true_and]
  unfold Mach.printLine
  by_cases hc : s.inC callee = true
  · simp only [if_pos (hC.2 hc), if_pos hc]
    have hp := (hC.2 hc).1
    cases hs : s.calls with
    | nil => rw [Regions.inC, Regions.running, hs] at hc; simp at hc
    | cons r rs =>
      rw [hs] at hu
      have ha := (fpOf_nonneg s.base (r :: rs)).1 (hu.fp ▸ hp)
      obtain ⟨m1, e1, h1, hpc⟩ := hu.exit hp
      obtain ⟨m2, e2, h2⟩ := h1.unwind line rs m1 (k + 1)
      refine ⟨m2, ?_, h2⟩
      rw [e1]
      dsimp only
      rw [show (r :: rs).length + 1 + k = rs.length + 1 + (k + 1) by simp; omega, e2, unwound, if_pos ha, h.pc]
      rfl
  · rw [if_neg hc]
    simp only [if_neg (fun x => hc (hC.1 x))]
    obtain ⟨m2, e2, h2⟩ := hu.unwind line s.calls m k
    refine ⟨m2, ?_, h2⟩
    rw [e2, h.pc]
    rfl

theorem unwound_running {s : Regions} (h : s.NonePending) : unwound s.calls = s.running := by
  obtain ⟨p, hp⟩ := h
  have hpend : ∀ r ∈ p, r.called = false := by
    have hf : s.running = s.running.filter (·.called) ++ p.filter (·.called) := by
      conv => lhs; rw [Regions.running, hp]
      rw [List.filter_append]
    have h1 : s.running.filter (·.called) = s.running := by rw [Regions.running, List.filter_filter]; simp
    rw [h1] at hf
    have : p.filter (·.called) = [] := by simpa using hf
    rw [List.filter_eq_nil_iff] at this
    simpa using this
  have hall : ∀ r ∈ s.running, r.called = true := by intro r hr; rw [Regions.running, List.mem_filter] at hr; exact hr.2
  rw [hp]
  generalize s.running = q at hall
  induction q with
  | nil => exact unwound_none _ (by simpa using hpend)
  | cons r q ih =>
    rw [List.cons_append, unwound, if_pos (by simp [hall r (by simp)]), ih fun x hx => hall x (by simp [hx])]

/-- C116: after every history of a state in which calls are begun, made and ended in any way: if there is an error while in no running function the arguments of
another call are being computed, the report has the line of the error and the lines of all calls in progress, innermost first.  No access is out of bounds,
and afterwards no function is running. -/
theorem C116_report_partial (callee : Val → Callee) (line : Nat → Nat) (nextFp : Int) (pc : Nat) (ops : List CallOp) (s : Regions)
    (h : (⟨[], [], [], pc⟩ : Regions).all callee ops) (hs : (⟨[], [], [], pc⟩ : Regions).run callee ops = .ok s) (hp : s.NonePending) (k : Nat) :
    ∃ m m', (Mach.init nextFp pc).run callee ops = .ok m ∧
      m.printLine callee line (s.calls.length + 1 + k) = some (.ok (s.report callee line, m')) ∧ m'.fp = -1 := by
  have h0 : (Mach.init nextFp pc).Rep nextFp ⟨[], [], [], pc⟩ :=
    ⟨⟨rfl, by simp [Regions.values, Regions.valuesOf], by simp [Regions.values, Regions.valuesOf]⟩, rfl, rfl, rfl, rfl, rfl⟩
  have := h0.run callee ops h
  rw [hs] at this
  obtain ⟨m, e, hm⟩ := this
  obtain ⟨m', e', h'⟩ := report_exact callee line nextFp m s hm k
  refine ⟨m, m', e, ?_, h'⟩
  rw [e', unwound_running hp]
  rfl

/-- C116: *fails* in general.  If the error comes up while a running function computes the arguments of a call, this call is reported like the others although it has
not been made: the report is longer than it should be. -/
theorem C116_report_counterexample (callee : Val → Callee) (line : Nat → Nat) (nextFp : Int) (pc : Nat) (ops : List CallOp) (s : Regions)
    (h : (⟨[], [], [], pc⟩ : Regions).all callee ops) (hs : (⟨[], [], [], pc⟩ : Regions).run callee ops = .ok s) (r : Region) (rs : List Region)
    (hr : s.calls = r :: rs) (hp : r.called = false) (hin : rs.any (·.called) = true) (hC : s.inC callee = false) (k : Nat) :
    ∃ m m' l, (Mach.init nextFp pc).run callee ops = .ok m ∧
      m.printLine callee line (s.calls.length + 1 + k) = some (.ok (line s.at_ :: line r.returnTo :: l, m')) ∧
      (s.report callee line).length ≤ l.length + 1 := by
  have h0 : (Mach.init nextFp pc).Rep nextFp ⟨[], [], [], pc⟩ :=
    ⟨⟨rfl, by simp [Regions.values, Regions.valuesOf], by simp [Regions.values, Regions.valuesOf]⟩, rfl, rfl, rfl, rfl, rfl⟩
  have := h0.run callee ops h
  rw [hs] at this
  obtain ⟨m, e, hm⟩ := this
  obtain ⟨m', e', -⟩ := report_exact callee line nextFp m s hm k
  refine ⟨m, m', (unwound rs).map fun r => line r.returnTo, e, ?_, ?_⟩
  · rw [e', hC, if_neg (by simp), hr, unwound, if_pos (by simp [hin])]
    rfl
  · have hle : ∀ (rs : List Region), (rs.filter (·.called)).length ≤ (unwound rs).length := by
      intro rs
      induction rs with
      | nil => simp
      | cons a rs ih =>
        rw [unwound]
        by_cases ha : (a :: rs).any (·.called) = true
        · rw [if_pos ha]
          have := List.length_filter_le (fun r : Region => r.called) rs
          by_cases hc : a.called = true
          · rw [List.filter_cons_of_pos (by simpa using hc)]; simpa using ih
          · rw [List.filter_cons_of_neg (by simpa using hc)]; simp; omega
        · rw [if_neg ha]
          have : (a :: rs).filter (·.called) = [] := by
            rw [List.filter_eq_nil_iff]; simpa using ha
          rw [this]; simp
    have := hle rs
    rw [Regions.report, hC, if_neg (by simp), Regions.running, hr, List.filter_cons_of_neg (by simpa using hp)]
    simp only [List.length_cons, List.length_map]
    omega

/-- `fn f(x) { … } fn g() { f(1 // 0); } g();` up to the division: `g` is called at 10, the call of `f` is begun at 20, and the division is at 21.  The report has
the line of the division, of the call of `f` – which has not been made – and of the call of `g`. -/
def pendingOps : List CallOp := [.push demoF, .goto_ 10, .start 1, .call, .goto_ 20, .push demoF, .start 1, .goto_ 21]

example : (⟨[], [], [], 0⟩ : Regions).all demoCallee pendingOps ∧ ∃ s r rs, (⟨[], [], [], 0⟩ : Regions).run demoCallee pendingOps = .ok s ∧ s.calls = r :: rs ∧
    r.called = false ∧ rs.any (·.called) = true ∧ s.inC demoCallee = false ∧ s.report demoCallee id = [21, 10] := by
  refine ⟨by decide +kernel, _, _, _, rfl, rfl, rfl, rfl, by decide, by decide⟩

/-- The hypotheses of `C116_report_partial`: two calls in progress, the inner one of a C function, and one begun outside of them. -/
def tracedOps : List CallOp := [.push demoF, .goto_ 5, .start 1, .push demoF, .goto_ 10, .start 1, .call, .goto_ 20, .push demoG, .start 1, .push (.int 1), .goto_ 25, .call]

example : (⟨[], [], [], 0⟩ : Regions).all demoCallee tracedOps ∧ ∃ s, (⟨[], [], [], 0⟩ : Regions).run demoCallee tracedOps = .ok s ∧ s.NonePending ∧
    s.inC demoCallee = true ∧ s.report demoCallee id = [25, 10] := by
  refine ⟨by decide +kernel, _, rfl, ⟨[_], rfl⟩, by decide, by decide⟩

end Yasl
