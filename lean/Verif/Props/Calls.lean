import Verif.Proofs.Calls
set_option autoImplicit false
/-!
# The stack, calls and loops: C55, C56, C57, C58, C67

`Mach` is the machine (array, `sp`, `fp`, frames); `Mach.Live m l` says that the live part of its stack is the list `l` (bottom first); `Regions` in
`Verif.Spec.Calls` says what calls mean.  `outOfBounds` is an access outside of the arrays.
-/
namespace Yasl

/-- Push all of a list, in order. -/
def pushEach (m : Mach) : List Val → CallRes Mach
  | [] => .ok m
  | v :: vs => (m.push v).bind fun m' => pushEach m' vs

/-- Pop `n` values: the values, first popped first. -/
def popEach (m : Mach) : Nat → CallRes (List Val × Mach)
  | 0 => .ok ([], m)
  | n + 1 => m.pop.bind fun p => (popEach p.2 n).bind fun q => .ok (p.1 :: q.1, q.2)

theorem pushEach_live : ∀ (vs : List Val) {m : Mach} {l : List Val}, m.Live l → l.length + vs.length ≤ 1024 →
    ∃ m', pushEach m vs = .ok m' ∧ m'.Live (l ++ vs) ∧ m'.fp = m.fp ∧ m'.nextFp = m.nextFp ∧ m'.frames = m.frames ∧ m'.loops = m.loops ∧ m'.pc = m.pc
  | [], m, l, h, _ => ⟨m, rfl, by simpa using h, rfl, rfl, rfl, rfl, rfl⟩
  | v :: vs, m, l, h, hl => by
    simp at hl
    obtain ⟨m1, e1, h1, a1, b1, c1, d1, f1⟩ := h.push v (by omega)
    obtain ⟨m2, e2, h2, a2, b2, c2, d2, f2⟩ := pushEach_live vs h1 (by simp; omega)
    refine ⟨m2, ?_, by simpa using h2, a2.trans a1, b2.trans b1, c2.trans c1, d2.trans d1, f2.trans f1⟩
    unfold pushEach; rw [CallRes.bind_eq e1]; exact e2

theorem popEach_live : ∀ (vs : List Val) {m : Mach} {l : List Val}, m.Live (l ++ vs.reverse) →
    ∃ m', popEach m vs.length = .ok (vs, m') ∧ m'.Live l ∧ m'.fp = m.fp ∧ m'.nextFp = m.nextFp ∧ m'.frames = m.frames ∧ m'.loops = m.loops ∧ m'.pc = m.pc
  | [], m, l, h => ⟨m, rfl, by simpa using h, rfl, rfl, rfl, rfl, rfl⟩
  | v :: vs, m, l, h => by
    rw [List.reverse_cons, ← List.append_assoc] at h
    obtain ⟨e1, h1⟩ := h.pop
    obtain ⟨m2, e2, h2, r2⟩ := popEach_live vs h1
    refine ⟨m2, ?_, h2, r2⟩
    simp only [List.length_cons, popEach]
    rw [CallRes.bind_eq e1, CallRes.bind_eq e2]

/-- **C55.** Whatever is on the stack, and for any values that fit: pushing them succeeds and they lie on top of what was there; popping as many returns them in
reverse order and leaves the stack as it was.  Frames, loops and the program counter are not touched. -/
theorem C55_lifo (m : Mach) (l vs : List Val) (h : m.Live l) (hl : l.length + vs.length ≤ 1024) :
    ∃ m1 m2, pushEach m vs = .ok m1 ∧ m1.Live (l ++ vs) ∧ popEach m1 vs.length = .ok (vs.reverse, m2) ∧ m2.Live l ∧
      m2.fp = m.fp ∧ m2.nextFp = m.nextFp ∧ m2.frames = m.frames ∧ m2.loops = m.loops ∧ m2.pc = m.pc := by
  obtain ⟨m1, e1, h1, a1, b1, c1, d1, f1⟩ := pushEach_live vs h hl
  obtain ⟨m2, e2, h2, a2, b2, c2, d2, f2⟩ := popEach_live vs.reverse (m := m1) (l := l) (by simpa using h1)
  simp only [List.length_reverse] at e2
  exact ⟨m1, m2, e1, h1, e2, h2, a2.trans a1, b2.trans b1, c2.trans c1, d2.trans d1, f2.trans f1⟩

/-- **C55.** A push on a full stack raises StackOverflow. -/
theorem C55_overflow (m : Mach) (l : List Val) (h : m.Live l) (hl : l.length = 1024) (v : Val) : m.push v = .overflow := h.push_full v hl

/-- The history of a stack: `some v` pushes `v`, `none` pops. -/
def stackOps (m : Mach) : List (Option Val) → CallRes Mach
  | [] => .ok m
  | some v :: os => (m.push v).bind fun m' => stackOps m' os
  | none :: os => m.pop.bind fun p => stackOps p.2 os

/-- The same on a list of at most 1024 values, top first; popping an empty one is not allowed. -/
def listOps (l : List Val) : List (Option Val) → Option (CallRes (List Val))
  | [] => some (.ok l)
  | some v :: os => if l.length < 1024 then listOps (v :: l) os else some .overflow
  | none :: os => match l with | [] => none | _ :: l => listOps l os

theorem stackOps_live : ∀ (os : List (Option Val)) {m : Mach} {l : List Val} {r : CallRes (List Val)}, m.Live l.reverse → listOps l os = some r →
    match r with
    | .ok l' => ∃ m', stackOps m os = .ok m' ∧ m'.Live l'.reverse
    | .overflow => stackOps m os = .overflow
    | .outOfBounds => False
  | [], m, l, r, h, hr => by
    simp only [listOps, Option.some.injEq] at hr; subst hr; exact ⟨m, rfl, h⟩
  | some v :: os, m, l, r, h, hr => by
    simp only [listOps] at hr
    by_cases hl : l.length < 1024
    · rw [if_pos hl] at hr
      obtain ⟨m1, e1, h1, _⟩ := h.push v (by simpa using hl)
      have := stackOps_live os (m := m1) (l := v :: l) (by simpa using h1) hr
      simp only [stackOps]
      rw [CallRes.bind_eq e1]; exact this
    · rw [if_neg hl] at hr
      simp only [Option.some.injEq] at hr
      subst hr
      simp only [stackOps]
      rw [h.push_full v (by have := h.fits; simp at this ⊢; omega)]; rfl
  | none :: os, m, l, r, h, hr => by
    cases l with
    | nil => simp [listOps] at hr
    | cons x l =>
      simp only [listOps] at hr
      rw [List.reverse_cons] at h
      obtain ⟨e1, h1⟩ := h.pop
      have := stackOps_live os h1 hr
      simp only [stackOps]
      rw [CallRes.bind_eq e1]; exact this

/-- **C55.** For every history of pushes and pops of a new state (without popping an empty stack): the stack is what a list would be, or StackOverflow is raised
exactly when the list would exceed 1024 values.  No access is out of bounds. -/
theorem C55_history (nextFp : Int) (pc : Nat) (os : List (Option Val)) (r : CallRes (List Val)) (hr : listOps [] os = some r) :
    match r with
    | .ok l => ∃ m, stackOps (.init nextFp pc) os = .ok m ∧ m.Live l.reverse
    | .overflow => stackOps (.init nextFp pc) os = .overflow
    | .outOfBounds => False := by
  have := stackOps_live os (m := .init nextFp pc) (l := []) ⟨rfl, by simp, by simp⟩ hr
  cases r <;> exact this

/-- **C55.** Values can be put in and taken out below the top (`vm_insert`, `vm_rm`, `vm_rm_range`): the others keep their order. -/
theorem C55_middle (m : Mach) (a b c : List Val) (v : Val) (h : m.Live (a ++ b ++ c)) (hl : (a ++ b ++ c).length < 1024) :
    (∃ m', m.insert a.length v = .ok m' ∧ m'.Live (a ++ v :: (b ++ c)) ∧ ∃ m'', m'.rm a.length = .ok m'' ∧ m''.Live (a ++ b ++ c)) ∧
    ∃ m', m.rmRange a.length (a ++ b).length = .ok m' ∧ m'.Live (a ++ c) := by
  obtain ⟨m1, e1, h1, _⟩ := Mach.Live.insert (a := a) (b := b ++ c) (by rw [← List.append_assoc]; exact h) v (by rw [← List.append_assoc]; exact hl) a.length rfl
  obtain ⟨m2, e2, h2, _⟩ := Mach.Live.rm h1 a.length rfl
  obtain ⟨m3, e3, h3, _⟩ := h.rmRange a.length (a ++ b).length rfl rfl
  exact ⟨⟨m1, e1, h1, m2, e2, by rw [List.append_assoc]; exact h2⟩, m3, e3, h3⟩

/-- A machine with these values. -/
def machOf (l : List Val) : Mach := { Mach.init 0 0 with slots := fun i => if i < 0 then .end_ else l.getD i.toNat .end_, sp := (l.length : Int) - 1 }

theorem machOf_live (l : List Val) (h : l.length ≤ 1024) : (machOf l).Live l := by
  refine ⟨rfl, h, ?_⟩
  intro i v hi
  simp only [machOf, List.getD_eq_getElem?_getD]
  rw [if_neg (by omega)]; simp [hi]

example : ∃ l vs : List Val, (machOf l).Live l ∧ l.length + vs.length ≤ 1024 ∧ vs ≠ [] ∧ l ≠ [] :=
  ⟨[.int 1, .bool true], [.undef, .str [65], .int 3], machOf_live _ (by simp), by simp, by simp, by simp⟩
example : (machOf (List.replicate 1024 .undef)).Live (List.replicate 1024 .undef) := machOf_live _ (by rw [List.length_replicate]; exact Nat.le_refl _)
example : listOps [] [some (.int 1), some .undef, none, some (.bool true)] = some (.ok [.bool true, .int 1]) := by decide

/-! ## Typed pops -/

/-- **C56.** *Fails.*  `YASL_popint`, `YASL_popbool` and `YASL_popfloat` do not pop a value of another type. -/
theorem C56_not_popped (m : Mach) (l : List Val) (v : Val) (h : m.Live (l ++ [v])) :
    ((∀ i, v ≠ .int i) → m.popInt = .ok (0, m)) ∧ ((∀ b, v ≠ .bool b) → m.popBool = .ok (false, m)) ∧ ((∀ f, v ≠ .float f) → m.popFloat = .ok (0, m)) := by
  have hp : m.peek = .ok v := by
    have := h.pop.1
    unfold Mach.pop at this
    unfold Mach.peek
    by_cases h0 : m.sp < 0
    · rw [if_pos h0] at this; cases this
    · rw [if_neg h0] at this ⊢
      injection this with this; injection this with this; rw [this]
  refine ⟨fun hv => ?_, fun hv => ?_, fun hv => ?_⟩
  · unfold Mach.popInt; rw [CallRes.bind_eq hp]; cases v <;> first | rfl | exact absurd rfl (hv _)
  · unfold Mach.popBool; rw [CallRes.bind_eq hp]; cases v <;> first | rfl | exact absurd rfl (hv _)
  · unfold Mach.popFloat; rw [CallRes.bind_eq hp]; cases v <;> first | rfl | exact absurd rfl (hv _)

theorem peek_live {m : Mach} {l : List Val} {v : Val} (h : m.Live (l ++ [v])) : m.peek = .ok v := by
  have := h.pop.1
  unfold Mach.pop at this
  unfold Mach.peek
  by_cases h0 : m.sp < 0
  · rw [if_pos h0] at this; cases this
  · rw [if_neg h0] at this ⊢
    injection this with this; injection this with this; rw [this]

/-- **C56**, the part that holds: on a value of the right type they return it and pop it.  `YASL_popcstr` always pops. -/
theorem C56_popped_partial (m : Mach) (l : List Val) :
    (∀ i, m.Live (l ++ [.int i]) → ∃ m', m.popInt = .ok (i, m') ∧ m'.Live l) ∧
    (∀ b, m.Live (l ++ [.bool b]) → ∃ m', m.popBool = .ok (b, m') ∧ m'.Live l) ∧
    (∀ f, m.Live (l ++ [.float f]) → ∃ m', m.popFloat = .ok (f, m') ∧ m'.Live l) ∧
    (∀ s, m.Live (l ++ [.str s]) → ∃ m', m.popCstr = .ok (some s, m') ∧ m'.Live l) ∧
    (∀ v, (∀ s, v ≠ .str s) → m.Live (l ++ [v]) → ∃ m', m.popCstr = .ok (none, m') ∧ m'.Live l) := by
  refine ⟨fun i h => ?_, fun i h => ?_, fun i h => ?_, fun s h => ?_, fun v hv h => ?_⟩
  · refine ⟨_, ?_, h.pop.2⟩; unfold Mach.popInt; rw [CallRes.bind_eq (peek_live h)]; dsimp only; rw [CallRes.bind_eq h.pop.1]
  · refine ⟨_, ?_, h.pop.2⟩; unfold Mach.popBool; rw [CallRes.bind_eq (peek_live h)]; dsimp only; rw [CallRes.bind_eq h.pop.1]
  · refine ⟨_, ?_, h.pop.2⟩; unfold Mach.popFloat; rw [CallRes.bind_eq (peek_live h)]; dsimp only; rw [CallRes.bind_eq h.pop.1]
  · refine ⟨_, ?_, h.pop.2⟩; unfold Mach.popCstr; rw [CallRes.bind_eq (peek_live h), CallRes.bind_eq h.pop.1]
  · refine ⟨_, ?_, h.pop.2⟩; unfold Mach.popCstr; rw [CallRes.bind_eq (peek_live h), CallRes.bind_eq h.pop.1]
    cases v <;> first | rfl | exact absurd rfl (hv _)

example : (machOf [.int 1, .str [65]]).Live ([.int 1] ++ [.str [65]]) := machOf_live _ (by simp)
example : (machOf [.undef, .int 7]).Live ([.undef] ++ [.int 7]) := machOf_live _ (by simp)

/-! ## Calls -/

/-- **C57.** For every history of pushes, pops, calls of YASL and C functions, returns and loops, nested in any way, that makes sense: the machine ends with exactly
the values, the place to continue and the running loops that the regions say, or with StackOverflow exactly when the regions do (more than 1024 values or 1000
calls).  The only access out of bounds is the 17th loop (C67). -/
theorem C57_history_partial (callee : Val → Callee) (nextFp : Int) (pc : Nat) (ops : List CallOp) (h : (⟨[], [], [], pc⟩ : Regions).all callee ops) :
    match (⟨[], [], [], pc⟩ : Regions).run callee ops with
    | .ok s => ∃ m, (Mach.init nextFp pc).run callee ops = .ok m ∧ m.Live s.values ∧ m.pc = s.at_ ∧ m.loops = s.loops
    | .overflow => (Mach.init nextFp pc).run callee ops = .overflow
    | .outOfBounds => (Mach.init nextFp pc).run callee ops = .outOfBounds := by
  have h0 : (Mach.init nextFp pc).Rep nextFp ⟨[], [], [], pc⟩ :=
    ⟨⟨rfl, by simp [Regions.values, Regions.valuesOf], by simp [Regions.values, Regions.valuesOf]⟩, rfl, rfl, rfl, rfl, rfl⟩
  have := h0.run callee ops h
  revert this
  cases (⟨[], [], [], pc⟩ : Regions).run callee ops with
  | ok s => rintro ⟨m, e, hm⟩; exact ⟨m, e, hm.live, hm.pc, hm.loops⟩
  | overflow => exact id
  | outOfBounds => exact id

/-- While operations are performed there are always at least `k` calls. -/
def Regions.stays (callee : Val → Callee) (k : Nat) (s : Regions) : List CallOp → Prop
  | [] => k ≤ s.calls.length
  | o :: os => k ≤ s.calls.length ∧ match s.op callee o with | .ok t => t.stays callee k os | _ => True

instance Regions.decStays (callee : Val → Callee) (k : Nat) : (s : Regions) → (ops : List CallOp) → Decidable (s.stays callee k ops)
  | _, [] => by unfold Regions.stays; infer_instance
  | s, o :: os => by
    unfold Regions.stays
    have : Decidable (match s.op callee o with | .ok t => t.stays callee k os | _ => True) := by
      split
      · exact Regions.decStays callee k _ os
      · infer_instance
    infer_instance

/-- The running call `r` with the calls `rs` below it, and what it may have become. -/
structure Inside (s : Regions) (r : Region) (rs : List Region) (base : List Val) (bl : List (Nat × Val)) : Prop where
  calls : ∃ cs r', s.calls = cs ++ r' :: rs ∧ r'.called = true ∧ r'.fn = r.fn ∧ r'.want = r.want ∧ r'.returnTo = r.returnTo
  base : s.base = base
  loops : s.baseLoops = bl

theorem Regions.setTop_cons {s : Regions} {r : Region} {rs : List Region} (h : s.calls = r :: rs) (l : List Val) :
    s.setTop l = { s with calls := { r with vals := l } :: rs } := by unfold Regions.setTop; rw [h]

theorem Regions.setTopLoops_cons {s : Regions} {r : Region} {rs : List Region} (h : s.calls = r :: rs) (l : List (Nat × Val)) :
    s.setTopLoops l = { s with calls := { r with loops := l } :: rs } := by unfold Regions.setTopLoops; rw [h]

theorem Regions.checked_ok {s t : Regions} (h : s.checked = .ok t) : t = s := by
  unfold Regions.checked at h
  split at h
  · injection h with h; exact h.symm
  · cases h

theorem Inside.setTop {s : Regions} {r : Region} {rs : List Region} {base : List Val} {bl : List (Nat × Val)} (h : Inside s r rs base bl) (l : List Val) :
    Inside (s.setTop l) r rs base bl := by
  obtain ⟨cs, r', e, a, b, c, d⟩ := h.calls
  cases cs with
  | nil => rw [Regions.setTop_cons (by simpa using e)]; exact ⟨⟨[], { r' with vals := l }, rfl, a, b, c, d⟩, h.base, h.loops⟩
  | cons c0 cs => rw [Regions.setTop_cons (r := c0) (rs := cs ++ r' :: rs) (by simpa using e)]; exact ⟨⟨{ c0 with vals := l } :: cs, r', rfl, a, b, c, d⟩, h.base, h.loops⟩

theorem Inside.setTopLoops {s : Regions} {r : Region} {rs : List Region} {base : List Val} {bl : List (Nat × Val)} (h : Inside s r rs base bl) (l : List (Nat × Val)) :
    Inside (s.setTopLoops l) r rs base bl := by
  obtain ⟨cs, r', e, a, b, c, d⟩ := h.calls
  cases cs with
  | nil => rw [Regions.setTopLoops_cons (by simpa using e)]; exact ⟨⟨[], { r' with loops := l }, rfl, a, b, c, d⟩, h.base, h.loops⟩
  | cons c0 cs => rw [Regions.setTopLoops_cons (r := c0) (rs := cs ++ r' :: rs) (by simpa using e)]; exact ⟨⟨{ c0 with loops := l } :: cs, r', rfl, a, b, c, d⟩, h.base, h.loops⟩

theorem Inside.finish {s t : Regions} {r : Region} {rs : List Region} {base : List Val} {bl : List (Nat × Val)} (h : Inside s r rs base bl) (res : List Val)
    (ht : s.finish res = .ok t) (hk : rs.length < t.calls.length) : Inside t r rs base bl := by
  obtain ⟨cs, r', e, a, b, c, d⟩ := h.calls
  unfold Regions.finish at ht
  cases cs with
  | nil =>
    simp only [e, List.nil_append] at ht
    have := Regions.checked_ok ht
    subst this
    exfalso
    unfold Regions.setTop at hk
    rcases rs with _ | ⟨r2, rs⟩ <;> simp at hk
  | cons c0 cs =>
    simp only [e, List.cons_append] at ht
    have := Regions.checked_ok ht
    subst this
    have hin : Inside { s with calls := cs ++ r' :: rs, at_ := c0.returnTo } r rs base bl := ⟨⟨cs, r', rfl, a, b, c, d⟩, h.base, h.loops⟩
    exact hin.setTop _

theorem Inside.op {callee : Val → Callee} {s t : Regions} {r : Region} {rs : List Region} {base : List Val} {bl : List (Nat × Val)} (h : Inside s r rs base bl)
    (o : CallOp) (hp : s.possible callee o) (ht : s.op callee o = .ok t) (hk : rs.length < t.calls.length) : Inside t r rs base bl := by
  cases o with
  | push v => have := Regions.checked_ok ht; subst this; exact h.setTop _
  | pop => injection ht with ht; subst ht; exact h.setTop _
  | goto_ pc => injection ht with ht; subst ht; exact ⟨h.calls, h.base, h.loops⟩
  | start want =>
    simp only [Regions.op] at ht
    split at ht
    · injection ht with ht; subst ht
      obtain ⟨cs, r', e, q⟩ := (h.setTop s.top.dropLast).calls
      exact ⟨⟨_ :: cs, r', by rw [e]; rfl, q⟩, (h.setTop s.top.dropLast).base, (h.setTop s.top.dropLast).loops⟩
    · cases ht
  | call =>
    obtain ⟨r0, rs0, hc, hr0⟩ : ∃ r rs, s.calls = r :: rs ∧ r.called = false := by
      simp only [Regions.possible] at hp
      split at hp
      · rename_i r rs hc; exact ⟨r, rs, hc, hp.1⟩
      · exact hp.elim
    obtain ⟨cs, r', e, a, b, c, d⟩ := h.calls
    simp only [Regions.op, hc] at ht
    have := Regions.checked_ok ht
    subst this
    cases cs with
    | nil =>
      rw [hc] at e; injection e with e1 e2
      subst e1; rw [a] at hr0; cases hr0
    | cons c0 cs =>
      rw [hc] at e; injection e with e1 e2
      subst e1; subst e2
      exact ⟨⟨_ :: cs, r', rfl, a, b, c, d⟩, h.base, h.loops⟩
  | ret len => exact h.finish _ ht hk
  | retC n => exact h.finish _ ht hk
  | loop =>
    simp only [Regions.op] at ht
    split at ht
    · injection ht with ht; subst ht; exact (h.setTop _).setTopLoops _
    · cases ht
  | endLoop => injection ht with ht; subst ht; exact h.setTopLoops _

theorem Inside.run {callee : Val → Callee} {r : Region} {rs : List Region} {base : List Val} {bl : List (Nat × Val)} : ∀ (ops : List CallOp) {s t : Regions},
    Inside s r rs base bl → s.all callee ops → s.stays callee (rs.length + 1) ops → s.run callee ops = .ok t → Inside t r rs base bl
  | [], s, t, h, _, _, ht => by injection ht with ht; subst ht; exact h
  | o :: os, s, t, h, ha, hst, ht => by
    unfold Regions.run at ht
    cases hs : s.op callee o with
    | ok u =>
      rw [hs] at ht
      have hu := hst.2
      rw [hs] at hu
      have hk : rs.length < u.calls.length := by cases os <;> first | exact hu | exact hu.1
      refine (h.op o ha.1 hs hk).run os ?_ hu ht
      have := ha.2
      rw [hs] at this; exact this
    | overflow => rw [hs] at ht; cases ht
    | outOfBounds => rw [hs] at ht; cases ht

theorem Mach.run_append (callee : Val → Callee) : ∀ (a b : List CallOp) (m : Mach), m.run callee (a ++ b) = (m.run callee a).bind fun m' => m'.run callee b
  | [], b, m => rfl
  | o :: os, b, m => by
    simp only [List.cons_append, Mach.run]
    cases m.op callee o with
    | ok m' => exact Mach.run_append callee os b m'
    | overflow => rfl
    | outOfBounds => rfl

theorem run_pushes (callee : Val → Callee) : ∀ (vs : List Val) (m : Mach), m.run callee (vs.map .push) = pushEach m vs
  | [], _ => rfl
  | v :: vs, m => by
    simp only [List.map_cons, Mach.run, pushEach, Mach.op]
    cases m.push v with
    | ok m' => exact run_pushes callee vs m'
    | overflow => rfl
    | outOfBounds => rfl

/-- How a function ends: a function written in YASL returns everything above its lowest `len` variables, a C function its `n` top values. -/
inductive EndsWith (vars : List Val) : CallOp → List Val → Prop where
  | yasl {len : Nat} (h : len ≤ vars.length) : EndsWith vars (.ret len) (vars.drop len)
  | c {n : Nat} (h : n ≤ vars.length) : EndsWith vars (.retC n) (vars.drop (vars.length - n))

/-- Where a callee starts: a C function does not change the place of execution. -/
def Callee.entry (c : Callee) (here : Nat) : Nat := match c with | .code _ entry => entry | _ => here

/-- **C57.** Any call, from any state: on top of the stack is the function `f`, arguments are pushed, the function is called, runs whatever `body` it has (with calls
of its own, loops, …) without itself returning, and returns some results.  Then the function was started with exactly its number of parameters (the arguments, cut
or padded with undef; for a variadic C function all arguments and their number, see `Callee.params`), and the call leaves in place of `f` exactly the wanted number
of its results (cut or padded with undef; all if the number is negative).  All values below, the frames, the running loops and the place of execution are what they
were before the call.  *Partial*: a variadic C function with fixed parameters must get at least these (see `C57_variadic_short`). -/
theorem C57_call_partial (callee : Val → Callee) (n0 : Int) (m : Mach) (s : Regions) (h : m.Rep n0 s) (l : List Val) (f : Val) (hf : s.top = l ++ [f])
    (hcallee : callee f ≠ .notCallable) (want : Int) (args : List Val) (hvar : ∀ n, callee f = .cVariadic n → n ≤ args.length)
    (body : List CallOp) (s2 : Regions) (last : CallOp) (results : List Val) (hcalls : s.calls.length < 1000) (hargs : s.values.length + args.length ≤ 1024)
    (hparams : s.values.length + ((callee f).params args).length ≤ 1024)
    (hall : (s.entered l f ((callee f).params args) want ((callee f).entry s.at_)).all callee body)
    (hbody : (s.entered l f ((callee f).params args) want ((callee f).entry s.at_)).run callee body = .ok s2)
    (hstays : (s.entered l f ((callee f).params args) want ((callee f).entry s.at_)).stays callee (s.calls.length + 1) body)
    (hend : s2.calls.length = s.calls.length + 1) (hlast : EndsWith s2.top last results)
    (hfit : s.values.length - 1 + (wanted want results).length ≤ 1024) :
    ∃ m1 m2, m.run callee (.start want :: args.map .push ++ [.call]) = .ok m1 ∧ m1.pc = (callee f).entry m.pc ∧
      m1.Live (s.below ++ l ++ f :: (callee f).params args) ∧
      m1.run callee (body ++ [last]) = .ok m2 ∧ m2.Live (s.below ++ l ++ wanted want results) ∧
      m2.fp = m.fp ∧ m2.frames = m.frames ∧ m2.loops = m.loops ∧ m2.pc = m.pc := by
  have hne : s.top ≠ [] := by rw [hf]; simp
  have hdl : s.top.dropLast = l := by rw [hf]; simp
  have hgl : s.top.getLastD .undef = f := by rw [hf]; simp
  have hvl : s.values.length = s.below.length + l.length + 1 := by rw [s.values_split, hf]; simp; omega
  have hset : (s.setTop l).calls.length = s.calls.length := by
    unfold Regions.setTop; rcases s.calls with _ | ⟨r, rs⟩ <;> rfl
  -- start
  have e1 := h.start callee want hne
  simp only [Regions.op, if_pos hcalls, hdl, hgl] at e1
  obtain ⟨ma, ea, ha⟩ := e1
  -- the arguments
  have hva : Regions.values { s.setTop l with calls := ⟨f, [], want, s.at_, false, []⟩ :: (s.setTop l).calls } = s.below ++ l ++ [f] := by
    show Regions.values (s.setTop l) ++ [f] = _
    rw [Regions.values_setTop]
  have hla := ha.live
  rw [hva] at hla
  obtain ⟨mb, eb, hb, b1, b2, b3, b4, b5⟩ := pushEach_live args hla (by simp; omega)
  have hrb : mb.Rep n0 { s.setTop l with calls := ⟨f, args, want, s.at_, false, []⟩ :: (s.setTop l).calls } := by
    refine ⟨?_, b1.trans ha.fp, b2.trans ha.nextFp, b3.trans ha.frames, b4.trans ha.loops, b5.trans ha.pc⟩
    show Mach.Live _ (Regions.values (s.setTop l) ++ f :: args)
    rw [Regions.values_setTop]
    simpa using hb
  -- the call
  have hat : (s.setTop l).at_ = s.at_ := by unfold Regions.setTop; rcases s.calls with _ | ⟨r, rs⟩ <;> rfl
  have hbl : (s.setTop l).baseLoops = s.baseLoops := by unfold Regions.setTop; rcases s.calls with _ | ⟨r, rs⟩ <;> rfl
  have hev : (s.entered l f ((callee f).params args) want ((callee f).entry s.at_)).values = s.below ++ l ++ f :: (callee f).params args := by
    show Regions.values (s.setTop l) ++ f :: (callee f).params args = _
    rw [Regions.values_setTop]
  have ec := hrb.call callee (by
    refine ⟨rfl, ?_⟩
    split
    · rename_i e; exact hcallee e
    · rename_i n e; exact hvar n e
    · trivial)
  have hent : ({ s.setTop l with calls := ⟨f, args, want, s.at_, false, []⟩ :: (s.setTop l).calls } : Regions).op callee .call =
      (s.entered l f ((callee f).params args) want ((callee f).entry s.at_)).checked := by
    simp only [Regions.op, Regions.entered, hat, hbl]
    unfold Callee.entry
    cases callee f <;> rfl
  rw [hent, Regions.checked_length, hev, if_pos (by simp at hparams ⊢; omega)] at ec
  obtain ⟨mc, ec, hc⟩ := ec
  -- the body
  have ed := hc.run callee body hall
  rw [hbody] at ed
  obtain ⟨md, ed, hd⟩ := ed
  have hin : Inside s2 ⟨f, (callee f).params args, want, s.at_, true, []⟩ (s.setTop l).calls (s.setTop l).base s.baseLoops := by
    refine Inside.run body (s := s.entered l f ((callee f).params args) want ((callee f).entry s.at_)) ⟨⟨[], _, rfl, rfl, rfl, rfl, rfl⟩, rfl, rfl⟩ hall ?_ hbody
    rw [hset]; exact hstays
  obtain ⟨cs, r', er, a, b, c, d⟩ := hin.calls
  have hcs : cs = [] := by
    have := congrArg List.length er
    rw [List.length_append, List.length_cons, hset, hend] at this
    exact List.eq_nil_of_length_eq_zero (by omega)
  subst hcs
  simp only [List.nil_append] at er
  have htop : s2.top = r'.vals := by simp [Regions.top, er]
  -- the return
  have ef : SameRes n0 (md.op callee last) (s2.finish results) := by
    have hso := hd.op callee last
    cases hlast with
    | yasl hl => exact hso (by simp only [Regions.possible, er]; exact ⟨a, by rw [← htop]; exact hl⟩)
    | c hl => exact hso (by simp only [Regions.possible, er]; exact ⟨a, by rw [← htop]; exact hl⟩)
  unfold Regions.finish at ef
  simp only [er, c, d] at ef
  have hbelow : ∀ w : List Val, Regions.setTop { s2 with calls := (s.setTop l).calls, at_ := s.at_ }
      (Regions.top { s2 with calls := (s.setTop l).calls, at_ := s.at_ } ++ w) = s.setTop (l ++ w) := by
    intro w
    have e1 := hin.base
    have e2 := hin.loops
    rcases hcc : s.calls with _ | ⟨r, rs⟩
    · simp only [Regions.setTop, Regions.top, hcc] at e1 e2 ⊢
      rw [e1, e2]
    · simp only [Regions.setTop, Regions.top, hcc] at e1 e2 ⊢
      rw [e1, e2]
  rw [hbelow, Regions.checked_length, Regions.values_setTop, if_pos (by simp at hfit ⊢; omega)] at ef
  obtain ⟨me, ee, he⟩ := ef
  refine ⟨mc, me, ?_, by rw [h.pc]; exact hc.pc, ?_, ?_, ?_, ?_, ?_, ?_, ?_⟩
  · show ((m.initCall want).bind fun m' => m'.run callee (args.map .push ++ [.call])) = _
    rw [CallRes.bind_eq ea, Mach.run_append, run_pushes, CallRes.bind_eq eb]
    show ((mb.call callee).bind fun m' => .ok m') = _
    rw [CallRes.bind_eq ec]
  · have := hc.live; rw [hev] at this; exact this
  · rw [Mach.run_append, CallRes.bind_eq ed]
    show ((md.op callee last).bind fun m' => .ok m') = _
    rw [CallRes.bind_eq ee]
  · have := he.live; rw [Regions.values_setTop, ← List.append_assoc] at this; exact this
  · rw [he.fp, h.fp]; unfold Regions.setTop; rcases hcc : s.calls with _ | ⟨r, rs⟩ <;> simp [fpOf]
  · rw [he.frames, h.frames]; unfold Regions.setTop; rcases hcc : s.calls with _ | ⟨r, rs⟩ <;> simp [framesOf]
  · rw [he.loops, h.loops]; unfold Regions.setTop Regions.loops; rcases hcc : s.calls with _ | ⟨r, rs⟩ <;> simp [Regions.loopsOf]
  · rw [he.pc, h.pc]; unfold Regions.setTop; rcases hcc : s.calls with _ | ⟨r, rs⟩ <;> rfl

/-- **C57.** *Fails* for a variadic C function with `k + 1` fixed parameters that gets fewer arguments: they are not padded, and the number of variable arguments is
inserted beyond the top with a `memmove` of a negative size. -/
theorem C57_variadic_short (callee : Val → Callee) (n0 : Int) (m : Mach) (s : Regions) (h : m.Rep n0 s) (r : Region) (rs : List Region) (hc : s.calls = r :: rs)
    (k : Nat) (hk : callee r.fn = .cVariadic k) (hshort : r.vals.length < k) (hroom : s.values.length < 1024) : m.call callee = .outOfBounds := by
  have h3 := h.nextFp
  have h4 := h.frames
  rw [hc] at h3 h4
  simp only [startOf] at h3
  simp only [framesOf] at h4
  have hl := h.live
  have hvals : s.values = Regions.valuesOf s.base rs ++ [r.fn] ++ r.vals := by simp [Regions.values, hc, Regions.valuesOf]
  have hsp := hl.sp
  rw [hvals] at hl hsp hroom
  simp at hsp hroom
  have hslot : m.slots m.nextFp = r.fn := by rw [h3]; exact hl.vals _ _ (by simp)
  unfold Mach.call
  simp only [hslot, hk]
  unfold Mach.callC Mach.savePc
  simp only [h4, CallRes.bind]
  rw [if_pos (by omega)]
  unfold Mach.insert
  simp only []
  rw [if_neg (by unfold machSize; omega)]
  unfold Mach.memmove
  rw [if_neg (by omega), if_neg (by omega)]
  rfl

/-- A function value, and what it is. -/
def demoF : Val := .ref .fn 7
def demoG : Val := .ref .cfn 8
def demoCallee (v : Val) : Callee := if v = demoF then .code 3 100 else if v = demoG then .cVariadic 1 else .notCallable

/-- A call of a function of three parameters with two arguments; in it a variadic C function is called with three arguments and returns two values, of which one
is wanted; a loop is still running when the function returns two values of which three are wanted. -/
def demoHistory : List CallOp :=
  [.push (.int 1), .push demoF, .start 3, .push (.int 10), .push (.int 20), .call,
   .push demoG, .start 1, .push (.int 5), .push (.int 6), .push (.int 7), .call, .push (.bool true), .push (.bool false), .retC 2,
   .push (.ref .list 4), .loop, .push (.str [65]), .ret 3]

example : (⟨[], [], [], 9⟩ : Regions).run demoCallee demoHistory = .ok ⟨[.int 1, .bool true, .str [65], .undef], [], [], 9⟩ := by decide
example : (⟨[], [], [], 9⟩ : Regions).all demoCallee demoHistory := by
  decide

example : ∃ m1 m2, (machOf [.int 1, demoF]).run demoCallee (.start 3 :: [.int 10, .int 20].map .push ++ [.call]) = .ok m1 ∧ m1.pc = 100 ∧
    m1.Live [.int 1, demoF, .int 10, .int 20, .undef] ∧
    m1.run demoCallee ([.push demoG, .start 1, .push (.int 5), .push (.int 6), .push (.int 7), .call, .push (.bool true), .push (.bool false), .retC 2,
      .push (.ref .list 4), .loop, .push (.str [65])] ++ [.ret 3]) = .ok m2 ∧ m2.Live [.int 1, .bool true, .str [65], .undef] ∧
    m2.fp = -1 ∧ m2.frames = [] ∧ m2.loops = [] ∧ m2.pc = 0 :=
  C57_call_partial demoCallee 0 (machOf [.int 1, demoF]) ⟨[.int 1, demoF], [], [], 0⟩ ⟨machOf_live _ (by simp), rfl, rfl, rfl, rfl, rfl⟩ [.int 1] demoF rfl
    (by decide) 3 [.int 10, .int 20] (by intro n hn; rw [show demoCallee demoF = .code 3 100 by decide] at hn; cases hn) _
    ⟨[.int 1], [], [⟨demoF, [.int 10, .int 20, .undef, .bool true, .str [65]], 3, 0, true, [(0, .ref .list 4)]⟩], 100⟩ (.ret 3) [.bool true, .str [65]]
    (by decide) (by decide) (by decide) (by decide) (by decide) (by decide) (by decide) (.yasl (len := 3) (by decide)) (by decide)

/-! ## `YASL_functioncall` -/

/-- What a C function does when it is run as the innermost call: it changes the values of its own call to `vals'` and says that it returns `k` of them. -/
def RunsTo (n0 : Int) (s : Regions) (body : Mach → CallRes (Mach × Nat)) (vals' : List Val) (k : Nat) : Prop :=
  k ≤ vals'.length ∧ ∀ m2 : Mach, m2.Rep n0 s → ∃ m3, body m2 = .ok (m3, k) ∧ m3.Rep n0 (s.setTop vals')

theorem init_offset {n0 : Int} {m : Mach} {s : Regions} (h : m.Rep n0 s) (l : List Val) (f : Val) (args : List Val) (hf : s.top = l ++ f :: args) (want : Int)
    (hcalls : s.calls.length < 1000) :
    ∃ m1, m.initCallOffset (m.sp - args.length) want = .ok m1 ∧ m1.sp = m.sp ∧
      m1.Rep n0 { s.setTop l with calls := ⟨f, args, want, s.at_, false, []⟩ :: (s.setTop l).calls } := by
  have hl := h.live
  have hvs : s.values = s.below ++ (l ++ [f]) ++ args := by rw [s.values_split, hf]; simp
  rw [hvs] at hl
  have hsp := hl.sp
  simp at hsp
  -- the machine before the arguments were pushed
  let m0 : Mach := { m with sp := m.sp - args.length }
  have h0 : m0.Rep n0 (s.setTop (l ++ [f])) := by
    refine h.setTop _ ⟨by simp [m0]; omega, ?_, ?_⟩ rfl rfl rfl rfl rfl
    · have := hl.fits; simp at this ⊢; omega
    · intro i v hi
      have hlt := (List.getElem?_eq_some_iff.1 hi).1
      exact hl.vals i v (by rw [List.getElem?_append_left hlt]; exact hi)
  have hset : (s.setTop (l ++ [f])).top = l ++ [f] := by unfold Regions.setTop Regions.top; rcases s.calls with _ | ⟨r, rs⟩ <;> rfl
  have hset2 : (s.setTop (l ++ [f])).setTop l = s.setTop l := by unfold Regions.setTop; rcases s.calls with _ | ⟨r, rs⟩ <;> rfl
  have hlenc : (s.setTop (l ++ [f])).calls.length = s.calls.length := by unfold Regions.setTop; rcases s.calls with _ | ⟨r, rs⟩ <;> rfl
  have hat : (s.setTop (l ++ [f])).at_ = s.at_ := by unfold Regions.setTop; rcases s.calls with _ | ⟨r, rs⟩ <;> rfl
  have e1 := h0.start (fun _ => .notCallable) want (by rw [hset]; simp)
  simp only [Regions.op, hset, List.dropLast_concat, hset2, hat, hlenc, if_pos hcalls] at e1
  have hgl : (l ++ [f]).getLastD .undef = f := by simp
  rw [hgl] at e1
  obtain ⟨ma, ea, ha⟩ := e1
  have hm : m.initCallOffset (m.sp - args.length) want = .ok { ma with sp := m.sp } := by
    have e : m0.initCall want = m0.enterFrame (m.sp - args.length) want := rfl
    rw [e] at ea
    unfold Mach.enterFrame at ea
    unfold Mach.initCallOffset Mach.enterFrame
    by_cases hfr : m.frames.length ≥ numFrames
    · rw [if_pos hfr] at ea; cases ea
    · rw [if_neg hfr] at ea ⊢
      injection ea with ea
      rw [← ea]
  refine ⟨_, hm, rfl, ?_, ha.fp, ha.nextFp, ha.frames, ha.loops, ha.pc⟩
  have hsl : ma.slots = m.slots := by
    have e : m0.initCall want = m0.enterFrame (m.sp - args.length) want := rfl
    rw [e] at ea
    unfold Mach.enterFrame at ea
    split at ea
    · cases ea
    · injection ea with ea; rw [← ea]
  show Mach.Live _ ((s.setTop l).values ++ f :: args)
  rw [Regions.values_setTop]
  have e : s.below ++ l ++ f :: args = s.below ++ (l ++ [f]) ++ args := by simp
  rw [e]
  exact ⟨hl.sp, hl.fits, by show ∀ (i : Nat) (v : Val), _ → ma.slots i = v; rw [hsl]; exact hl.vals⟩

/-- **C58.** *Fails.*  `YASL_functioncall(S, n)` on a C function that returns `k` values leaves exactly these in place of the function and its `n` arguments, but
the number it reports is `n - k`. -/
theorem C58_reports_difference (callee : Val → Callee) (n0 : Int) (m : Mach) (s : Regions) (h : m.Rep n0 s) (l : List Val) (f : Val) (args : List Val)
    (hf : s.top = l ++ f :: args) (p : Nat) (hp : callee f = .c p) (hcalls : s.calls.length < 1000)
    (hfit : s.below.length + l.length + 1 + p ≤ 1024) (body : Mach → CallRes (Mach × Nat)) (vals' : List Val) (k : Nat)
    (hbody : RunsTo n0 (s.entered l f (exactly p args) (-1) s.at_) body vals' k) :
    ∃ m', m.functionCall callee body args.length = .ok ((args.length : Int) - k, m') ∧ m'.Live (s.below ++ l ++ vals'.drop (vals'.length - k)) := by
  obtain ⟨m1, e1, es, h1⟩ := init_offset h l f args hf (-1) hcalls
  have hat : (s.setTop l).at_ = s.at_ := by unfold Regions.setTop; rcases s.calls with _ | ⟨r, rs⟩ <;> rfl
  have hbl : (s.setTop l).baseLoops = s.baseLoops := by unfold Regions.setTop; rcases s.calls with _ | ⟨r, rs⟩ <;> rfl
  have hev : (s.entered l f (exactly p args) (-1) s.at_).values = s.below ++ l ++ f :: exactly p args := by
    show Regions.values (s.setTop l) ++ f :: exactly p args = _
    rw [Regions.values_setTop]
  have hent : ({ s.setTop l with calls := ⟨f, args, -1, s.at_, false, []⟩ :: (s.setTop l).calls } : Regions).op callee .call =
      (s.entered l f (exactly p args) (-1) s.at_).checked := by
    simp only [Regions.op, Regions.entered, hat, hbl, hp, Callee.params]
  have hpl : (exactly p args).length = p := by unfold exactly; simp; omega
  have e2 := h1.call callee (by refine ⟨rfl, ?_⟩; simp only [hp])
  rw [hent, Regions.checked_length, hev, if_pos (by simp [hpl]; omega)] at e2
  obtain ⟨m2, e2, h2⟩ := e2
  obtain ⟨m3, e3, h3⟩ := hbody.2 m2 h2
  have hset : (s.entered l f (exactly p args) (-1) s.at_).setTop vals' = s.entered l f vals' (-1) s.at_ := rfl
  rw [hset] at h3
  have hfn : m2.slots m2.fp = f := by
    have hfp := h2.fp
    simp only [Regions.entered, fpOf, if_true] at hfp
    rw [hfp]
    have := h2.live.vals (s.setTop l).values.length f (by
      rw [hev, ← Regions.values_setTop s l]; simp)
    exact this
  have e4 := h3.op callee (.retC k) (by simp only [Regions.possible, Regions.entered]; exact ⟨trivial, hbody.1⟩)
  have e5 : (s.entered l f vals' (-1) s.at_).op callee (.retC k) = .ok (s.setTop (l ++ vals'.drop (vals'.length - k))) := by
    have hv3 := h3.live.fits
    have hv : (s.entered l f vals' (-1) s.at_).values = s.below ++ l ++ f :: vals' := by
      show Regions.values (s.setTop l) ++ f :: vals' = _
      rw [Regions.values_setTop]
    rw [hv] at hv3
    simp at hv3
    have ht : (s.entered l f vals' (-1) s.at_).op callee (.retC k) = (s.entered l f vals' (-1) s.at_).finish (vals'.drop (vals'.length - k)) := rfl
    rw [ht]
    simp only [Regions.finish, Regions.entered, wanted]
    have hb : ∀ w : List Val, Regions.setTop { base := (s.setTop l).base, baseLoops := s.baseLoops, calls := (s.setTop l).calls, at_ := s.at_ }
        (Regions.top { base := (s.setTop l).base, baseLoops := s.baseLoops, calls := (s.setTop l).calls, at_ := s.at_ } ++ w) = s.setTop (l ++ w) := by
      intro w
      rcases hcc : s.calls with _ | ⟨r, rs⟩ <;> simp only [Regions.setTop, Regions.top, hcc]
    rw [hb, if_pos (by omega), Regions.checked_length, Regions.values_setTop]
    rw [if_pos (by simp; omega)]
  rw [e5] at e4
  obtain ⟨m4, e4, h4⟩ := e4
  refine ⟨m4, ?_, ?_⟩
  · unfold Mach.functionCall
    rw [CallRes.bind_eq e1, CallRes.bind_eq e2]
    simp only [hfn, hp]
    rw [CallRes.bind_eq e3]
    have : m3.retC k = .ok m4 := e4
    rw [CallRes.bind_eq this]
    have hs1 := h.live.sp
    have hs4 := h4.live.sp
    rw [s.values_split, hf] at hs1
    rw [Regions.values_setTop] at hs4
    simp only [List.length_append, List.length_cons, List.length_drop] at hs1 hs4
    have hk := hbody.1
    rw [es, hs1, hs4]
    congr 2
    have : vals'.length - (vals'.length - k) = k := by omega
    rw [this]; push_cast; omega
  · have := h4.live
    rw [Regions.values_setTop, ← List.append_assoc] at this; exact this

/-- **C58.** *Fails.*  A function written in YASL is not run: its code becomes the place of execution and nothing is returned; what is reported is the number of
arguments less the number of parameters, less one. -/
theorem C58_compiled_not_run (callee : Val → Callee) (n0 : Int) (m : Mach) (s : Regions) (h : m.Rep n0 s) (l : List Val) (f : Val) (args : List Val)
    (hf : s.top = l ++ f :: args) (p entry : Nat) (hp : callee f = .code p entry) (hcalls : s.calls.length < 1000)
    (hfit : s.below.length + l.length + 1 + p ≤ 1024) (body : Mach → CallRes (Mach × Nat)) :
    ∃ m', m.functionCall callee body args.length = .ok ((args.length : Int) - p - 1, m') ∧ m'.Live (s.below ++ l ++ f :: exactly p args) ∧ m'.pc = entry := by
  obtain ⟨m1, e1, es, h1⟩ := init_offset h l f args hf (-1) hcalls
  have hat : (s.setTop l).at_ = s.at_ := by unfold Regions.setTop; rcases s.calls with _ | ⟨r, rs⟩ <;> rfl
  have hbl : (s.setTop l).baseLoops = s.baseLoops := by unfold Regions.setTop; rcases s.calls with _ | ⟨r, rs⟩ <;> rfl
  have hev : (s.entered l f (exactly p args) (-1) entry).values = s.below ++ l ++ f :: exactly p args := by
    show Regions.values (s.setTop l) ++ f :: exactly p args = _
    rw [Regions.values_setTop]
  have hent : ({ s.setTop l with calls := ⟨f, args, -1, s.at_, false, []⟩ :: (s.setTop l).calls } : Regions).op callee .call =
      (s.entered l f (exactly p args) (-1) entry).checked := by
    simp only [Regions.op, Regions.entered, hat, hbl, hp, Callee.params]
  have hpl : (exactly p args).length = p := by unfold exactly; simp; omega
  have e2 := h1.call callee (by refine ⟨rfl, ?_⟩; simp only [hp])
  rw [hent, Regions.checked_length, hev, if_pos (by simp [hpl]; omega)] at e2
  obtain ⟨m2, e2, h2⟩ := e2
  have hfn : m2.slots m2.fp = f := by
    have hfp := h2.fp
    simp only [Regions.entered, fpOf, if_true] at hfp
    rw [hfp]
    have := h2.live.vals (s.setTop l).values.length f (by
      rw [hev, ← Regions.values_setTop s l]; simp)
    exact this
  have hl2 := h2.live
  rw [hev] at hl2
  refine ⟨m2, ?_, hl2, h2.pc⟩
  unfold Mach.functionCall
  rw [CallRes.bind_eq e1, CallRes.bind_eq e2]
  simp only [hfn, hp]
  simp only [CallRes.bind]
  have hs1 := h.live.sp
  have hs4 := hl2.sp
  rw [s.values_split, hf] at hs1
  simp only [List.length_append, List.length_cons, hpl] at hs1 hs4
  rw [es, hs1, hs4]
  congr 2
  push_cast; omega

/-- A C function of one parameter that returns it. -/
def demoCallee2 (v : Val) : Callee := if v = demoG then .c 1 else .notCallable
def demoBody (m : Mach) : CallRes (Mach × Nat) := .ok (m, 1)

/-- **C58.** *Fails*, in the simplest case: one argument, one result, and the number reported is 0. -/
theorem C58_wrong_count : ∃ m', (machOf [demoG, .int 5]).functionCall demoCallee2 demoBody 1 = .ok (0, m') ∧ m'.Live [.int 5] := by
  have hr : (machOf [demoG, .int 5]).Rep 0 ⟨[demoG, .int 5], [], [], 0⟩ := ⟨machOf_live _ (by simp), rfl, rfl, rfl, rfl, rfl⟩
  have := C58_reports_difference demoCallee2 0 _ _ hr [] demoG [.int 5] rfl 1 (by decide) (by decide) (by decide) demoBody [.int 5] 1
    ⟨by decide, fun m2 h2 => ⟨m2, rfl, h2⟩⟩
  exact this

/-! ## Loops -/

/-- **C67.** *Fails.*  With 16 loops running – nested, or in functions that call each other – the next one is written outside of the array of loop frames. -/
theorem C67_seventeenth_loop (callee : Val → Callee) (m : Mach) (h : 16 ≤ m.loops.length) : m.op callee .loop = .outOfBounds := by
  simp only [Mach.op, Mach.initFor]; rw [if_pos h]

/-- **C67**, the part that holds: up to 16 loops, wherever they run, the array is not left, and the new loop starts at position 0 of the value that was on top. -/
theorem C67_loops_partial (callee : Val → Callee) (m : Mach) (l : List Val) (v : Val) (h : m.Live (l ++ [v])) (hl : m.loops.length < 16) :
    ∃ m', m.op callee .loop = .ok m' ∧ m'.Live l ∧ m'.loops = (0, v) :: m.loops ∧ m'.frames = m.frames ∧ m'.fp = m.fp ∧ m'.pc = m.pc ∧
      ∃ m'', m'.op callee .endLoop = .ok m'' ∧ m''.Live l ∧ m''.loops = m.loops := by
  obtain ⟨a, b⟩ := h.pop
  refine ⟨{ m with sp := m.sp - 1, loops := (0, v) :: m.loops }, ?_, ⟨b.sp, b.fits, b.vals⟩, rfl, rfl, rfl, rfl, ?_⟩
  · simp only [Mach.op, Mach.initFor]
    rw [if_neg (by omega), CallRes.bind_eq a]
  · exact ⟨_, rfl, ⟨b.sp, b.fits, b.vals⟩, rfl⟩

/-- A function that loops over a list and calls itself in the loop reaches the 17th loop in its 17th call: after 16 calls the regions – and so the machine – are out
of bounds. -/
def recursion : Nat → List CallOp
  | 0 => []
  | n + 1 => .push (.ref .list 4) :: .loop :: .push demoF :: .start 1 :: .call :: recursion n

theorem C67_recursion : (⟨[], [], [], 0⟩ : Regions).all demoCallee (recursion 17) ∧
    (⟨[], [], [], 0⟩ : Regions).run demoCallee (recursion 17) = .outOfBounds ∧ (Mach.init 0 0).run demoCallee (recursion 17) = .outOfBounds := by
  have h1 : (⟨[], [], [], 0⟩ : Regions).all demoCallee (recursion 17) := by decide +kernel
  have h2 : (⟨[], [], [], 0⟩ : Regions).run demoCallee (recursion 17) = .outOfBounds := by decide +kernel
  refine ⟨h1, h2, ?_⟩
  have := C57_history_partial demoCallee 0 0 (recursion 17) h1
  rw [h2] at this
  exact this

example : (machOf [.int 1, .ref .list 4]).Live ([.int 1] ++ [.ref .list 4]) ∧ (machOf [.int 1, .ref .list 4]).loops.length < 16 :=
  ⟨machOf_live _ (by simp), by decide⟩

/-- the theorem for compiled functions, with one argument for three parameters -/
example := C58_compiled_not_run demoCallee 0 (machOf [.int 1, demoF, .int 5]) ⟨[.int 1, demoF, .int 5], [], [], 0⟩ ⟨machOf_live _ (by simp), rfl, rfl, rfl, rfl, rfl⟩
  [.int 1] demoF [.int 5] rfl 3 100 (by decide) (by decide) (by decide) demoBody

end Yasl
