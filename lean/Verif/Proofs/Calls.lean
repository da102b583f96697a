import Verif.Model.Calls
set_option autoImplicit false
/-!
# Calls: the machine and the regions (proofs)
-/
namespace Yasl

/-- The live part of the stack is this list, bottom first. -/
structure Mach.Live (m : Mach) (l : List Val) : Prop where
  sp : m.sp = (l.length : Int) - 1
  fits : l.length ≤ 1024
  vals : ∀ (i : Nat) (v : Val), l[i]? = some v → m.slots i = v

theorem CallRes.bind_eq {α β : Type} {r : CallRes α} {a : α} (h : r = .ok a) (f : α → CallRes β) : r.bind f = f a := by subst h; rfl

theorem Mach.write_ok (m : Mach) (i : Int) (v : Val) (h : 0 ≤ i ∧ i < 1024) :
    m.write i v = .ok { m with slots := fun j => if j = i then v else m.slots j } := by
  exact if_pos h

theorem Mach.memmove_zero (m : Mach) (d s n : Int) (h : n = 0) : m.memmove d s n = .ok m := by
  exact if_pos h

theorem Mach.memmove_ok (m : Mach) (d s n : Int) (h : n ≠ 0) (h' : 0 ≤ n ∧ 0 ≤ d ∧ 0 ≤ s ∧ d + n ≤ 1024 ∧ s + n ≤ 1024) :
    m.memmove d s n = .ok { m with slots := fun j => if d ≤ j ∧ j < d + n then m.slots (j - d + s) else m.slots j } := by
  exact (if_neg h).trans (if_pos h')

theorem Mach.Live.push {m : Mach} {l : List Val} (h : m.Live l) (v : Val) (hl : l.length < 1024) :
    ∃ m', m.push v = .ok m' ∧ m'.Live (l ++ [v]) ∧ m'.fp = m.fp ∧ m'.nextFp = m.nextFp ∧ m'.frames = m.frames ∧ m'.loops = m.loops ∧ m'.pc = m.pc := by
  have hs := h.sp
  refine ⟨{ m with sp := m.sp + 1, slots := fun j => if j = m.sp + 1 then v else m.slots j }, ?_, ⟨?_, ?_, ?_⟩, rfl, rfl, rfl, rfl, rfl⟩
  · unfold Mach.push Mach.write machSize
    rw [if_neg (by omega), if_pos (by omega)]
  · simp; omega
  · simp; omega
  · intro i w hi
    simp only
    by_cases hlt : i < l.length
    · rw [List.getElem?_append_left hlt] at hi
      rw [if_neg (by omega)]
      exact h.vals i w hi
    · have hlen := (List.getElem?_eq_some_iff.1 hi).1
      simp at hlen
      have : i = l.length := by omega
      subst this
      simp at hi
      rw [if_pos (by omega), hi]

theorem Mach.Live.push_full {m : Mach} {l : List Val} (h : m.Live l) (v : Val) (hl : l.length = 1024) : m.push v = .overflow := by
  have hs := h.sp
  unfold Mach.push machSize
  rw [if_pos (by omega)]

theorem Mach.Live.pop {m : Mach} {l : List Val} {v : Val} (h : m.Live (l ++ [v])) :
    m.pop = .ok (v, { m with sp := m.sp - 1 }) ∧ ({ m with sp := m.sp - 1 } : Mach).Live l := by
  have hs := h.sp
  have hf := h.fits
  simp at hs hf
  refine ⟨?_, ⟨?_, ?_, ?_⟩⟩
  · unfold Mach.pop
    rw [if_neg (by omega)]
    have := h.vals l.length v (by simp)
    rw [hs, this]
  · simp; omega
  · omega
  · intro i w hi
    have hlt := (List.getElem?_eq_some_iff.1 hi).1
    exact h.vals i w (by rw [List.getElem?_append_left hlt]; exact hi)

theorem Mach.Live.pushUndefs {n : Nat} : ∀ {m : Mach} {l : List Val}, m.Live l → l.length + n ≤ 1024 →
    ∃ m', m.pushUndefs n = .ok m' ∧ m'.Live (l ++ List.replicate n .undef) ∧ m'.fp = m.fp ∧ m'.nextFp = m.nextFp ∧ m'.frames = m.frames ∧
      m'.loops = m.loops ∧ m'.pc = m.pc := by
  induction n with
  | zero => intro m l h _; exact ⟨m, rfl, by simpa using h, rfl, rfl, rfl, rfl, rfl⟩
  | succ n ih =>
    intro m l h hn
    obtain ⟨m1, e1, h1, a1, b1, c1, d1, f1⟩ := h.push .undef (by omega)
    obtain ⟨m2, e2, h2, a2, b2, c2, d2, f2⟩ := ih h1 (by simp; omega)
    refine ⟨m2, ?_, ?_, a2.trans a1, b2.trans b1, c2.trans c1, d2.trans d1, f2.trans f1⟩
    · unfold Mach.pushUndefs; rw [CallRes.bind_eq e1]; exact e2
    · rw [List.replicate_succ]; simpa using h2

theorem Mach.Live.pushUndefs_full {n : Nat} : ∀ {m : Mach} {l : List Val}, m.Live l → l.length + n > 1024 → m.pushUndefs n = .overflow := by
  induction n with
  | zero => intro m l h hn; have := h.fits; omega
  | succ n ih =>
    intro m l h hn
    unfold Mach.pushUndefs
    by_cases hl : l.length < 1024
    · obtain ⟨m1, e1, h1, _⟩ := h.push .undef hl
      rw [CallRes.bind_eq e1]
      exact ih h1 (by simp; omega)
    · rw [h.push_full .undef (by have := h.fits; omega)]; rfl

theorem Mach.Live.pops {n : Nat} : ∀ {m : Mach} {l : List Val}, m.Live l → n ≤ l.length →
    ∃ m', m.pops n = .ok m' ∧ m'.Live (l.take (l.length - n)) ∧ m'.fp = m.fp ∧ m'.nextFp = m.nextFp ∧ m'.frames = m.frames ∧
      m'.loops = m.loops ∧ m'.pc = m.pc := by
  induction n with
  | zero => intro m l h _; exact ⟨m, rfl, by simpa using h, rfl, rfl, rfl, rfl, rfl⟩
  | succ n ih =>
    intro m l h hn
    obtain ⟨l0, v, rfl⟩ : ∃ l0 v, l = l0 ++ [v] := by
      rcases List.eq_nil_or_concat l with rfl | ⟨a, b, rfl⟩
      · simp at hn
      · exact ⟨a, b, by simp⟩
    obtain ⟨e1, h1⟩ := h.pop
    simp at hn
    obtain ⟨m2, e2, h2, r2⟩ := ih h1 hn
    refine ⟨m2, ?_, ?_, r2⟩
    · unfold Mach.pops; rw [CallRes.bind_eq e1]; exact e2
    · have : (l0 ++ [v]).length - (n + 1) = l0.length - n := by simp
      rw [this, List.take_append_of_le_length (by omega)]; exact h2

/-- Make the part above `keep` exactly `n` long. -/
theorem Mach.Live.fillTo {m : Mach} {keep l : List Val} (h : m.Live (keep ++ l)) (n : Nat) (target : Int) (ht : target = (keep.length : Int) + n - 1)
    (hn : keep.length + n ≤ 1024) :
    ∃ m', m.fillTo target = .ok m' ∧ m'.Live (keep ++ exactly n l) ∧ m'.fp = m.fp ∧ m'.nextFp = m.nextFp ∧ m'.frames = m.frames ∧
      m'.loops = m.loops ∧ m'.pc = m.pc := by
  have hs := h.sp
  simp at hs
  unfold Mach.fillTo
  by_cases h1 : l.length < n
  · rw [if_pos (by omega)]
    have e : (target - m.sp).toNat = n - l.length := by omega
    rw [e]
    obtain ⟨m', a, b, c⟩ := h.pushUndefs (n := n - l.length) (by simp; omega)
    refine ⟨m', a, ?_, c⟩
    unfold exactly
    rw [List.take_of_length_le (by omega), ← List.append_assoc]; exact b
  · rw [if_neg (by omega)]
    by_cases h2 : n < l.length
    · rw [if_pos (by omega)]
      have e : (m.sp - target).toNat = l.length - n := by omega
      rw [e]
      obtain ⟨m', a, b, c⟩ := h.pops (n := l.length - n) (by simp; omega)
      refine ⟨m', a, ?_, c⟩
      unfold exactly
      have : n - l.length = 0 := by omega
      rw [this, List.replicate_zero, List.append_nil]
      have e2 : (keep ++ l).length - (l.length - n) = keep.length + n := by simp; omega
      rw [e2, List.take_length_add_append] at b; exact b
    · have : n = l.length := by omega
      rw [if_neg (by omega)]
      refine ⟨m, rfl, ?_, rfl, rfl, rfl, rfl, rfl⟩
      unfold exactly
      subst this
      simpa using h

theorem Mach.Live.fillTo_full {m : Mach} {keep l : List Val} (h : m.Live (keep ++ l)) (n : Nat) (target : Int) (ht : target = (keep.length : Int) + n - 1)
    (hn : keep.length + n > 1024) : m.fillTo target = .overflow := by
  have hs := h.sp
  have hf := h.fits
  simp at hs hf
  unfold Mach.fillTo
  rw [if_pos (by omega)]
  exact h.pushUndefs_full (by simp; omega)

theorem Mach.Live.insert {m : Mach} {a b : List Val} (h : m.Live (a ++ b)) (v : Val) (hl : (a ++ b).length < 1024) (index : Int) (hi : index = a.length) :
    ∃ m', m.insert index v = .ok m' ∧ m'.Live (a ++ v :: b) ∧ m'.fp = m.fp ∧ m'.nextFp = m.nextFp ∧ m'.frames = m.frames ∧ m'.loops = m.loops ∧ m'.pc = m.pc := by
  have hs := h.sp
  have hf := h.fits
  simp at hs hf hl
  subst hi
  let sl : Int → Val := fun j => if j = a.length then v else if (a.length : Int) + 1 ≤ j ∧ j < a.length + 1 + b.length then m.slots (j - 1) else m.slots j
  refine ⟨{ m with sp := m.sp + 1, slots := sl }, ?_, ⟨?_, ?_, ?_⟩, rfl, rfl, rfl, rfl, rfl⟩
  · unfold Mach.insert
    rw [if_neg (by unfold machSize; omega)]
    by_cases hb : b.length = 0
    · rw [CallRes.bind_eq (Mach.memmove_zero _ _ _ _ (by omega)), CallRes.bind_eq (Mach.write_ok _ _ _ (by omega))]
      simp only [CallRes.ok.injEq, Mach.mk.injEq, and_true]
      funext j
      by_cases hj : j = a.length
      · simp [sl, hj]
      · simp only [sl, if_neg hj]; rw [if_neg (by omega)]
    · rw [CallRes.bind_eq (Mach.memmove_ok _ _ _ _ (by omega) (by omega)), CallRes.bind_eq (Mach.write_ok _ _ _ (by omega))]
      simp only [CallRes.ok.injEq, Mach.mk.injEq, and_true]
      funext j
      by_cases hj : j = a.length
      · simp [sl, hj]
      · simp only [sl, if_neg hj]
        by_cases hr : (a.length : Int) + 1 ≤ j ∧ j < a.length + 1 + b.length
        · rw [if_pos hr, if_pos (by omega)]
          congr 1; omega
        · rw [if_neg hr, if_neg (by omega)]
  · simp; omega
  · simp; omega
  · intro i w hw
    simp only [sl]
    by_cases h1 : i < a.length
    · rw [List.getElem?_append_left h1] at hw
      rw [if_neg (by omega), if_neg (by omega)]
      exact h.vals i w (by rw [List.getElem?_append_left h1]; exact hw)
    · rw [List.getElem?_append_right (by omega)] at hw
      by_cases h2 : i = a.length
      · subst h2; simp at hw; simp [hw]
      · obtain ⟨k, rfl⟩ : ∃ k, i = a.length + 1 + k := ⟨i - a.length - 1, by omega⟩
        have e : a.length + 1 + k - a.length = k + 1 := by omega
        rw [e, List.getElem?_cons_succ] at hw
        have hk := (List.getElem?_eq_some_iff.1 hw).1
        rw [if_neg (by omega), if_pos (by omega)]
        have e2 : ((a.length + 1 + k : Nat) : Int) - 1 = ((a.length + k : Nat) : Int) := by omega
        rw [e2]
        exact h.vals _ w (by rw [List.getElem?_append_right (by omega)]; simpa using hw)

theorem Mach.Live.insert_full {m : Mach} {l : List Val} (h : m.Live l) (v : Val) (index : Int) (hl : l.length = 1024) : m.insert index v = .overflow := by
  have hs := h.sp
  unfold Mach.insert machSize
  rw [if_pos (by omega)]

theorem Mach.Live.rmRange {m : Mach} {a b c : List Val} (h : m.Live (a ++ b ++ c)) (start end_ : Int) (hs : start = a.length) (he : end_ = (a ++ b).length) :
    ∃ m', m.rmRange start end_ = .ok m' ∧ m'.Live (a ++ c) ∧ m'.fp = m.fp ∧ m'.nextFp = m.nextFp ∧ m'.frames = m.frames ∧ m'.loops = m.loops ∧ m'.pc = m.pc := by
  have hsp := h.sp
  have hf := h.fits
  simp at hsp hf he
  subst hs
  let sl : Int → Val := fun j => if (a.length : Int) ≤ j ∧ j < a.length + c.length then m.slots (j + b.length) else m.slots j
  refine ⟨{ m with sp := m.sp - b.length, slots := sl }, ?_, ⟨?_, ?_, ?_⟩, rfl, rfl, rfl, rfl, rfl⟩
  · unfold Mach.rmRange Mach.memmove machSize
    by_cases hc : c.length = 0
    · rw [if_pos (by omega)]
      simp only [CallRes.bind, CallRes.ok.injEq, Mach.mk.injEq, and_true]
      refine ⟨?_, by omega⟩
      funext j
      simp only [sl]; rw [if_neg (by omega)]
    · rw [if_neg (by omega), if_pos (by omega)]
      simp only [CallRes.bind, CallRes.ok.injEq, Mach.mk.injEq, and_true]
      refine ⟨?_, by omega⟩
      funext j
      simp only [sl]
      by_cases hr : (a.length : Int) ≤ j ∧ j < a.length + c.length
      · rw [if_pos hr, if_pos (by omega)]; congr 1; omega
      · rw [if_neg hr, if_neg (by omega)]
  · simp; omega
  · simp; omega
  · intro i w hw
    simp only [sl]
    by_cases h1 : i < a.length
    · rw [List.getElem?_append_left h1] at hw
      rw [if_neg (by omega)]
      exact h.vals i w (by rw [List.append_assoc, List.getElem?_append_left h1]; exact hw)
    · rw [List.getElem?_append_right (by omega)] at hw
      have hk := (List.getElem?_eq_some_iff.1 hw).1
      rw [if_pos (by omega)]
      have e : (i : Int) + b.length = ((i + b.length : Nat) : Int) := by omega
      rw [e]
      refine h.vals _ w ?_
      rw [List.getElem?_append_right (by simp; omega)]
      have : i + b.length - (a ++ b).length = i - a.length := by simp; omega
      rw [this]; exact hw

theorem Mach.Live.rm {m : Mach} {a c : List Val} {x : Val} (h : m.Live (a ++ x :: c)) (index : Int) (hi : index = a.length) :
    ∃ m', m.rm index = .ok m' ∧ m'.Live (a ++ c) ∧ m'.fp = m.fp ∧ m'.nextFp = m.nextFp ∧ m'.frames = m.frames ∧ m'.loops = m.loops ∧ m'.pc = m.pc := by
  have hsp := h.sp
  have hf := h.fits
  simp at hsp hf
  subst hi
  let sl : Int → Val := fun j => if j = m.sp then .end_ else if (a.length : Int) ≤ j ∧ j < a.length + c.length then m.slots (j + 1) else m.slots j
  refine ⟨{ m with sp := m.sp - 1, slots := sl }, ?_, ⟨?_, ?_, ?_⟩, rfl, rfl, rfl, rfl, rfl⟩
  · unfold Mach.rm
    by_cases hc : c.length = 0
    · rw [CallRes.bind_eq (Mach.memmove_zero _ _ _ _ (by omega)), CallRes.bind_eq (Mach.write_ok _ _ _ (by omega))]
      simp only [CallRes.ok.injEq, Mach.mk.injEq, and_true]
      funext j
      simp only [sl]
      by_cases hj : j = m.sp
      · simp [hj]
      · rw [if_neg hj, if_neg hj, if_neg (by omega)]
    · rw [CallRes.bind_eq (Mach.memmove_ok _ _ _ _ (by omega) (by omega)), CallRes.bind_eq (Mach.write_ok _ _ _ (by simp only; omega))]
      simp only [CallRes.ok.injEq, Mach.mk.injEq, and_true]
      funext j
      simp only [sl]
      by_cases hj : j = m.sp
      · simp [hj]
      · rw [if_neg hj, if_neg hj]
        by_cases hr : (a.length : Int) ≤ j ∧ j < a.length + c.length
        · rw [if_pos hr, if_pos (by omega)]; congr 1; omega
        · rw [if_neg hr, if_neg (by omega)]
  · simp; omega
  · simp; omega
  · intro i w hw
    have hlen := (List.getElem?_eq_some_iff.1 hw).1
    simp at hlen
    simp only [sl]
    rw [if_neg (by omega)]
    by_cases h1 : i < a.length
    · rw [List.getElem?_append_left h1] at hw
      rw [if_neg (by omega)]
      exact h.vals i w (by rw [List.getElem?_append_left h1]; exact hw)
    · rw [List.getElem?_append_right (by omega)] at hw
      rw [if_pos (by omega)]
      have e : (i : Int) + 1 = ((i + 1 : Nat) : Int) := by omega
      rw [e]
      refine h.vals _ w ?_
      rw [List.getElem?_append_right (by omega)]
      have : i + 1 - a.length = i - a.length + 1 := by omega
      rw [this]; simpa using hw

/-- `vm->fp`. -/
def fpOf (base : List Val) : List Region → Int
  | [] => -1
  | r :: rs => if r.called then (Regions.valuesOf base rs).length else fpOf base rs

/-- `vm->next_fp`. -/
def startOf (n0 : Int) (base : List Val) : List Region → Int
  | [] => n0
  | _ :: rs => (Regions.valuesOf base rs).length

/-- `vm->frames`. -/
def framesOf (n0 : Int) (base : List Val) (bl : List (Nat × Val)) : List Region → List CFrame
  | [] => []
  | r :: rs => ⟨r.returnTo, fpOf base rs, startOf n0 base rs, ((Regions.loopsOf bl rs).length : Int) - 1, r.want⟩ :: framesOf n0 base bl rs

/-- The machine is in the state described by the regions. -/
structure Mach.Rep (n0 : Int) (m : Mach) (s : Regions) : Prop where
  live : m.Live s.values
  fp : m.fp = fpOf s.base s.calls
  nextFp : m.nextFp = startOf n0 s.base s.calls
  frames : m.frames = framesOf n0 s.base s.baseLoops s.calls
  loops : m.loops = s.loops
  pc : m.pc = s.at_

/-- Everything below the top region's values. -/
def Regions.below (s : Regions) : List Val :=
  match s.calls with | [] => [] | r :: rs => Regions.valuesOf s.base rs ++ [r.fn]

theorem Regions.values_split (s : Regions) : s.values = s.below ++ s.top := by
  unfold Regions.values Regions.below Regions.top
  cases s.calls <;> simp [Regions.valuesOf]

theorem Regions.values_setTop (s : Regions) (l : List Val) : (s.setTop l).values = s.below ++ l := by
  unfold Regions.setTop Regions.values Regions.below
  cases s.calls <;> simp [Regions.valuesOf]

theorem Mach.Rep.setTop {n0 : Int} {m m' : Mach} {s : Regions} (h : m.Rep n0 s) (l : List Val) (hl : m'.Live (s.below ++ l)) (hfp : m'.fp = m.fp)
    (hn : m'.nextFp = m.nextFp) (hf : m'.frames = m.frames) (hlo : m'.loops = m.loops) (hpc : m'.pc = m.pc) : m'.Rep n0 (s.setTop l) := by
  have h2 := h.fp
  have h3 := h.nextFp
  have h4 := h.frames
  have h5 := h.loops
  have h6 := h.pc
  refine ⟨by rw [Regions.values_setTop]; exact hl, ?_, ?_, ?_, ?_, ?_⟩
  · rw [hfp, h2]; unfold Regions.setTop; rcases hc : s.calls with _ | ⟨r, rs⟩ <;> simp [fpOf]
  · rw [hn, h3]; unfold Regions.setTop; rcases hc : s.calls with _ | ⟨r, rs⟩ <;> simp [startOf]
  · rw [hf, h4]; unfold Regions.setTop; rcases hc : s.calls with _ | ⟨r, rs⟩ <;> simp [framesOf]
  · rw [hlo, h5]; unfold Regions.setTop Regions.loops; rcases hc : s.calls with _ | ⟨r, rs⟩ <;> simp [Regions.loopsOf]
  · rw [hpc, h6]; unfold Regions.setTop; rcases hc : s.calls with _ | ⟨r, rs⟩ <;> rfl

/-- The machine and the regions give the same outcome. -/
def SameRes (n0 : Int) (r : CallRes Mach) (s : CallRes Regions) : Prop :=
  match s with
  | .ok t => ∃ m, r = .ok m ∧ m.Rep n0 t
  | .overflow => r = .overflow
  | .outOfBounds => r = .outOfBounds

theorem SameRes.ok {n0 : Int} {m : Mach} {t : Regions} (h : m.Rep n0 t) : SameRes n0 (.ok m) (.ok t) := ⟨m, rfl, h⟩

theorem list_snoc {α : Type} {l : List α} (h : l ≠ []) (d : α) : l = l.dropLast ++ [l.getLastD d] := by
  rcases List.eq_nil_or_concat l with rfl | ⟨a, b, rfl⟩
  · exact absurd rfl h
  · simp

theorem Mach.Rep.push {n0 : Int} {m : Mach} {s : Regions} (h : m.Rep n0 s) (v : Val) :
    SameRes n0 (m.push v) ((s.setTop (s.top ++ [v])).checked) := by
  have hv := s.values_split
  unfold Regions.checked
  rw [Regions.values_setTop]
  by_cases hl : s.values.length < 1024
  · rw [if_pos (by rw [hv] at hl; simp at hl ⊢; omega)]
    obtain ⟨m', e, a, b⟩ := h.live.push v hl
    rw [e]
    exact .ok (h.setTop _ (by rw [hv] at a; simpa using a) b.1 b.2.1 b.2.2.1 b.2.2.2.1 b.2.2.2.2)
  · rw [if_neg (by rw [hv] at hl; simp at hl ⊢; omega)]
    exact h.live.push_full v (by have := h.live.fits; omega)

theorem Mach.Rep.pop {n0 : Int} {m : Mach} {s : Regions} (h : m.Rep n0 s) (hp : s.top ≠ []) :
    m.pop = .ok (s.top.getLastD .undef, { m with sp := m.sp - 1 }) ∧ ({ m with sp := m.sp - 1 } : Mach).Rep n0 (s.setTop s.top.dropLast) := by
  have hv := s.values_split
  have ht := list_snoc hp .undef
  have hl := h.live
  rw [hv] at hl
  rw [ht, ← List.append_assoc] at hl
  have := hl.pop
  refine ⟨?_, h.setTop _ this.2 rfl rfl rfl rfl rfl⟩
  exact this.1

theorem Mach.Rep.start {n0 : Int} {m : Mach} {s : Regions} (callee : Val → Callee) (h : m.Rep n0 s) (want : Int) (hp : s.top ≠ []) :
    SameRes n0 (m.initCall want) (s.op callee (.start want)) := by
  have hlen : m.frames.length = s.calls.length := by
    rw [h.frames]
    generalize s.calls = c
    induction c with
    | nil => rfl
    | cons r rs ih => simp [framesOf, ih]
  unfold Mach.initCall Mach.initCallOffset Mach.enterFrame numFrames
  simp only [Regions.op]
  by_cases hc : s.calls.length < 1000
  · rw [if_pos hc, if_neg (by omega)]
    have hv := s.values_split
    have ht := list_snoc hp .undef
    have hvs := h.live
    rw [hv, ht, ← List.append_assoc] at hvs
    have hsp := hvs.sp
    simp at hsp
    have hsetc : ∀ l, (s.setTop l).base = s.base ∨ s.calls = [] := by
      intro l; unfold Regions.setTop; rcases s.calls with _ | ⟨r, rs⟩ <;> simp
    -- the region below after the callee is taken away
    have hval : Regions.valuesOf (s.setTop s.top.dropLast).base (s.setTop s.top.dropLast).calls = s.below ++ s.top.dropLast := by
      have := s.values_setTop s.top.dropLast
      exact this
    have hrep : Mach.Rep n0 { m with sp := m.sp - 1 } (s.setTop s.top.dropLast) := (h.pop hp).2
    refine .ok ⟨?_, ?_, ?_, ?_, ?_, ?_⟩
    · show Mach.Live _ (Regions.valuesOf _ _ ++ _ :: [])
      rw [hval]
      exact ⟨hvs.sp, hvs.fits, hvs.vals⟩
    · simp only [fpOf]; exact hrep.fp
    · simp only [startOf, hval]; rw [hsp]; simp; omega
    · simp only [framesOf]
      have e1 := hrep.fp
      have e2 := hrep.nextFp
      have e3 := hrep.frames
      have e4 := hrep.loops
      have e5 := h.pc
      simp only at e1 e2 e3 e4
      rw [e1, e2, e3, e4, e5]; rfl
    · have e4 := hrep.loops
      simp only at e4
      show m.loops = [] ++ _
      rw [e4]; rfl
    · have e := hrep.pc
      exact e
  · rw [if_neg hc, if_pos (by omega)]; rfl

theorem Mach.Rep.fp_top {n0 : Int} {m : Mach} {s : Regions} (h : m.Rep n0 s) {r : Region} {rs : List Region} (hc : s.calls = r :: rs) (hr : r.called = true) :
    m.fp = (Regions.valuesOf s.base rs).length := by
  rw [h.fp, hc]; simp [fpOf, hr]

/-- After `CALL` has found its callee and the arguments have been put in place. -/
theorem Mach.Rep.called {n0 : Int} {m m' : Mach} {s : Regions} (h : m.Rep n0 s) {r : Region} {rs : List Region} (hc : s.calls = r :: rs)
    {params : List Val} {entry : Nat} (hl : m'.Live (Regions.valuesOf s.base rs ++ [r.fn] ++ params)) (hfp : m'.fp = m.nextFp) (hn : m'.nextFp = m.nextFp)
    (hf : m'.frames = { (m.frames.headD ⟨0, 0, 0, 0, 0⟩) with pc := m.pc } :: m.frames.tail) (hlo : m'.loops = m.loops) (hpc : m'.pc = entry) :
    m'.Rep n0 { s with calls := { r with vals := params, called := true, returnTo := s.at_ } :: rs, at_ := entry } := by
  have h2 := h.fp
  have h3 := h.nextFp
  have h4 := h.frames
  have h5 := h.loops
  have h6 := h.pc
  rw [hc] at h3 h4
  simp only [startOf] at h3
  simp only [framesOf] at h4
  refine ⟨by simpa [Regions.values, Regions.valuesOf] using hl, ?_, ?_, ?_, ?_, hpc⟩
  · simp only [fpOf, if_true]; rw [hfp, h3]
  · simp only [startOf]; rw [hn, h3]
  · rw [hf, h4, h6]; simp [framesOf]
  · rw [hlo, h5]; simp [Regions.loops, hc, Regions.loopsOf]

theorem Regions.checked_length (t : Regions) : t.checked = if t.values.length ≤ 1024 then .ok t else .overflow := rfl

theorem Mach.Rep.call {n0 : Int} {m : Mach} {s : Regions} (callee : Val → Callee) (h : m.Rep n0 s) (hp : s.possible callee .call) :
    SameRes n0 (m.call callee) (s.op callee .call) := by
  obtain ⟨r, rs, hc, hr, hcallable, hvar⟩ : ∃ r rs, s.calls = r :: rs ∧ r.called = false ∧ callee r.fn ≠ .notCallable ∧
      (∀ n, callee r.fn = .cVariadic n → n ≤ r.vals.length) := by
    simp only [Regions.possible] at hp
    split at hp
    · rename_i r rs hc
      refine ⟨r, rs, hc, hp.1, ?_, ?_⟩
      · intro e; rw [e] at hp; exact hp.2
      · intro n e; rw [e] at hp; exact hp.2
    · exact hp.elim
  have h3 := h.nextFp
  have h4 := h.frames
  rw [hc] at h3 h4
  simp only [startOf] at h3
  simp only [framesOf] at h4
  have hl := h.live
  have hvals : s.values = Regions.valuesOf s.base rs ++ [r.fn] ++ r.vals := by simp [Regions.values, hc, Regions.valuesOf]
  rw [hvals] at hl
  have hslot : m.slots m.nextFp = r.fn := by
    rw [h3]
    exact hl.vals _ _ (by simp)
  have hkeep : ∀ (m1 : Mach), m1.slots = m.slots → m1.sp = m.sp → m1.Live (Regions.valuesOf s.base rs ++ [r.fn] ++ r.vals) := by
    intro m1 e1 e2
    exact ⟨by rw [e2]; exact hl.sp, hl.fits, by rw [e1]; exact hl.vals⟩
  have hsave : ({ m with fp := m.nextFp } : Mach).savePc =
      .ok { m with fp := m.nextFp, frames := { (m.frames.headD ⟨0, 0, 0, 0, 0⟩) with pc := m.pc } :: m.frames.tail } := by
    unfold Mach.savePc; simp only [h4]; rfl
  unfold Mach.call
  simp only [hslot, Regions.op, hc]
  -- the three kinds of callee
  have fill : ∀ (n entry : Nat) (k : Mach → CallRes Mach), (∀ m1 : Mach, k m1 = .ok { m1 with pc := entry }) →
      SameRes n0 ((({ m with fp := m.nextFp, frames := { (m.frames.headD ⟨0, 0, 0, 0, 0⟩) with pc := m.pc } :: m.frames.tail } : Mach).fillTo
          (m.nextFp + n)).bind k)
        (Regions.checked { s with calls := { r with vals := exactly n r.vals, called := true, returnTo := s.at_ } :: rs, at_ := entry }) := by
    intro n entry k hk
    have hlen : (exactly n r.vals).length = n := by
      unfold exactly; simp; omega
    have htot : (Regions.values { s with calls := { r with vals := exactly n r.vals, called := true, returnTo := s.at_ } :: rs, at_ := entry }).length =
        (Regions.valuesOf s.base rs ++ [r.fn]).length + n := by
      simp [Regions.values, Regions.valuesOf, hlen]; omega
    rw [Regions.checked_length, htot]
    have hl1 := hkeep { m with fp := m.nextFp, frames := { (m.frames.headD ⟨0, 0, 0, 0, 0⟩) with pc := m.pc } :: m.frames.tail } rfl rfl
    have ht : m.nextFp + n = ((Regions.valuesOf s.base rs ++ [r.fn]).length : Int) + n - 1 := by rw [h3]; simp; omega
    by_cases hfit : (Regions.valuesOf s.base rs ++ [r.fn]).length + n ≤ 1024
    · rw [if_pos hfit]
      obtain ⟨m2, e, a, b, c, d, f, g⟩ := hl1.fillTo n _ ht hfit
      rw [CallRes.bind_eq e, hk]
      refine .ok (h.called hc (m' := { m2 with pc := entry }) ⟨a.sp, a.fits, a.vals⟩ b c d f rfl)
    · rw [if_neg hfit, hl1.fillTo_full n _ ht (by omega)]; rfl
  cases hcal : callee r.fn with
  | notCallable => exact absurd hcal hcallable
  | code n entry =>
    dsimp only
    unfold Mach.callNative
    rw [CallRes.bind_eq hsave]
    exact fill n entry _ (fun _ => rfl)
  | c n =>
    dsimp only
    unfold Mach.callC
    rw [CallRes.bind_eq hsave, if_neg (by omega)]
    have := fill n m.pc (fun m1 => .ok { m1 with pc := m.pc }) (fun _ => rfl)
    rw [h.pc] at this
    simp only [Callee.params]
    generalize hX : (Mach.fillTo _ _) = X at this
    have e : (CallRes.bind X fun m1 => .ok { m1 with pc := s.at_ }) = X := by
      cases X with
      | ok m1 =>
        simp only [CallRes.bind]
        have : m1.pc = m.pc := by
          have hl1 := hkeep { m with fp := m.nextFp, frames := { (m.frames.headD ⟨0, 0, 0, 0, 0⟩) with pc := m.pc } :: m.frames.tail } rfl rfl
          have ht : m.nextFp + n = ((Regions.valuesOf s.base rs ++ [r.fn]).length : Int) + n - 1 := by rw [h3]; simp; omega
          by_cases hfit : (Regions.valuesOf s.base rs ++ [r.fn]).length + n ≤ 1024
          · obtain ⟨m2, e, a, b, c, d, f, g⟩ := hl1.fillTo n _ ht hfit
            rw [← h.pc, e] at hX
            injection hX with hX; rw [← hX]; exact g
          · rw [← h.pc, hl1.fillTo_full n _ ht (by omega)] at hX; cases hX
        rw [← h.pc, ← this]
      | overflow => rfl
      | outOfBounds => rfl
    rw [e] at this
    rw [← h.pc] at hX
    simp only [hX]
    exact this
  | cVariadic n =>
    have hn := hvar n hcal
    dsimp only
    unfold Mach.callC
    rw [CallRes.bind_eq hsave, if_pos (by omega)]
    simp only [Callee.params]
    have hl1 := hkeep { m with fp := m.nextFp, frames := { (m.frames.headD ⟨0, 0, 0, 0, 0⟩) with pc := m.pc } :: m.frames.tail } rfl rfl
    have hsp := hl.sp
    simp at hsp
    have hidx : m.nextFp + 1 + (- (-(n : Int) - 1) - 1) = ((Regions.valuesOf s.base rs ++ [r.fn] ++ r.vals.take n).length : Int) := by
      rw [h3]; simp; omega
    have hdiff : m.sp - m.nextFp - (- (-(n : Int) - 1) - 1) = (r.vals.length : Int) - n := by rw [hsp, h3]; omega
    rw [hidx, hdiff]
    rw [← List.take_append_drop n r.vals, ← List.append_assoc] at hl1
    rw [Regions.checked_length]
    have htot : (Regions.values { s with calls := { r with vals := r.vals.take n ++ .int (BitVec.ofInt 64 ((r.vals.length : Int) - n)) :: r.vals.drop n, called := true, returnTo := s.at_ } :: rs, at_ := s.at_ }).length =
        (Regions.valuesOf s.base rs ++ [r.fn] ++ r.vals).length + 1 := by
      simp [Regions.values, Regions.valuesOf]; omega
    rw [htot]
    by_cases hfit : (Regions.valuesOf s.base rs ++ [r.fn] ++ r.vals).length + 1 ≤ 1024
    · rw [if_pos hfit]
      obtain ⟨m2, e, a, b, c, d, f, g⟩ := hl1.insert (.int (BitVec.ofInt 64 ((r.vals.length : Int) - n))) (by simp at hfit ⊢; omega) _ rfl
      rw [e]
      exact .ok (h.called hc (by simpa using a) b c d f (g.trans h.pc))
    · rw [if_neg hfit, hl1.insert_full _ _ (by have := hl.fits; simp at this hfit ⊢; omega)]; rfl

theorem Mach.Rep.finish {n0 : Int} {m : Mach} {s : Regions} (h : m.Rep n0 s) {r : Region} {rs : List Region} (hc : s.calls = r :: rs) (hr : r.called = true)
    (len : Nat) (hlen : len ≤ r.vals.length) : SameRes n0 (m.exitFrameMulti len) (s.finish (r.vals.drop len)) := by
  have h3 := h.nextFp
  have h4 := h.frames
  have h5 := h.loops
  rw [hc] at h3 h4
  simp only [startOf] at h3
  simp only [framesOf] at h4
  simp only [Regions.loops, hc, Regions.loopsOf] at h5
  have hfp := h.fp_top hc hr
  have hl := h.live
  have hvals : s.values = Regions.valuesOf s.base rs ++ (r.fn :: r.vals.take len) ++ r.vals.drop len := by
    simp [Regions.values, hc, Regions.valuesOf]
  rw [hvals] at hl
  obtain ⟨m1, e1, a1, b1, c1, d1, f1, g1⟩ := hl.rmRange m.fp (m.fp + len + 1) hfp (by rw [hfp]; simp [Nat.min_eq_left hlen]; omega)
  unfold Mach.exitFrameMulti Regions.finish
  rw [CallRes.bind_eq e1]
  rw [h4] at d1
  simp only [d1, hc]
  -- the state below
  let t : Regions := { s with calls := rs, at_ := r.returnTo }
  have htop : t.values = Regions.valuesOf s.base rs := rfl
  have hdrop : dropLoops m1.loops ((Regions.loopsOf s.baseLoops rs).length - 1) = Regions.loopsOf s.baseLoops rs := by
    unfold dropLoops
    rw [f1, h5]
    have : (((r.loops ++ Regions.loopsOf s.baseLoops rs).length : Int) - 1 - (((Regions.loopsOf s.baseLoops rs).length : Int) - 1)).toNat = r.loops.length := by
      simp; omega
    rw [this, List.drop_left]
  have finish : ∀ m2 : Mach, m2.Live (t.values ++ wanted r.want (r.vals.drop len)) → m2.loops = m1.loops →
      Mach.Rep n0 { m2 with pc := r.returnTo, fp := fpOf s.base rs, nextFp := startOf n0 s.base rs, loops := dropLoops m2.loops ((Regions.loopsOf s.baseLoops rs).length - 1), frames := framesOf n0 s.base s.baseLoops rs }
        (t.setTop (t.top ++ wanted r.want (r.vals.drop len))) := by
    intro m2 hm2 hlo
    have base : Mach.Rep n0 { m2 with pc := r.returnTo, fp := fpOf s.base rs, nextFp := startOf n0 s.base rs, loops := dropLoops m2.loops ((Regions.loopsOf s.baseLoops rs).length - 1), frames := framesOf n0 s.base s.baseLoops rs, sp := (t.values.length : Int) - 1 } t := by
      refine ⟨⟨rfl, ?_, ?_⟩, rfl, rfl, rfl, ?_, rfl⟩
      · have := hm2.fits; simp at this; omega
      · intro i v hi
        have hlt := (List.getElem?_eq_some_iff.1 hi).1
        exact hm2.vals i v (by rw [List.getElem?_append_left hlt]; exact hi)
      · simp only [hlo]; exact hdrop
    refine base.setTop _ ?_ rfl rfl rfl rfl rfl
    rw [← List.append_assoc, ← t.values_split]
    exact ⟨hm2.sp, hm2.fits, hm2.vals⟩
  have hcheck : ∀ l, (t.setTop (t.top ++ l)).checked = if t.values.length + l.length ≤ 1024 then .ok (t.setTop (t.top ++ l)) else .overflow := by
    intro l
    rw [Regions.checked_length, Regions.values_setTop, ← List.append_assoc, ← t.values_split, List.length_append]
  show SameRes n0 _ ((t.setTop (t.top ++ wanted r.want (r.vals.drop len))).checked)
  rw [hcheck]
  by_cases hw : r.want ≥ 0
  · rw [if_pos hw]
    have hwl : wanted r.want (r.vals.drop len) = exactly r.want.toNat (r.vals.drop len) := by unfold wanted; rw [if_neg (by omega)]
    have hwlen : (wanted r.want (r.vals.drop len)).length = r.want.toNat := by
      rw [hwl]; unfold exactly; simp; omega
    have ht : r.want - 1 + m1.fp = ((Regions.valuesOf s.base rs).length : Int) + r.want.toNat - 1 := by rw [b1, hfp]; omega
    rw [hwlen]
    by_cases hfit : t.values.length + r.want.toNat ≤ 1024
    · rw [if_pos hfit]
      obtain ⟨m2, e2, a2, b2, c2, d2, f2, g2⟩ := a1.fillTo r.want.toNat _ ht hfit
      rw [CallRes.bind_eq e2]
      exact .ok (finish m2 (by rw [hwl]; exact a2) f2)
    · rw [if_neg hfit, a1.fillTo_full r.want.toNat _ ht (by rw [htop] at hfit; omega)]; rfl
  · rw [if_neg hw]
    have hwl : wanted r.want (r.vals.drop len) = r.vals.drop len := by unfold wanted; rw [if_pos (by omega)]
    have := a1.fits
    rw [if_pos (by rw [hwl, htop]; simpa using this)]
    exact .ok (finish m1 (by rw [hwl]; exact a1) rfl)

theorem Regions.setTopLoops_rep {n0 : Int} {m : Mach} {s : Regions} (h : m.Rep n0 s) (l : List (Nat × Val)) (m' : Mach)
    (hm : m' = { m with loops := (s.setTopLoops l).loops }) : m'.Rep n0 (s.setTopLoops l) := by
  subst hm
  have h1 := h.live
  have h2 := h.fp
  have h3 := h.nextFp
  have h4 := h.frames
  have h6 := h.pc
  refine ⟨?_, ?_, ?_, ?_, rfl, ?_⟩
  · have : (s.setTopLoops l).values = s.values := by
      unfold Regions.setTopLoops Regions.values; rcases hc : s.calls with _ | ⟨r, rs⟩ <;> simp [Regions.valuesOf]
    rw [this]; exact ⟨h1.sp, h1.fits, h1.vals⟩
  · simp only [h2]; unfold Regions.setTopLoops; rcases hc : s.calls with _ | ⟨r, rs⟩ <;> simp [fpOf]
  · simp only [h3]; unfold Regions.setTopLoops; rcases hc : s.calls with _ | ⟨r, rs⟩ <;> simp [startOf]
  · simp only [h4]; unfold Regions.setTopLoops; rcases hc : s.calls with _ | ⟨r, rs⟩ <;> simp [framesOf]
  · simp only [h6]; unfold Regions.setTopLoops; rcases hc : s.calls with _ | ⟨r, rs⟩ <;> rfl

theorem Regions.loops_split (s : Regions) : ∃ rest, s.loops = s.topLoops ++ rest ∧ ∀ l, (s.setTopLoops l).loops = l ++ rest := by
  unfold Regions.loops Regions.topLoops Regions.setTopLoops
  rcases s.calls with _ | ⟨r, rs⟩
  · exact ⟨[], by simp [Regions.loopsOf], by simp [Regions.loopsOf]⟩
  · exact ⟨Regions.loopsOf s.baseLoops rs, by simp [Regions.loopsOf], by simp [Regions.loopsOf]⟩

theorem possible_ret {callee : Val → Callee} {s : Regions} {o : CallOp} (hp : s.possible callee o) :
    match o with
    | .ret len => ∃ r rs, s.calls = r :: rs ∧ r.called = true ∧ len ≤ r.vals.length
    | .retC n => ∃ r rs, s.calls = r :: rs ∧ r.called = true ∧ n ≤ r.vals.length
    | _ => True := by
  cases o <;> try trivial
  all_goals
    simp only [Regions.possible] at hp ⊢
    split at hp
    · rename_i r rs hc; exact ⟨r, rs, hc, hp⟩
    · exact hp.elim

theorem Mach.Rep.op {n0 : Int} {m : Mach} {s : Regions} (callee : Val → Callee) (h : m.Rep n0 s) (o : CallOp) (hp : s.possible callee o) :
    SameRes n0 (m.op callee o) (s.op callee o) := by
  cases o with
  | push v => exact h.push v
  | pop =>
    obtain ⟨a, b⟩ := h.pop hp
    simp only [Mach.op, Regions.op]
    rw [CallRes.bind_eq a]
    exact .ok b
  | goto_ pc => exact .ok ⟨⟨h.live.sp, h.live.fits, h.live.vals⟩, h.fp, h.nextFp, h.frames, h.loops, rfl⟩
  | start want =>
    refine h.start callee want ?_
    intro e
    simp [Regions.possible, e] at hp
  | call => exact h.call callee hp
  | ret len =>
    obtain ⟨r, rs, hc, hr, hlen⟩ := possible_ret hp
    have ht : s.top = r.vals := by simp [Regions.top, hc]
    simp only [Mach.op, Mach.ret, Regions.op, ht]
    exact h.finish hc hr len hlen
  | retC n =>
    obtain ⟨r, rs, hc, hr, hlen⟩ := possible_ret hp
    have ht : s.top = r.vals := by simp [Regions.top, hc]
    simp only [Mach.op, Mach.retC, Regions.op, ht]
    have hfp := h.fp_top hc hr
    have hsp := h.live.sp
    have hvl : (s.values.length : Int) = (Regions.valuesOf s.base rs).length + 1 + r.vals.length := by
      simp [Regions.values, hc, Regions.valuesOf]; omega
    have e : m.sp - n - m.fp = ((r.vals.length - n : Nat) : Int) := by rw [hfp, hsp]; omega
    rw [e]
    exact h.finish hc hr _ (by omega)
  | loop =>
    simp only [Mach.op, Mach.initFor, Regions.op]
    rw [h.loops]
    by_cases hl : s.loops.length < 16
    · rw [if_pos hl, if_neg (by omega)]
      obtain ⟨a, b⟩ := h.pop hp
      rw [CallRes.bind_eq a]
      refine .ok (Regions.setTopLoops_rep b _ _ ?_)
      obtain ⟨rest, e1, e2⟩ := (s.setTop s.top.dropLast).loops_split
      have e3 := b.loops
      simp only at e3
      have e4 : (s.setTop s.top.dropLast).topLoops = s.topLoops := by
        unfold Regions.setTop Regions.topLoops; rcases s.calls with _ | ⟨r, rs⟩ <;> rfl
      rw [e2, e3, e1, e4]; rfl
    · rw [if_neg hl, if_pos (by omega)]; rfl
  | endLoop =>
    simp only [Mach.op, Mach.endFor, Regions.op]
    obtain ⟨rest, e1, e2⟩ := s.loops_split
    rw [h.loops, e1]
    rcases ht : s.topLoops with _ | ⟨x, xs⟩
    · exact absurd ht hp
    · simp only [List.cons_append]
      refine .ok (Regions.setTopLoops_rep h _ _ ?_)
      rw [e2]; rfl

theorem Mach.Rep.run {n0 : Int} (callee : Val → Callee) : ∀ (ops : List CallOp) {m : Mach} {s : Regions}, m.Rep n0 s → s.all callee ops →
    SameRes n0 (m.run callee ops) (s.run callee ops)
  | [], _, _, h, _ => .ok h
  | o :: os, m, s, h, ha => by
    have := h.op callee o ha.1
    unfold Mach.run Regions.run
    cases hs : s.op callee o with
    | ok t =>
      rw [hs] at this
      obtain ⟨m', e, hm'⟩ := this
      rw [CallRes.bind_eq e]
      refine hm'.run callee os ?_
      have := ha.2
      rw [hs] at this; exact this
    | overflow => rw [hs] at this; rw [this]; rfl
    | outOfBounds => rw [hs] at this; rw [this]; rfl

end Yasl
