import Verif.Model.Metatable
import Verif.Props.Calls
import Verif.Props.Table
set_option autoImplicit false
/-!
# C104, C105: metatables and methods of operators
-/
namespace Yasl

/-- Nothing but the values on the stack differs. -/
def SameFrame (m m' : Mach) : Prop := m'.fp = m.fp ∧ m'.nextFp = m.nextFp ∧ m'.frames = m.frames ∧ m'.loops = m.loops ∧ m'.pc = m.pc

theorem SameFrame.trans {a b c : Mach} (h : SameFrame a b) (g : SameFrame b c) : SameFrame a c :=
  ⟨g.1.trans h.1, g.2.1.trans h.2.1, g.2.2.1.trans h.2.2.1, g.2.2.2.1.trans h.2.2.2.1, g.2.2.2.2.trans h.2.2.2.2⟩

theorem pop_frame {m : Mach} {l : List Val} {v : Val} (h : m.Live (l ++ [v])) : ∃ m', m.pop = .ok (v, m') ∧ m'.Live l ∧ SameFrame m m' :=
  ⟨_, h.pop.1, h.pop.2, rfl, rfl, rfl, rfl, rfl⟩

theorem push_frame {m : Mach} {l : List Val} (h : m.Live l) (v : Val) (hl : l.length < 1024) : ∃ m', m.push v = .ok m' ∧ m'.Live (l ++ [v]) ∧ SameFrame m m' := by
  obtain ⟨m', e, a, b⟩ := h.push v hl
  exact ⟨m', e, a, b⟩

theorem getMetatable_live {m : Mach} {h : Metas} {l : List Val} {v : Val} (hm : m.Live (l ++ [v])) {r : Option Nat} (hr : h.of v = .ok r) :
    ∃ m', m.getMetatable h = .ok m' ∧ m'.Live (l ++ [tableOrUndef r]) ∧ SameFrame m m' := by
  obtain ⟨m1, e1, h1, s1⟩ := pop_frame hm
  have hf := hm.fits
  simp at hf
  obtain ⟨m2, e2, h2, s2⟩ := push_frame h1 (tableOrUndef r) (by omega)
  refine ⟨m2, ?_, h2, s1.trans s2⟩
  unfold Mach.getMetatable
  rw [e1]
  show (h.of v).bind _ = _
  rw [hr]
  show (m1.push _).toM = _
  rw [e2]; rfl

theorem lookup_live {m : Mach} {h : Metas} {l : List Val} {v : Val} (hm : m.Live (l ++ [v])) {r : Option Nat} (hr : h.of v = .ok r) (f : Nat) (name : List Byte) :
    (r = none → m.lookupMethod f h name = .typeError) ∧
    (∀ a, r = some a → (h.tab a).search f (.str name) = some .end_ → m.lookupMethod f h name = .typeError) ∧
    (∀ a g, r = some a → (h.tab a).search f (.str name) = some g → g ≠ .end_ → ∃ m', m.lookupMethod f h name = .ok m' ∧ m'.Live (l ++ [g]) ∧ SameFrame m m') := by
  obtain ⟨m1, e1, h1, s1⟩ := getMetatable_live hm hr
  obtain ⟨m2, e2, h2, s2⟩ := pop_frame h1
  have e3 := peek_live h1
  have hf := hm.fits
  simp at hf
  refine ⟨?_, ?_, ?_⟩
  · rintro rfl
    unfold Mach.lookupMethod
    rw [e1]
    show m1.peek.toM.bind _ = _
    rw [e3]
    show m1.pop.toM.bind _ = _
    rw [e2]; rfl
  · rintro a rfl hs
    unfold Mach.lookupMethod
    rw [e1]
    show m1.peek.toM.bind _ = _
    rw [e3]
    show m1.pop.toM.bind _ = _
    rw [e2]
    simp [CallRes.toM, MtRes.bind, tableOrUndef, hs, Val.tag]
  · rintro a g rfl hs hg
    obtain ⟨m3, e4, h3, s3⟩ := push_frame h2 g (by omega)
    refine ⟨m3, ?_, h3, s1.trans (s2.trans s3)⟩
    unfold Mach.lookupMethod
    rw [e1]
    show m1.peek.toM.bind _ = _
    rw [e3]
    show m1.pop.toM.bind _ = _
    rw [e2]
    have ht : g.tag ≠ .end_ := by cases g <;> simp_all [Val.tag]
    simp [CallRes.toM, MtRes.bind, tableOrUndef, hs, ht, e4]

theorem shift_live {m : Mach} {l args : List Val} {top : Val} (h : m.Live (l ++ args ++ [top])) (hn : args ≠ []) :
    ∃ m', m.shiftTopDown args.length = .ok m' ∧ m'.Live (l ++ top :: args) ∧ SameFrame m m' ∧ m'.sp = m.sp := by
  have hs := h.sp
  have hf := h.fits
  simp at hs hf
  have hpos : 0 < args.length := List.length_pos_iff.2 hn
  have e1 := peek_live h
  refine ⟨{ m with slots := fun j => if j = m.sp - args.length then top else if m.sp - args.length + 1 ≤ j ∧ j < m.sp - args.length + 1 + args.length then m.slots (j - (m.sp - args.length + 1) + (m.sp - args.length)) else m.slots j }, ?_, ⟨?_, ?_, ?_⟩, ⟨rfl, rfl, rfl, rfl, rfl⟩, rfl⟩
  · unfold Mach.shiftTopDown
    rw [e1]
    show (m.memmove _ _ _).toM.bind _ = _
    rw [Mach.memmove_ok m _ _ _ (by omega) (by omega)]
    show (Mach.write _ _ _).toM = _
    rw [Mach.write_ok _ _ _ (by show 0 ≤ m.sp - args.length ∧ m.sp - args.length < 1024; omega)]
    rfl
  · simp; omega
  · simp; omega
  · intro i v hi
    dsimp only
    rcases Nat.lt_trichotomy i l.length with hlt | heq | hgt
    · rw [if_neg (by omega), if_neg (by omega)]
      refine h.vals i v ?_
      rw [List.getElem?_append_left hlt] at hi
      rw [List.append_assoc, List.getElem?_append_left hlt]; exact hi
    · subst heq
      rw [if_pos (by omega)]
      simp at hi; exact hi
    · rw [if_neg (by omega)]
      rw [List.getElem?_append_right (by omega)] at hi
      obtain ⟨j, hj⟩ : ∃ j, i = l.length + 1 + j := ⟨i - (l.length + 1), by omega⟩
      subst hj
      rw [show l.length + 1 + j - l.length = j + 1 by omega, List.getElem?_cons_succ] at hi
      have hjl := (List.getElem?_eq_some_iff.1 hi).1
      rw [if_pos (by omega)]
      have := h.vals (l.length + j) v (by
        rw [List.append_assoc, List.getElem?_append_right (by omega), show l.length + j - l.length = j by omega, List.getElem?_append_left hjl]; exact hi)
      rw [← this]; congr 1; omega

theorem swap_live {m : Mach} {l : List Val} {a b : Val} (h : m.Live (l ++ [a] ++ [b])) :
    ∃ m', m.swapTop = .ok m' ∧ m'.Live (l ++ b :: [a]) ∧ SameFrame m m' ∧ m'.sp = m.sp := by
  have hs := h.sp
  have hf := h.fits
  simp at hs hf
  have e1 := peek_live h
  have ha : m.slots (m.sp - 1) = a := by
    have := h.vals l.length a (by simp)
    rw [← this]; congr 1; omega
  refine ⟨{ m with slots := fun j => if j = m.sp - 1 then b else if j = m.sp then a else m.slots j }, ?_, ⟨?_, ?_, ?_⟩, ⟨rfl, rfl, rfl, rfl, rfl⟩, rfl⟩
  · unfold Mach.swapTop
    rw [e1]
    show (m.write _ _).toM.bind _ = _
    rw [Mach.write_ok _ _ _ (by omega), ha]
    show (Mach.write _ _ _).toM = _
    rw [Mach.write_ok _ _ _ (by show 0 ≤ m.sp - 1 ∧ m.sp - 1 < 1024; omega)]
    rfl
  · simp; omega
  · simp; omega
  · intro i v hi
    dsimp only
    have hlen := (List.getElem?_eq_some_iff.1 hi).1
    simp at hlen
    rcases Nat.lt_trichotomy i l.length with hlt | heq | hgt
    · rw [if_neg (by omega), if_neg (by omega)]
      refine h.vals i v ?_
      rw [List.getElem?_append_left hlt] at hi
      rw [List.append_assoc, List.getElem?_append_left hlt]; exact hi
    · subst heq
      rw [if_pos (by omega)]
      simp at hi; exact hi
    · obtain rfl : i = l.length + 1 := by omega
      rw [if_neg (by omega), if_pos (by omega)]
      rw [List.getElem?_append_right (by omega)] at hi
      simp at hi; exact hi

/-- The call `f(args)` that wants `want` results, in place of the top values of `s` above `l`. -/
def Regions.calling (s : Regions) (callee : Val → Callee) (l : List Val) (f : Val) (args : List Val) (want : Int) : CallRes Regions :=
  (s.setTop (l ++ [f])).run callee (.start want :: args.map .push ++ [.call])

theorem setTop_top (s : Regions) (l : List Val) : (s.setTop l).top = l := by unfold Regions.setTop Regions.top; rcases s.calls with _ | ⟨r, rs⟩ <;> rfl
theorem setTop_setTop (s : Regions) (l l' : List Val) : (s.setTop l).setTop l' = s.setTop l' := by unfold Regions.setTop; rcases s.calls with _ | ⟨r, rs⟩ <;> rfl
theorem setTop_calls_length (s : Regions) (l : List Val) : (s.setTop l).calls.length = s.calls.length := by unfold Regions.setTop; rcases s.calls with _ | ⟨r, rs⟩ <;> rfl
theorem setTop_at (s : Regions) (l : List Val) : (s.setTop l).at_ = s.at_ := by unfold Regions.setTop; rcases s.calls with _ | ⟨r, rs⟩ <;> rfl
theorem setTop_below (s : Regions) (l : List Val) : (s.setTop l).below = s.below := by unfold Regions.setTop Regions.below; rcases s.calls with _ | ⟨r, rs⟩ <;> rfl

theorem pushes_spec (callee : Val → Callee) (rest : List CallOp) : ∀ (args : List Val) (t : Regions), t.values.length + args.length ≤ 1024 →
    t.run callee (args.map .push ++ rest) = (t.setTop (t.top ++ args)).run callee rest
  | [], t, _ => by
    have : t.setTop t.top = t := by unfold Regions.setTop Regions.top; cases t with | mk b bl c a => cases c <;> rfl
    simp [this]
  | v :: vs, t, h => by
    simp only [List.map_cons, List.cons_append, Regions.run, Regions.op]
    have hlen : (t.setTop (t.top ++ [v])).values.length = t.values.length + 1 := by rw [Regions.values_setTop, t.values_split]; simp; omega
    simp only [List.length_cons] at h
    unfold Regions.checked
    rw [if_pos (by omega)]
    show Regions.run callee (t.setTop (t.top ++ [v])) _ = _
    rw [pushes_spec callee rest vs _ (by omega), setTop_top, setTop_setTop]
    simp

theorem calling_eq (s : Regions) (callee : Val → Callee) (l : List Val) (f : Val) (args : List Val) (want : Int) (hcalls : s.calls.length < 1000)
    (hroom : s.below.length + l.length + 1 + args.length ≤ 1024) :
    s.calling callee l f args want = Regions.op callee { s.setTop l with calls := ⟨f, args, want, s.at_, false, []⟩ :: (s.setTop l).calls } .call := by
  unfold Regions.calling
  simp only [Regions.run, List.cons_append, Regions.op, setTop_top, setTop_setTop, setTop_calls_length, setTop_at, if_pos hcalls, List.dropLast_concat]
  rw [show (l ++ [f]).getLastD Val.undef = f by simp]
  simp only [CallRes.bind]
  rw [pushes_spec callee _ args _ (by
    show (Regions.valuesOf (s.setTop l).base (s.setTop l).calls ++ f :: []).length + _ ≤ _
    have := s.values_setTop l
    unfold Regions.values at this
    rw [this]; simp; omega)]
  simp only [Regions.setTop, Regions.top, List.nil_append, Regions.run, Regions.op]
  cases Regions.checked _ <;> rfl

/-- A method `f` is called with `args`, after it was put below them. -/
theorem method_called {n0 : Int} {m m1 : Mach} {s : Regions} (callee : Val → Callee) (h : m.Rep n0 s) (l args : List Val) (f : Val)
    (hl : m1.Live (s.below ++ l ++ f :: args)) (hs : SameFrame m m1) (want : Int) (hc : callee f ≠ .notCallable) (hv : ∀ n, callee f = .cVariadic n → n ≤ args.length)
    (hcalls : s.calls.length < 1000) :
    ∃ r, ((m1.initCallOffset (m1.sp - args.length) want).toM.bind fun m => (m.call callee).toM) = r.toM ∧ SameRes n0 r (s.calling callee l f args want) := by
  have h1 : m1.Rep n0 (s.setTop (l ++ f :: args)) := h.setTop _ (by simpa using hl) hs.1 hs.2.1 hs.2.2.1 hs.2.2.2.1 hs.2.2.2.2
  obtain ⟨m2, e2, -, h2⟩ := init_offset h1 l f args (setTop_top _ _) want (by rw [setTop_calls_length]; exact hcalls)
  rw [setTop_setTop, setTop_at] at h2
  have hfit := hl.fits
  refine ⟨m2.call callee, by rw [e2]; rfl, ?_⟩
  rw [calling_eq s callee l f args want hcalls (by simp at hfit; omega)]
  refine h2.call callee ?_
  refine ⟨rfl, ?_⟩
  show match callee f with | .notCallable => False | .cVariadic n => n ≤ args.length | _ => True
  cases hcf : callee f with
  | notCallable => exact absurd hcf hc
  | cVariadic n => exact hv n hcf
  | _ => trivial

/-- What `v` answers to a method name: the entry of its metatable, for objects the one that was set, for other values that of their type. -/
def Metas.method (h : Metas) (f : Nat) (v : Val) (name : List Byte) (g : Val) : Prop :=
  ∃ a, h.of v = .ok (some a) ∧ (h.tab a).search f (.str name) = some g ∧ g ≠ .end_

/-- `v` has no such method. -/
def Metas.noMethod (h : Metas) (f : Nat) (v : Val) (name : List Byte) : Prop :=
  h.of v = .ok none ∨ ∃ a, h.of v = .ok (some a) ∧ (h.tab a).search f (.str name) = some .end_

theorem lookup_method {m : Mach} {h : Metas} {l : List Val} {v : Val} (hm : m.Live (l ++ [v])) {f : Nat} {name : List Byte} {g : Val} (hg : h.method f v name g) :
    ∃ m', m.lookupMethod f h name = .ok m' ∧ m'.Live (l ++ [g]) ∧ SameFrame m m' := by
  obtain ⟨a, h1, h2, h3⟩ := hg
  exact (lookup_live hm h1 f name).2.2 a g rfl h2 h3

theorem lookup_noMethod {m : Mach} {h : Metas} {l : List Val} {v : Val} (hm : m.Live (l ++ [v])) {f : Nat} {name : List Byte} (hg : h.noMethod f v name) :
    m.lookupMethod f h name = .typeError := by
  rcases hg with h1 | ⟨a, h1, h2⟩
  · exact (lookup_live hm h1 f name).1 rfl
  · exact (lookup_live hm h1 f name).2.1 a rfl h2

theorem slot_live {m : Mach} {l l2 : List Val} {v : Val} (h : m.Live (l ++ v :: l2)) : m.slots (m.sp - l2.length) = v := by
  have := h.vals l.length v (by simp)
  have hs := h.sp
  simp at hs
  rw [← this]; congr 1; omega

/-- **C105** An arithmetic operator or `==` on operands that are handled by a method: it is the call of the left operand's method with both operands, with one
result; the metatable of the right operand plays no part. -/
theorem C105_binary (callee : Val → Callee) (n0 : Int) (m : Mach) (s : Regions) (h : m.Rep n0 s) (l : List Val) (a b : Val) (htop : s.top = l ++ [a, b])
    (hcalls : s.calls.length < 1000) (hroom : s.values.length < 1024) (metas : Metas) (fuel : Nat) (name : List Byte) :
    (∀ g, metas.method fuel a name g → callee g ≠ .notCallable → (∀ n, callee g = .cVariadic n → n ≤ 2) →
      ∃ r, m.binMethod fuel metas callee name = r.toM ∧ SameRes n0 r (s.calling callee l g [a, b] 1)) ∧
    (metas.noMethod fuel a name → m.binMethod fuel metas callee name = .typeError) := by
  have hl := h.live
  have hvs : s.values = (s.below ++ l) ++ a :: [b] := by rw [s.values_split, htop]; simp
  rw [hvs] at hl hroom
  have ha := slot_live hl
  simp only [List.length_singleton] at ha
  obtain ⟨m1, e1, h1, s1⟩ := push_frame hl a hroom
  constructor
  · intro g hg hc hv
    obtain ⟨m2, e2, h2, s2⟩ := lookup_method h1 hg
    obtain ⟨m3, e3, h3, s3, -⟩ := shift_live (args := [a, b]) (l := s.below ++ l) h2 (by simp)
    obtain ⟨r, er, hr⟩ := method_called callee h l [a, b] g h3 (s1.trans (s2.trans s3)) 1 hc hv hcalls
    refine ⟨r, ?_, hr⟩
    unfold Mach.binMethod
    have ha' : m.slots (m.sp - 1) = a := ha
    rw [ha', e1]
    show (m1.lookupMethod fuel metas name).bind _ = _
    rw [e2]
    show (m2.shiftTopDown 2).bind _ = _
    rw [show (2 : Nat) = [a, b].length from rfl, e3]
    exact er
  · intro hg
    unfold Mach.binMethod
    have ha' : m.slots (m.sp - 1) = a := ha
    rw [ha', e1]
    show (m1.lookupMethod fuel metas name).bind _ = _
    rw [lookup_noMethod h1 hg]; rfl

/-- **C105** The same for the comparisons `<`, `<=`, `>`, `>=`. -/
theorem C105_comparison (callee : Val → Callee) (n0 : Int) (m : Mach) (s : Regions) (h : m.Rep n0 s) (l : List Val) (a b : Val) (htop : s.top = l ++ [a, b])
    (hcalls : s.calls.length < 1000) (hroom : s.values.length < 1024) (metas : Metas) (fuel : Nat) (name : List Byte) :
    (∀ g, metas.method fuel a name g → callee g ≠ .notCallable → (∀ n, callee g = .cVariadic n → n ≤ 2) →
      ∃ r, m.cmpMethod fuel metas callee name = r.toM ∧ SameRes n0 r (s.calling callee l g [a, b] 1)) ∧
    (metas.noMethod fuel a name → m.cmpMethod fuel metas callee name = .typeError) := by
  have hl := h.live
  have hvs : s.values = (s.below ++ l ++ [a]) ++ [b] := by rw [s.values_split, htop]; simp
  rw [hvs] at hl hroom
  simp at hroom
  obtain ⟨m1, e1, h1, s1⟩ := pop_frame hl
  obtain ⟨m2, e2, h2, s2⟩ := pop_frame h1
  obtain ⟨m3, e3, h3, s3⟩ := push_frame h2 a (by simp; omega)
  constructor
  · intro g hg hc hv
    obtain ⟨m4, e4, h4, s4⟩ := lookup_method h3 hg
    have sf := s1.trans (s2.trans (s3.trans s4))
    have h5 : m4.Rep n0 (s.setTop (l ++ [g])) := h.setTop _ (by simpa using h4) sf.1 sf.2.1 sf.2.2.1 sf.2.2.2.1 sf.2.2.2.2
    refine ⟨m4.run callee [.start 1, .push a, .push b, .call], ?_, ?_⟩
    · unfold Mach.cmpMethod
      rw [e1]
      show m1.pop.toM.bind _ = _
      rw [e2]
      show (m2.push a).toM.bind _ = _
      rw [e3]
      show (m3.lookupMethod fuel metas name).bind _ = _
      rw [e4]
      show (m4.initCall 1).toM.bind _ = _
      simp only [Mach.run, Mach.op]
      cases m4.initCall 1 with
      | ok m5 =>
        simp only [CallRes.toM, CallRes.bind, MtRes.bind]
        cases m5.push a with
        | ok m6 =>
          simp only [CallRes.toM, CallRes.bind, MtRes.bind]
          cases m6.push b with
          | ok m7 => simp only [CallRes.toM, CallRes.bind, MtRes.bind]; cases m7.call callee <;> rfl
          | overflow => rfl
          | outOfBounds => rfl
        | overflow => rfl
        | outOfBounds => rfl
      | overflow => rfl
      | outOfBounds => rfl
    · refine h5.run callee [.start 1, .push a, .push b, .call] ?_
      refine ⟨by simpa [Regions.possible, setTop_top] using hc, ?_⟩
      simp only [Regions.op, setTop_top, setTop_setTop, setTop_calls_length, setTop_at, if_pos hcalls, List.dropLast_concat]
      rw [show (l ++ [g]).getLastD Val.undef = g by simp]
      refine ⟨trivial, ?_⟩
      simp only [Regions.op, Regions.checked]
      split
      · rename_i hq
        split at hq
        · injection hq with hq; subst hq
          refine ⟨trivial, ?_⟩
          simp only [Regions.op, Regions.checked]
          split
          · rename_i hq
            split at hq
            · injection hq with hq; subst hq
              refine ⟨⟨rfl, ?_⟩, ?_⟩
              · show match callee g with | .notCallable => False | .cVariadic n => n ≤ 2 | _ => True
                cases hcf : callee g with
                | notCallable => exact absurd hcf hc
                | cVariadic n => exact hv n hcf
                | _ => trivial
              · split <;> trivial
            · cases hq
          · trivial
        · cases hq
      · trivial
  · intro hg
    unfold Mach.cmpMethod
    rw [e1]
    show m1.pop.toM.bind _ = _
    rw [e2]
    show (m2.push a).toM.bind _ = _
    rw [e3]
    show (m3.lookupMethod fuel metas name).bind _ = _
    rw [lookup_noMethod h3 hg]; rfl

/-- **C105** Unary operators and `len`: the call of the operand's method with the operand. -/
theorem C105_unary (callee : Val → Callee) (n0 : Int) (m : Mach) (s : Regions) (h : m.Rep n0 s) (l : List Val) (a : Val) (htop : s.top = l ++ [a])
    (hcalls : s.calls.length < 1000) (hroom : s.values.length < 1024) (metas : Metas) (fuel : Nat) (name : List Byte) :
    (∀ g, metas.method fuel a name g → callee g ≠ .notCallable → (∀ n, callee g = .cVariadic n → n ≤ 1) →
      ∃ r, m.unMethod fuel metas callee name = r.toM ∧ SameRes n0 r (s.calling callee l g [a] 1)) ∧
    (metas.noMethod fuel a name → m.unMethod fuel metas callee name = .typeError) := by
  have hl := h.live
  have hvs : s.values = (s.below ++ l) ++ [a] := by rw [s.values_split, htop]; simp
  rw [hvs] at hl hroom
  have ha := peek_live hl
  obtain ⟨m1, e1, h1, s1⟩ := push_frame hl a hroom
  constructor
  · intro g hg hc hv
    obtain ⟨m2, e2, h2, s2⟩ := lookup_method h1 hg
    obtain ⟨m3, e3, h3, s3, -⟩ := swap_live h2
    obtain ⟨r, er, hr⟩ := method_called callee h l [a] g h3 (s1.trans (s2.trans s3)) 1 hc hv hcalls
    refine ⟨r, ?_, hr⟩
    unfold Mach.unMethod
    rw [ha]
    show (m.push a).toM.bind _ = _
    rw [e1]
    show (m1.lookupMethod fuel metas name).bind _ = _
    rw [e2]
    show (m2.swapTop).bind _ = _
    rw [e3]
    exact er
  · intro hg
    unfold Mach.unMethod
    rw [ha]
    show (m.push a).toM.bind _ = _
    rw [e1]
    show (m1.lookupMethod fuel metas name).bind _ = _
    rw [lookup_noMethod h1 hg]; rfl

/-- **C105** `a[k] = v`: the call of the method `__set` of `a` with `a`, `k` and `v`, which leaves nothing. -/
theorem C105_set (callee : Val → Callee) (n0 : Int) (m : Mach) (s : Regions) (h : m.Rep n0 s) (l : List Val) (a k v : Val) (htop : s.top = l ++ [a, k, v])
    (hcalls : s.calls.length < 1000) (hroom : s.values.length < 1024) (metas : Metas) (fuel : Nat) :
    (∀ g, metas.method fuel a (ascii "__set") g → callee g ≠ .notCallable → (∀ n, callee g = .cVariadic n → n ≤ 3) →
      ∃ r, m.setMethod fuel metas callee = r.toM ∧ SameRes n0 r (s.calling callee l g [a, k, v] 0)) ∧
    (metas.noMethod fuel a (ascii "__set") → m.setMethod fuel metas callee = .typeError) := by
  have hl := h.live
  have hvs : s.values = (s.below ++ l) ++ a :: [k, v] := by rw [s.values_split, htop]; simp
  rw [hvs] at hl hroom
  have ha := slot_live hl
  obtain ⟨m1, e1, h1, s1⟩ := push_frame hl a hroom
  have ha' : m.slots (m.sp - 2) = a := ha
  constructor
  · intro g hg hc hv
    obtain ⟨m2, e2, h2, s2⟩ := lookup_method h1 hg
    obtain ⟨m3, e3, h3, s3, -⟩ := shift_live (args := [a, k, v]) (l := s.below ++ l) h2 (by simp)
    obtain ⟨r, er, hr⟩ := method_called callee h l [a, k, v] g h3 (s1.trans (s2.trans s3)) 0 hc hv hcalls
    refine ⟨r, ?_, hr⟩
    unfold Mach.setMethod
    rw [ha', e1]
    show (m1.lookupMethod fuel metas _).bind _ = _
    rw [e2]
    show (m2.shiftTopDown 3).bind _ = _
    rw [show (3 : Nat) = [a, k, v].length from rfl, e3]
    exact er
  · intro hg
    unfold Mach.setMethod
    rw [ha', e1]
    show (m1.lookupMethod fuel metas _).bind _ = _
    rw [lookup_noMethod h1 hg]; rfl

/-- **C105** An object with a method `__call` is called as this method, without the object among the arguments: after the start the machine is as if the method itself
had been on top of the stack. -/
theorem C105_call_without_self (callee : Val → Callee) (n0 : Int) (m : Mach) (s : Regions) (h : m.Rep n0 s) (l : List Val) (a : Val) (htop : s.top = l ++ [a])
    (metas : Metas) (fuel : Nat) (want : Int) :
    (∀ g, metas.method fuel a (ascii "__call") g → ∃ r, m.startObject fuel metas want = r.toM ∧ SameRes n0 r ((s.setTop (l ++ [g])).op callee (.start want))) ∧
    (metas.noMethod fuel a (ascii "__call") → m.startObject fuel metas want = .typeError) := by
  have hl := h.live
  have hvs : s.values = (s.below ++ l) ++ [a] := by rw [s.values_split, htop]; simp
  rw [hvs] at hl
  constructor
  · intro g hg
    obtain ⟨m2, e2, h2, s2⟩ := lookup_method hl hg
    have hsp : m2.sp = m.sp := by rw [h2.sp, hl.sp]; simp
    have h5 : m2.Rep n0 (s.setTop (l ++ [g])) := h.setTop _ (by simpa using h2) s2.1 s2.2.1 s2.2.2.1 s2.2.2.2.1 s2.2.2.2.2
    refine ⟨m2.initCall want, ?_, h5.start callee want (by rw [setTop_top]; simp)⟩
    unfold Mach.startObject
    rw [e2, ← hsp]; rfl
  · intro hg
    unfold Mach.startObject
    rw [lookup_noMethod hl hg]; rfl

/-! ## C104: mt.get and mt.set -/

/-- **C104** `mt.get(v)` in any state: the metatable, or `undef`. -/
theorem C104_get (h : Metas) (m : Mach) (l : List Val) (v : Val) (hm : m.Live (l ++ [v])) (r : Option Nat) (hr : h.of v = .ok r) :
    ∃ m', mtGetC h m = .ok (m', 1) ∧ m'.Live (l ++ [match r with | some a => .ref .table a | none => .undef]) := by
  obtain ⟨m', e, h1, -⟩ := getMetatable_live hm hr
  refine ⟨m', by unfold mtGetC; rw [e]; rfl, ?_⟩
  cases r <;> exact h1

/-- **C104** `mt.set(v, t)`: for an object and a table it sets the metatable of this object and of no other, and returns the object; else it is a type error. -/
theorem C104_set (h : Metas) (m : Mach) (l : List Val) (v t : Val) (hm : m.Live (l ++ [v, t])) :
    ((∃ k a b, v = .ref k a ∧ (k = .list ∨ k = .table ∨ k = .userdata) ∧ t = .ref .table b ∧
      ∃ h' m', mtSetC h m = .ok (h', m', 1) ∧ m'.Live (l ++ [v]) ∧ h'.of v = .ok (some b) ∧ h'.tab = h.tab ∧
        ∀ w, ownMt w ≠ some a → h'.of w = h.of w)) ∨
    ((¬ ((∃ b, t = .ref .table b) ∧ ∃ k a, v = .ref k a ∧ (k = .list ∨ k = .table ∨ k = .userdata))) ∧ mtSetC h m = .typeError) := by
  have hm' : m.Live ((l ++ [v]) ++ [t]) := by simpa using hm
  have e1 := peek_live hm'
  obtain ⟨m1, e2, h1, -⟩ := pop_frame hm'
  have e3 := peek_live h1
  by_cases ht : ∃ b, t = .ref .table b
  · obtain ⟨b, rfl⟩ := ht
    have e : mtSetC h m = match ownMt v with | some a => .ok (h.set a (some b), m1, 1) | none => .typeError := by
      unfold mtSetC
      rw [e1]
      show m.pop.toM.bind _ = _
      rw [e2]
      show m1.peek.toM.bind _ = _
      rw [e3]; rfl
    by_cases hv : ∃ k a, v = .ref k a ∧ (k = .list ∨ k = .table ∨ k = .userdata)
    · obtain ⟨k, a, rfl, hk⟩ := hv
      have ho : ownMt (.ref k a) = some a := by rcases hk with rfl | rfl | rfl <;> rfl
      rw [ho] at e
      refine .inl ⟨k, a, b, rfl, hk, rfl, _, _, e, h1, ?_, rfl, ?_⟩
      · simp only [Metas.of, ho, Metas.set, if_true]
      · intro w hw
        unfold Metas.of
        cases hw' : ownMt w with
        | none => rfl
        | some c =>
          have : c ≠ a := fun hc => hw (by rw [hw', hc])
          simp [Metas.set, this]
    · refine .inr ⟨fun hc => hv hc.2, ?_⟩
      have ho : ownMt v = none := by
        cases v with
        | ref k a => cases k <;> first | rfl | exact absurd ⟨_, _, rfl, by simp⟩ hv
        | _ => rfl
      rw [e, ho]
  · refine .inr ⟨fun hc => ht hc.1, ?_⟩
    unfold mtSetC
    rw [e1]
    cases t with
    | ref k a => cases k <;> first | rfl | exact absurd ⟨_, rfl⟩ ht
    | _ => rfl

/-- Calls `mt.set(object at address a, table at address b)`, one after the other. -/
def setAll (h : Metas) : List (Nat × Nat) → Metas
  | [] => h
  | (a, b) :: rest => setAll (h.set a (some b)) rest

/-- The last of these calls for an address. -/
def lastSet (a : Nat) : List (Nat × Nat) → Option Nat
  | [] => none
  | p :: rest => match lastSet a rest with | some b => some b | none => if p.1 = a then some p.2 else none

/-- **C104** After any calls of `mt.set`, an object has the metatable that was set last for it, else the one it had. -/
theorem C104_history (v : Val) (a : Nat) (hv : ownMt v = some a) : ∀ (ops : List (Nat × Nat)) (h : Metas),
    (setAll h ops).of v = .ok (match lastSet a ops with | some b => some b | none => h.mt a)
  | [], h => by simp [setAll, lastSet, Metas.of, hv]
  | p :: rest, h => by
    rw [setAll, C104_history v a hv rest]
    simp only [lastSet]
    cases lastSet a rest with
    | some b => rfl
    | none =>
      by_cases hp : p.1 = a
      · simp [hp, Metas.set]
      · simp [hp, Metas.set, Ne.symm hp]

/-- Values that are not objects keep the metatable of their type, whatever is set. -/
theorem C104_types (v : Val) (hv : ownMt v = none) (ops : List (Nat × Nat)) (h : Metas) : (setAll h ops).of v = h.of v := by
  induction ops generalizing h with
  | nil => rfl
  | cons p rest ih => rw [setAll, ih]; simp [Metas.of, hv, Metas.set]

/-- **C104** *Fails* for functions and user pointers: their entry was never written, and is read. -/
theorem C104_unset_counterexample (addr : Tag → Nat) (mt : Nat → Option Nat) (tab : Nat → Table) (m : Mach) (l : List Val) (v : Val)
    (hv : (∃ a, v = .ref .fn a) ∨ (∃ a, v = .ref .closure a) ∨ (∃ a, v = .ref .cfn a) ∨ ∃ a, v = .userptr a) (hm : m.Live (l ++ [v])) :
    mtGetC ⟨mt, builtinTables addr, tab⟩ m = .unset := by
  obtain ⟨m1, e1, -, -⟩ := pop_frame hm
  unfold mtGetC Mach.getMetatable
  rw [e1]
  rcases hv with ⟨a, rfl⟩ | ⟨a, rfl⟩ | ⟨a, rfl⟩ | ⟨a, rfl⟩ <;> rfl

/-- **C104** `YASL_setmt` cannot remove a metatable: with `undef` on top it is always a type error, and nothing changes. -/
theorem C104_host_undef (h : Metas) (m : Mach) (l : List Val) (v : Val) (hm : m.Live (l ++ [v, .undef])) : hostSetmt h m = .ok (h, m, false) := by
  have hm' : m.Live ((l ++ [v]) ++ [.undef]) := by simpa using hm
  have e1 := peek_live hm'
  unfold hostSetmt
  rw [e1]; rfl

/-- **C104** `YASL_setmt` with a table on top does what `mt.set` does; on a value that is not an object it pops the table and answers with the type error. -/
theorem C104_host_set (h : Metas) (m : Mach) (l : List Val) (v : Val) (b : Nat) (hm : m.Live (l ++ [v, .ref .table b])) :
    ∃ m', m'.Live (l ++ [v]) ∧ hostSetmt h m = match ownMt v with | some a => .ok (h.set a (some b), m', true) | none => .ok (h, m', false) := by
  have hm' : m.Live ((l ++ [v]) ++ [.ref .table b]) := by simpa using hm
  have e1 := peek_live hm'
  obtain ⟨m1, e2, h1, -⟩ := pop_frame hm'
  have e3 := peek_live h1
  refine ⟨m1, h1, ?_⟩
  unfold hostSetmt
  rw [e1]
  show m.pop.toM.bind _ = _
  rw [e2]
  show m1.peek.toM.bind _ = _
  rw [e3]; rfl

/-! Concrete cases. -/

/-- Two tables as objects, at 1 and 2; 1 has the metatable at 5, in which `__add` is the C function `demoG`. -/
def demoMetas : Metas := ⟨fun a => if a = 1 then some 5 else none, builtinTables fun _ => 9, fun a => if a = 5 then ((Table.new.insertFast 100 (.str (ascii "__add")) demoG).getD Table.new) else Table.new⟩

example : demoMetas.method 100 (.ref .table 1) (ascii "__add") demoG := ⟨5, rfl, by decide +kernel, by decide⟩
example : demoMetas.noMethod 100 (.ref .table 2) (ascii "__add") := .inl rfl
example : demoMetas.noMethod 100 (.ref .table 1) (ascii "__sub") := .inr ⟨5, rfl, by decide +kernel⟩
/-- `a + b` with the method, and `b + a` without. -/
example : ∃ r, (machOf [.int 7, .ref .table 1, .ref .table 2]).binMethod 100 demoMetas demoCallee2 (ascii "__add") = .ok r ∧ r.sp = 2 ∧ r.fp = 1 ∧ r.slots 0 = .int 7 ∧ r.slots 1 = demoG ∧ r.slots 2 = .ref .table 1 :=
  ⟨_, rfl, by decide +kernel, by decide +kernel, by decide +kernel, by decide +kernel, by decide +kernel⟩
example : (match (machOf [.ref .table 2, .ref .table 1]).binMethod 100 demoMetas demoCallee2 (ascii "__add") with | .typeError => true | _ => false) = true := by decide +kernel

/-- the theorems on `7, a, b` and `a + b`, `a - b`, `a < b` -/
theorem demoMeta_rep : (machOf [.int 7, .ref .table 1, .ref .table 2]).Rep 0 ⟨[.int 7, .ref .table 1, .ref .table 2], [], [], 0⟩ := ⟨machOf_live _ (by simp), rfl, rfl, rfl, rfl, rfl⟩
example := (C105_binary demoCallee2 0 _ _ demoMeta_rep [.int 7] (.ref .table 1) (.ref .table 2) rfl (by decide) (by decide) demoMetas 100 (ascii "__add")).1 demoG
  ⟨5, rfl, by decide +kernel, by decide⟩ (by decide) (by intro n hn; rw [show demoCallee2 demoG = .c 1 by decide] at hn; cases hn)
example := (C105_binary demoCallee2 0 _ _ demoMeta_rep [.int 7] (.ref .table 1) (.ref .table 2) rfl (by decide) (by decide) demoMetas 100 (ascii "__sub")).2
  (.inr ⟨5, rfl, by decide +kernel⟩)
example := (C105_comparison demoCallee2 0 _ _ demoMeta_rep [.int 7] (.ref .table 1) (.ref .table 2) rfl (by decide) (by decide) demoMetas 100 (ascii "__add")).1 demoG
  ⟨5, rfl, by decide +kernel, by decide⟩ (by decide) (by intro n hn; rw [show demoCallee2 demoG = .c 1 by decide] at hn; cases hn)
example := (C105_unary demoCallee2 0 _ _ demoMeta_rep [.int 7, .ref .table 1] (.ref .table 2) rfl (by decide) (by decide) demoMetas 100 (ascii "__add")).2 (.inl rfl)
example := (C105_set demoCallee2 0 _ _ demoMeta_rep [] (.int 7) (.ref .table 1) (.ref .table 2) rfl (by decide) (by decide) demoMetas 100).2
example := (C105_call_without_self demoCallee2 0 _ _ demoMeta_rep [.int 7, .ref .table 1] (.ref .table 2) rfl demoMetas 100 1).2 (.inl rfl)

end Yasl
