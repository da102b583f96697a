import Verif.Model.Upvalue
import Mathlib.Data.List.Nodup
set_option autoImplicit false
namespace Yasl

/-- where the frames start -/
def basesOf : List (List Nat) → List Nat
  | [] => []
  | _ :: fs => fs.flatten.length :: basesOf fs

theorem zip_reverse_mem {α β : Type} {a : List α} {b : List β} (h : a.length = b.length) {j : Nat} {x : α} {y : β}
    (ha : a.reverse[j]? = some x) (hb : b.reverse[j]? = some y) : (x, y) ∈ a.zip b := by
  have hj : j < a.length := by have := (List.getElem?_eq_some_iff.1 ha).1; simpa using this
  rw [List.getElem?_reverse hj] at ha
  rw [List.getElem?_reverse (by omega)] at hb
  rw [List.mem_iff_getElem?]
  refine ⟨a.length - 1 - j, ?_⟩
  rw [List.getElem?_zip_eq_some]
  exact ⟨ha, by rw [h]; exact hb⟩

/-- the address of a variable -/
def addr (live : List Nat) (w a : Nat) : Prop := live.reverse[a]? = some w

theorem addr_lt {live : List Nat} {w a : Nat} (h : addr live w a) : a < live.length := by
  have := (List.getElem?_eq_some_iff.1 h).1; simpa using this

theorem addr_mem {live : List Nat} {w a : Nat} (h : addr live w a) : w ∈ live := by
  have := List.mem_of_getElem? h; simpa using this

theorem mem_addr {live : List Nat} {w : Nat} (h : w ∈ live) : ∃ a, addr live w a := by
  have : w ∈ live.reverse := by simpa using h
  obtain ⟨a, ha⟩ := List.mem_iff_getElem?.1 this
  exact ⟨a, ha⟩

theorem addr_inj {live : List Nat} (hn : live.Nodup) {w a b : Nat} (h : addr live w a) (h' : addr live w b) : a = b := by
  have hn' : live.reverse.Nodup := List.nodup_reverse.2 hn
  have ha := List.getElem?_eq_some_iff.1 h
  have hb := List.getElem?_eq_some_iff.1 h'
  obtain ⟨ha1, ha2⟩ := ha
  obtain ⟨hb1, hb2⟩ := hb
  exact hn'.getElem_inj_iff.1 (ha2.trans hb2.symm)

theorem addr_fun {live : List Nat} {w w' a : Nat} (h : addr live w a) (h' : addr live w' a) : w = w' := by
  unfold addr at h h'; rw [h] at h'; exact Option.some.inj h'

theorem addr_cons {live : List Nat} {x w a : Nat} : addr (x :: live) w a ↔ addr live w a ∨ (a = live.length ∧ w = x) := by
  unfold addr
  rw [List.reverse_cons]
  by_cases h : a < live.length
  · rw [List.getElem?_append_left (by simpa using h)]
    constructor
    · exact Or.inl
    · rintro (h' | ⟨h', _⟩)
      · exact h'
      · omega
  · rw [List.getElem?_append_right (by simp; omega)]
    constructor
    · intro h'
      have := (List.getElem?_eq_some_iff.1 h').1
      simp at this
      have : a = live.length := by omega
      subst this
      simp at h'
      exact Or.inr ⟨rfl, h'.symm⟩
    · rintro (h' | ⟨rfl, rfl⟩)
      · exact absurd (addr_lt h') h
      · simp

theorem addr_append {pre live : List Nat} {w a : Nat} (h : addr live w a) : addr (pre ++ live) w a := by
  induction pre with
  | nil => exact h
  | cons x pre ih => exact addr_cons.2 (Or.inl ih)

theorem addr_of_append {pre live : List Nat} {w a : Nat} (h : addr (pre ++ live) w a) (ha : a < live.length) : addr live w a := by
  unfold addr at *
  rw [List.reverse_append, List.getElem?_append_left (by simpa using ha)] at h
  exact h

/-- What always holds, as long as no dead variable is assigned. -/
structure LInv (m : UVM) (s : Vars) : Prop where
  len : m.len = s.live.length
  bases : basesOf s.frames = m.base :: m.callers
  nodup : s.live.Nodup
  fresh : ∀ w ∈ s.live, w < s.next
  capFresh : ∀ w ∈ s.captured, w < s.next
  vals : ∀ a w, addr s.live w a → m.stack a = s.value w
  caps : s.captured.length = m.caps.length
  valid : ∀ i ∈ m.caps, i < m.upvals.length
  ups : ∀ w i, (w, i) ∈ s.captured.zip m.caps → ∀ a, addr s.live w a → m.loc i = some a
  open_ : ∀ i ∈ m.pending, ∃ a, m.loc i = some a
  pnodup : m.pending.Nodup
  outer : ∀ f ∈ s.frames.tail, f ≠ []

theorem initial_linv : LInv UVM.initial Vars.initial where
  len := rfl
  bases := rfl
  nodup := by simp [Vars.live, Vars.initial]
  fresh := by simp [Vars.live, Vars.initial]
  capFresh := by simp [Vars.initial]
  vals := by intro a w h; simp [addr, Vars.live, Vars.initial] at h
  caps := rfl
  valid := by simp [UVM.initial]
  ups := by intro w i h; simp [Vars.initial] at h
  open_ := by simp [UVM.initial]
  pnodup := by simp [UVM.initial]
  outer := by simp [Vars.initial]

theorem loc_lt {m : UVM} {i a : Nat} (h : m.loc i = some a) : i < m.upvals.length := by
  unfold UVM.loc at h
  rcases hh : m.upvals[i]? with _ | u
  · simp [hh] at h
  · exact (List.getElem?_eq_some_iff.1 hh).1

theorem loc_up {m : UVM} {i a : Nat} (h : m.loc i = some a) : ∃ v, m.upvals[i]? = some ⟨some a, v⟩ := by
  unfold UVM.loc at h
  rcases hh : m.upvals[i]? with _ | ⟨l, v⟩
  · simp [hh] at h
  · simp [hh] at h; subst h; exact ⟨v, rfl⟩

/-! ## addPending -/

theorem addPending_some {loc : Nat → Option Nat} {l new : Nat} : ∀ {p : List Nat} {i : Nat} {p' : List Nat}, addPending loc l new p = (some i, p') →
    i ∈ p ∧ loc i = some l
  | [], _, _, h => by simp [addPending] at h
  | c :: p, i, p', h => by
    simp only [addPending] at h
    split at h
    · simp at h
    · rename_i a ha
      split at h
      · simp only [Prod.mk.injEq] at h
        obtain ⟨h1, h2⟩ := addPending_some (p := p) (i := i) (p' := (addPending loc l new p).2) (Prod.ext h.1 rfl)
        exact ⟨List.mem_cons_of_mem _ h1, h2⟩
      · split at h
        · rename_i h2; simp at h; obtain ⟨rfl, _⟩ := h; exact ⟨by simp, by rw [ha, h2]⟩
        · simp at h

theorem addPending_none {loc : Nat → Option Nat} {l new : Nat} : ∀ {p p' : List Nat}, addPending loc l new p = (none, p') →
    p'.Perm (new :: p) ∨ ∃ c ∈ p, loc c = none
  | [], p', h => by simp [addPending] at h; subst h; exact .inl (.refl _)
  | c :: p, p', h => by
    simp only [addPending] at h
    split at h
    · rename_i hc; exact .inr ⟨c, by simp, hc⟩
    · rename_i a ha
      split at h
      · simp only [Prod.mk.injEq] at h
        obtain ⟨h1, rfl⟩ := h
        rcases addPending_none (p := p) (p' := (addPending loc l new p).2) (Prod.ext h1 rfl) with hp | ⟨d, hd, hn⟩
        · exact .inl ((List.Perm.cons c hp).trans (List.Perm.swap _ _ _))
        · exact .inr ⟨d, List.mem_cons_of_mem _ hd, hn⟩
      · split at h
        · simp at h
        · simp at h; subst h; exact .inl (List.Perm.swap _ _ _)

/-- in the order in which the list should be -/
theorem addPending_ordered {loc : Nat → Option Nat} {l new : Nat} : ∀ {p : List Nat}, (∀ i ∈ p, ∃ a, loc i = some a ∧ l ≤ a) →
    p.Pairwise (fun i j => ∀ a b, loc i = some a → loc j = some b → b < a) →
    (∃ i, i ∈ p ∧ loc i = some l ∧ addPending loc l new p = (some i, p)) ∨
    ((∀ i ∈ p, ∃ a, loc i = some a ∧ l < a) ∧ addPending loc l new p = (none, p ++ [new]))
  | [], _, _ => .inr ⟨by simp, rfl⟩
  | c :: p, h, hp => by
    obtain ⟨a, ha, hla⟩ := h c (by simp)
    rw [List.pairwise_cons] at hp
    simp only [addPending, ha]
    by_cases hgt : a > l
    · rw [if_pos hgt]
      rcases addPending_ordered (p := p) (new := new) (fun i hi => h i (by simp [hi])) hp.2 with ⟨i, h1, h2, h3⟩ | ⟨h1, h2⟩
      · exact .inl ⟨i, by simp [h1], h2, by rw [h3]⟩
      · refine .inr ⟨?_, by rw [h2]; rfl⟩
        intro i hi
        rcases List.mem_cons.1 hi with rfl | hi
        · exact ⟨a, ha, hgt⟩
        · exact h1 i hi
    · rw [if_neg hgt, if_pos (by omega)]
      exact .inl ⟨c, by simp, by rw [ha]; congr 1; omega, rfl⟩

/-! ## closeFrom -/

theorem upvalClose_loc {m : UVM} {c i : Nat} (h : i ≠ c) : (m.upvalClose c).loc i = m.loc i := by
  simp [UVM.loc, UVM.upvalClose, List.getElem?_set_ne (Ne.symm h)]

theorem upvalClose_up {m : UVM} {c i : Nat} (h : i ≠ c) : (m.upvalClose c).upvals[i]? = m.upvals[i]? := by
  simp [UVM.upvalClose, List.getElem?_set_ne (Ne.symm h)]

structure Closed (base : Nat) (m m' : UVM) (p : List Nat) : Prop where
  stack : m'.stack = m.stack
  caps : m'.caps = m.caps
  length : m'.upvals.length = m.upvals.length
  loc : ∀ i, m'.upvals[i]? = m.upvals[i]? ∨ (i ∈ p ∧ (∃ a, m.loc i = some a ∧ base ≤ a + 1 ∧ m'.upvals[i]? = some ⟨none, m.stack a⟩))
  pending : m'.pending <:+ p
  kept : ∀ i ∈ m'.pending, m'.upvals[i]? = m.upvals[i]?

theorem closeFrom_spec {base : Nat} : ∀ (p : List Nat) (m : UVM), p.Nodup → Closed base m (UVM.closeFrom base m p) p
  | [], m, _ => ⟨rfl, rfl, rfl, fun _ => .inl rfl, List.suffix_refl _, by simp [UVM.closeFrom]⟩
  | c :: p, m, hn => by
    rw [List.nodup_cons] at hn
    simp only [UVM.closeFrom]
    cases hc : m.loc c with
    | none => exact ⟨rfl, rfl, rfl, fun _ => .inl rfl, List.suffix_refl _, fun _ _ => rfl⟩
    | some a =>
      by_cases hab : a + 1 < base
      · simp only [if_pos hab]; exact ⟨rfl, rfl, rfl, fun _ => .inl rfl, List.suffix_refl _, fun _ _ => rfl⟩
      · simp only [if_neg hab]
        have ih := closeFrom_spec (base := base) p (m.upvalClose c) hn.2
        obtain ⟨v, hv⟩ := loc_up hc
        have hlt := loc_lt hc
        have hnew : (m.upvalClose c).upvals[c]? = some ⟨none, m.stack a⟩ := by
          simp only [UVM.upvalClose, UVM.upvalGet, hv, List.getElem?_set_self hlt]
        have hne : ∀ i ∈ p, i ≠ c := fun i hi h => hn.1 (h ▸ hi)
        refine ⟨ih.stack, ih.caps, ih.length.trans (by simp [UVM.upvalClose]), fun i => ?_, ih.pending.trans (List.suffix_cons _ _), fun i hi => ?_⟩
        · by_cases hic : i = c
          · subst hic
            rcases ih.loc i with h | ⟨h, _⟩
            · exact .inr ⟨by simp, a, hc, by omega, by rw [h, hnew]⟩
            · exact absurd h hn.1
          · rcases ih.loc i with h | ⟨h1, b, h2, h3, h4⟩
            · exact .inl (by rw [h, upvalClose_up hic])
            · exact .inr ⟨by simp [h1], b, by rw [← h2, upvalClose_loc hic], h3, h4⟩
        · rw [ih.kept i hi, upvalClose_up (hne i (ih.pending.mem hi))]

/-- a list in order is closed completely -/
theorem closeFrom_ordered {base : Nat} : ∀ (p : List Nat) (m : UVM), p.Nodup → (∀ i ∈ p, ∃ a, m.loc i = some a) →
    p.Pairwise (fun i j => ∀ a b, m.loc i = some a → m.loc j = some b → b < a) →
    ∀ i ∈ p, ∀ a, m.loc i = some a →
      (base ≤ a + 1 → (UVM.closeFrom base m p).upvals[i]? = some ⟨none, m.stack a⟩ ∧ i ∉ (UVM.closeFrom base m p).pending) ∧
      (a + 1 < base → i ∈ (UVM.closeFrom base m p).pending)
  | [], _, _, _, _, i, hi, _, _ => by simp at hi
  | c :: p, m, hn, ho, hp, i, hi, a, ha => by
    rw [List.nodup_cons] at hn
    rw [List.pairwise_cons] at hp
    obtain ⟨b, hb⟩ := ho c (by simp)
    simp only [UVM.closeFrom, hb]
    by_cases hab : b + 1 < base
    · rw [if_pos hab]
      refine ⟨fun h => ?_, fun _ => hi⟩
      rcases List.mem_cons.1 hi with rfl | hi
      · rw [hb] at ha; simp at ha; omega
      · have := hp.1 i hi b a hb ha; omega
    · rw [if_neg hab]
      obtain ⟨v, hv⟩ := loc_up hb
      have hlt := loc_lt hb
      have hnew : (m.upvalClose c).upvals[c]? = some ⟨none, m.stack b⟩ := by
        simp only [UVM.upvalClose, UVM.upvalGet, hv, List.getElem?_set_self hlt]
      have hsp := closeFrom_spec (base := base) p (m.upvalClose c) hn.2
      by_cases hic : i = c
      · subst hic
        rw [hb] at ha; simp at ha; subst ha
        refine ⟨fun _ => ⟨?_, fun h => hn.1 (hsp.pending.mem h)⟩, fun h => absurd h hab⟩
        rcases hsp.loc i with h | ⟨h, _⟩
        · rw [h, hnew]
        · exact absurd h hn.1
      · have hip : i ∈ p := by rcases List.mem_cons.1 hi with h | h; exact absurd h hic; exact h
        have hne : ∀ i ∈ p, i ≠ c := fun i hi h => hn.1 (h ▸ hi)
        refine closeFrom_ordered p (m.upvalClose c) hn.2 (fun i hi => ?_) ?_ i hip a (by rw [upvalClose_loc hic]; exact ha)
        · rw [upvalClose_loc (hne i hi)]; exact ho i (by simp [hi])
        · refine hp.2.imp_of_mem ?_
          intro x y hx hy hxy
          rw [upvalClose_loc (hne x hx), upvalClose_loc (hne y hy)]
          exact hxy

theorem closeFrom_frame {base : Nat} : ∀ (p : List Nat) (m : UVM), (UVM.closeFrom base m p).len = m.len ∧ (UVM.closeFrom base m p).base = m.base ∧
    (UVM.closeFrom base m p).callers = m.callers
  | [], _ => ⟨rfl, rfl, rfl⟩
  | c :: p, m => by
    simp only [UVM.closeFrom]
    split
    · split
      · exact ⟨rfl, rfl, rfl⟩
      · exact closeFrom_frame p (m.upvalClose c)
    · exact ⟨rfl, rfl, rfl⟩

/-! ## One event -/

theorem bases_ne {fs : List (List Nat)} {b : Nat} {cs : List Nat} (h : basesOf fs = b :: cs) : ∃ f fs', fs = f :: fs' ∧ b = fs'.flatten.length ∧ basesOf fs' = cs := by
  cases fs with
  | nil => simp [basesOf] at h
  | cons f fs => simp only [basesOf, List.cons.injEq] at h; exact ⟨f, fs, rfl, h.1.symm, h.2⟩

theorem var_addr {m : UVM} {s : Vars} (h : LInv m s) {k w : Nat} (hk : s.var k = some w) : addr s.live w (m.base + k) := by
  obtain ⟨f, fs, hf, hb, _⟩ := bases_ne h.bases
  unfold Vars.var at hk
  rw [hf] at hk
  unfold addr Vars.live
  rw [hf, List.flatten_cons, List.reverse_append, List.getElem?_append_right (by rw [List.length_reverse]; omega), List.length_reverse]
  rw [show m.base + k - fs.flatten.length = k by omega]
  exact hk

/-- writing a live variable -/
theorem LInv.write {m : UVM} {s : Vars} (h : LInv m s) {w a : Nat} (v : Val) (ha : addr s.live w a) : LInv (m.write a v) (s.set w v) where
  len := h.len
  bases := h.bases
  nodup := h.nodup
  fresh := h.fresh
  capFresh := h.capFresh
  vals := by
    intro b u hb
    simp only [UVM.write, Vars.set]
    by_cases hu : u = w
    · subst hu
      rw [if_pos rfl, if_pos (addr_inj h.nodup hb ha)]
    · rw [if_neg hu, if_neg (fun hc : b = a => hu (addr_fun hb (hc ▸ ha)))]
      exact h.vals b u hb
  caps := h.caps
  valid := h.valid
  ups := h.ups
  open_ := h.open_
  pnodup := h.pnodup
  outer := h.outer

theorem LInv.push {m : UVM} {s : Vars} (h : LInv m s) (v : Val) : LInv (m.op (.push v)) (s.op (.push v)) := by
  obtain ⟨f, fs, hf, hb, hbs⟩ := bases_ne h.bases
  have hs : s.op (.push v) = { s with frames := (s.next :: f) :: fs, next := s.next + 1, value := fun u => if u = s.next then v else s.value u } := by
    simp [Vars.op, hf]
  have hlive : (s.op (.push v)).live = s.next :: s.live := by rw [hs]; simp [Vars.live, hf]
  have hnew : s.next ∉ s.live := fun hc => absurd (h.fresh _ hc) (by omega)
  refine ⟨?_, ?_, ?_, ?_, ?_, ?_, ?_, h.valid, ?_, h.open_, h.pnodup, by rw [hs]; have := h.outer; rw [hf] at this; exact this⟩
  · rw [hlive]; simp [UVM.op, h.len]
  · rw [hs]; simp [basesOf, UVM.op, UVM.write, hb, hbs]
  · rw [hlive, List.nodup_cons]; exact ⟨hnew, h.nodup⟩
  · rw [hlive]; intro w hw
    rw [hs]
    rcases List.mem_cons.1 hw with rfl | hw
    · simp
    · have := h.fresh w hw; simp; omega
  · rw [hs]; intro w hw; have := h.capFresh w hw; simp; omega
  · rw [hlive]; intro a w ha
    rcases addr_cons.1 ha with ha | ⟨rfl, rfl⟩
    · have hlt := addr_lt ha
      have hne : w ≠ s.next := fun hc => hnew (hc ▸ addr_mem ha)
      rw [hs]; simp only [UVM.op, UVM.write, if_neg hne]
      rw [if_neg (by rw [h.len]; omega)]
      exact h.vals a w ha
    · rw [hs]; simp [UVM.op, UVM.write, h.len]
  · rw [hs]; exact h.caps
  · rw [hlive]; intro w i hi a ha
    have hi' : (w, i) ∈ s.captured.zip m.caps := by rw [hs] at hi; exact hi
    rcases addr_cons.1 ha with ha | ⟨rfl, rfl⟩
    · exact h.ups w i hi' a ha
    · exact absurd (h.capFresh _ (List.of_mem_zip hi').1) (by omega)

/-- dropping the newest variables -/
theorem LInv.drop {m : UVM} {s : Vars} (h : LInv m s) {frames : List (List Nat)} {pre : List Nat} (hl : s.live = pre ++ frames.flatten) {base : Nat}
    {callers : List Nat} (hb : basesOf frames = base :: callers) (ho : ∀ f ∈ frames.tail, f ≠ []) : LInv { m with len := frames.flatten.length, base := base, callers := callers }
      { s with frames := frames } := by
  have hn : frames.flatten.Nodup := (List.nodup_append.1 (hl ▸ h.nodup)).2.1
  have hlift : ∀ w a, addr frames.flatten w a → addr s.live w a := fun w a ha => by rw [hl]; exact addr_append ha
  refine ⟨rfl, hb, hn, ?_, h.capFresh, ?_, h.caps, h.valid, ?_, h.open_, h.pnodup, ho⟩
  · intro w hw; exact h.fresh w (by rw [hl]; simp only [List.mem_append]; exact .inr hw)
  · intro a w ha; exact h.vals a w (hlift w a ha)
  · intro w i hi a ha; exact h.ups w i hi a (hlift w a ha)

theorem LInv.pop {m : UVM} {s : Vars} (h : LInv m s) (hp : s.possible .pop) : LInv (m.op .pop) (s.op .pop) := by
  obtain ⟨f, fs, hf, hb, hbs⟩ := bases_ne h.bases
  simp only [Vars.possible, hf, List.headD_cons] at hp
  obtain ⟨x, f', rfl⟩ : ∃ x f', f = x :: f' := by cases f with | nil => simp at hp | cons x f' => exact ⟨x, f', rfl⟩
  have := h.drop (frames := f' :: fs) (pre := [x]) (by simp [Vars.live, hf]) (base := m.base) (callers := m.callers) (by simp [basesOf, hb, hbs])
    (by have := h.outer; rw [hf] at this; exact this)
  have hs : s.op .pop = { s with frames := f' :: fs } := by simp [Vars.op, hf]
  have hm : m.op .pop = { m with len := (f' :: fs).flatten.length, base := m.base, callers := m.callers } := by
    simp only [UVM.op]
    have := h.len
    simp [Vars.live, hf] at this
    rw [this]; simp
  rw [hs, hm]; exact this

theorem LInv.call {m : UVM} {s : Vars} (h : LInv m s) {n : Nat} (hp : s.possible (.call n)) : LInv (m.op (.call n)) (s.op (.call n)) := by
  obtain ⟨f, fs, hf, hb, hbs⟩ := bases_ne h.bases
  simp only [Vars.possible, hf, List.headD_cons] at hp
  have hs : s.op (.call n) = { s with frames := f.take n :: f.drop n :: fs } := by simp [Vars.op, hf]
  have hfl : (f.take n :: f.drop n :: fs).flatten = s.live := by simp [Vars.live, hf, ← List.append_assoc]
  have hlen := h.len
  simp [Vars.live, hf] at hlen
  have := h.drop (frames := f.take n :: f.drop n :: fs) (pre := []) (by simp [hfl]) (base := m.len - n) (callers := m.base :: m.callers)
    (by simp [basesOf, hb, hbs, hlen]; omega) (by
      have := h.outer; rw [hf] at this
      intro g hg
      rcases List.mem_cons.1 hg with rfl | hg
      · intro hc; simp at hc; omega
      · exact this g hg)
  rw [hs]
  simpa [UVM.op, hfl, ← h.len] using this

/-- closing does not change what live variables' upvalues refer to -/
theorem LInv.closeAll {m : UVM} {s : Vars} (h : LInv m s) {f g : List Nat} {fs : List (List Nat)} (hf : s.frames = f :: g :: fs) :
    LInv { m.closeAll with len := (g.tail :: fs).flatten.length, base := m.callers.headD 0, callers := m.callers.tail } { s with frames := g.tail :: fs } := by
  have hc := closeFrom_spec (base := m.base) m.pending m h.pnodup
  obtain ⟨f', fs', hf', hb, hbs⟩ := bases_ne h.bases
  rw [hf] at hf'; simp only [List.cons.injEq] at hf'; obtain ⟨rfl, rfl⟩ := hf'
  obtain ⟨hb1, hb2⟩ : basesOf (g :: fs) = m.callers ∧ m.base = (g :: fs).flatten.length := ⟨hbs, hb⟩
  have hd := h.drop (frames := g.tail :: fs) (pre := f ++ g.take 1) (by
    cases g with
    | nil => simp [Vars.live, hf]
    | cons x g => simp [Vars.live, hf]) (base := m.callers.headD 0) (callers := m.callers.tail) (by rw [← hb1]; simp [basesOf])
    (by have := h.outer; rw [hf] at this; exact fun g hg => this g (by simp at hg ⊢; exact .inr hg))
  have hlocs : ∀ i a, a + 1 < m.base → m.loc i = some a → m.closeAll.loc i = some a := by
    intro i a ha hi
    rcases hc.loc i with hl | ⟨_, b, hb, hge, _⟩
    · show ((UVM.closeFrom m.base m m.pending).upvals[i]?).bind _ = _
      rw [hl]; exact hi
    · rw [hi] at hb; simp at hb; omega
  refine ⟨rfl, hd.bases, hd.nodup, hd.fresh, hd.capFresh, ?_, ?_, ?_, ?_, ?_, ?_, hd.outer⟩
  · intro a w ha
    show m.closeAll.stack a = _
    rw [show m.closeAll.stack = m.stack from hc.stack]
    exact hd.vals a w ha
  · show s.captured.length = m.closeAll.caps.length
    rw [show m.closeAll.caps = m.caps from hc.caps]; exact h.caps
  · show ∀ i ∈ m.closeAll.caps, i < m.closeAll.upvals.length
    rw [show m.closeAll.caps = m.caps from hc.caps, show m.closeAll.upvals.length = m.upvals.length from hc.length]; exact h.valid
  · intro w i hi a ha
    have hi' : (w, i) ∈ s.captured.zip m.caps := by
      have : (w, i) ∈ s.captured.zip m.closeAll.caps := hi
      rwa [show m.closeAll.caps = m.caps from hc.caps] at this
    have hlt := addr_lt ha
    show m.closeAll.loc i = some a
    refine hlocs i a ?_ (hd.ups w i hi' a ha)
    rw [hb2]
    cases g with
    | nil => exact absurd rfl (h.outer [] (by simp [hf]))
    | cons x g => simp [Vars.live] at hlt ⊢; omega
  · intro i hi
    obtain ⟨a, ha⟩ := h.open_ i (hc.pending.mem hi)
    refine ⟨a, ?_⟩
    show ((UVM.closeFrom m.base m m.pending).upvals[i]?).bind _ = _
    rw [hc.kept i hi]; exact ha
  · exact hc.pending.sublist.nodup h.pnodup


theorem ret_op {m : UVM} {s : Vars} (h : LInv m s) {f g : List Nat} {fs : List (List Nat)} (hf : s.frames = f :: g :: fs) :
    m.base - 1 = (g.tail :: fs).flatten.length := by
  obtain ⟨f', fs', hf', hb, _⟩ := bases_ne h.bases
  rw [hf] at hf'; simp only [List.cons.injEq] at hf'; obtain ⟨rfl, rfl⟩ := hf'
  rw [hb]
  cases g with
  | nil => exact absurd rfl (h.outer [] (by simp [hf]))
  | cons x g => simp

theorem LInv.ret {m : UVM} {s : Vars} (h : LInv m s) {c : Bool} (hp : s.possible (.ret c)) : LInv (m.op (.ret c)) (s.op (.ret c)) := by
  simp only [Vars.possible] at hp
  obtain ⟨f, g, fs, hf⟩ : ∃ f g fs, s.frames = f :: g :: fs := by
    match hh : s.frames with
    | f :: g :: fs => exact ⟨f, g, fs, rfl⟩
    | [f] => rw [hh] at hp; simp at hp
    | [] => rw [hh] at hp; simp at hp
  have hs : s.op (.ret c) = { s with frames := g.tail :: fs } := by simp [Vars.op, hf]
  have hr := ret_op h hf
  rw [hs]
  cases c with
  | true =>
    have := h.closeAll hf
    simpa [UVM.op, hr] using this
  | false =>
    obtain ⟨f', fs', hf', hb, hbs⟩ := bases_ne h.bases
    rw [hf] at hf'; simp only [List.cons.injEq] at hf'; obtain ⟨rfl, rfl⟩ := hf'
    have := h.drop (frames := g.tail :: fs) (pre := f ++ g.take 1) (by
      cases g with
      | nil => simp [Vars.live, hf]
      | cons x g => simp [Vars.live, hf]) (base := m.callers.headD 0) (callers := m.callers.tail) (by rw [← hbs]; simp [basesOf])
      (by have := h.outer; rw [hf] at this; exact fun g hg => this g (by simp at hg ⊢; exact .inr hg))
    simpa [UVM.op, hr] using this

theorem loc_append {m : UVM} {i : Nat} {u : Upval} (h : i < m.upvals.length) : (m.upvals ++ [u])[i]? = m.upvals[i]? := List.getElem?_append_left h

theorem LInv.capture {m : UVM} {s : Vars} (h : LInv m s) {k : Nat} (hp : s.possible (.capture k)) : LInv (m.op (.capture k)) (s.op (.capture k)) := by
  simp only [Vars.possible] at hp
  obtain ⟨w, hw⟩ := Option.isSome_iff_exists.1 hp
  have hs : s.op (.capture k) = { s with captured := w :: s.captured } := by simp [Vars.op, hw]
  have haddr := var_addr h hw
  rw [hs]
  have hlow : w < s.next := h.fresh w (addr_mem haddr)
  have hcf : ∀ u ∈ w :: s.captured, u < s.next := by
    intro u hu; rcases List.mem_cons.1 hu with rfl | hu
    · exact hlow
    · exact h.capFresh u hu
  rcases hr : addPending m.loc (m.base + k) m.upvals.length m.pending with ⟨_ | i, p⟩
  · have hm : m.op (.capture k) = { m with upvals := m.upvals ++ [⟨some (m.base + k), .undef⟩], pending := p, caps := m.upvals.length :: m.caps } := by
      simp [UVM.op, UVM.addUpvalue, hr]
    have hperm : p.Perm (m.upvals.length :: m.pending) := by
      rcases addPending_none hr with hp | ⟨c, hc, hn⟩
      · exact hp
      · obtain ⟨a, ha⟩ := h.open_ c hc; rw [hn] at ha; simp at ha
    have hold : ∀ i, i < m.upvals.length → (m.op (.capture k)).loc i = m.loc i := by
      intro i hi; rw [hm]; simp only [UVM.loc]; rw [loc_append hi]
    have hnew : (m.op (.capture k)).loc m.upvals.length = some (m.base + k) := by
      rw [hm]; simp [UVM.loc]
    have hpn : m.upvals.length ∉ m.pending := fun hc => by
      obtain ⟨a, ha⟩ := h.open_ _ hc; have := loc_lt ha; omega
    refine ⟨by rw [hm]; exact h.len, by rw [hm]; exact h.bases, h.nodup, h.fresh, hcf, by rw [hm]; exact h.vals, by rw [hm]; simp [h.caps], ?_, ?_, ?_, ?_, h.outer⟩
    · rw [hm]; intro i hi
      simp only [List.length_append, List.length_singleton]
      rcases List.mem_cons.1 hi with rfl | hi
      · omega
      · have := h.valid i hi; omega
    · intro u i hi a ha
      have hi' : (u, i) ∈ (w :: s.captured).zip (m.upvals.length :: m.caps) := by rw [hm] at hi; exact hi
      rw [List.zip_cons_cons] at hi'
      rcases List.mem_cons.1 hi' with he | hi'
      · simp only [Prod.mk.injEq] at he; obtain ⟨rfl, rfl⟩ := he
        rw [hnew, addr_inj h.nodup ha haddr]
      · rw [hold i (h.valid i (List.of_mem_zip hi').2)]
        exact h.ups u i hi' a ha
    · intro i hi
      have hi' : i ∈ p := by rw [hm] at hi; exact hi
      rcases List.mem_cons.1 (hperm.mem_iff.1 hi') with rfl | hi'
      · exact ⟨_, hnew⟩
      · obtain ⟨a, ha⟩ := h.open_ i hi'
        exact ⟨a, by rw [hold i (loc_lt ha)]; exact ha⟩
    · rw [hm]; exact hperm.nodup_iff.2 (List.nodup_cons.2 ⟨hpn, h.pnodup⟩)
  · obtain ⟨hip, hil⟩ := addPending_some hr
    have hm : m.op (.capture k) = { m with caps := i :: m.caps } := by simp [UVM.op, UVM.addUpvalue, hr]
    rw [hm]
    refine ⟨h.len, h.bases, h.nodup, h.fresh, hcf, h.vals, by simp [h.caps], ?_, ?_, h.open_, h.pnodup, h.outer⟩
    · intro j hj
      rcases List.mem_cons.1 hj with rfl | hj
      · exact loc_lt hil
      · exact h.valid j hj
    · intro u j hj a ha
      have hj' : (u, j) ∈ (w :: s.captured).zip (i :: m.caps) := hj
      rw [List.zip_cons_cons] at hj'
      rcases List.mem_cons.1 hj' with he | hj'
      · simp only [Prod.mk.injEq] at he; obtain ⟨rfl, rfl⟩ := he
        rw [addr_inj h.nodup ha haddr]; exact hil
      · exact h.ups u j hj' a ha

theorem LInv.assign {m : UVM} {s : Vars} (h : LInv m s) {k : Nat} {v : Val} (hp : s.possible (.assign k v)) :
    LInv (m.op (.assign k v)) (s.op (.assign k v)) := by
  obtain ⟨w, hw⟩ := Option.isSome_iff_exists.1 hp
  have := h.write v (var_addr h hw)
  simpa [UVM.op, Vars.op, hw] using this

theorem cap_up {m : UVM} {s : Vars} (h : LInv m s) {j w : Nat} (hw : s.cap j = some w) :
    ∃ i, m.caps.reverse[j]? = some i ∧ (w, i) ∈ s.captured.zip m.caps := by
  have hj : j < s.captured.length := by have := (List.getElem?_eq_some_iff.1 hw).1; simpa using this
  have : j < m.caps.reverse.length := by rw [List.length_reverse, ← h.caps]; exact hj
  exact ⟨m.caps.reverse[j], List.getElem?_eq_getElem this, zip_reverse_mem h.caps hw (List.getElem?_eq_getElem this)⟩

theorem LInv.assignCaptured {m : UVM} {s : Vars} (h : LInv m s) {j w : Nat} {v : Val} (hw : s.cap j = some w) (hl : w ∈ s.live) :
    LInv (m.op (.assignCaptured j v)) (s.op (.assignCaptured j v)) := by
  obtain ⟨a, ha⟩ := mem_addr hl
  obtain ⟨i, hi, hz⟩ := cap_up h hw
  obtain ⟨u, hu⟩ := loc_up (h.ups w i hz a ha)
  have := h.write v ha
  simpa [UVM.op, Vars.op, hw, hi, UVM.upvalSet, hu] using this


/-! ## With captures in order -/

structure OInv (m : UVM) (s : Vars) : Prop extends LInv m s where
  dead : ∀ w i, (w, i) ∈ s.captured.zip m.caps → w ∉ s.live → m.upvals[i]? = some ⟨none, s.value w⟩
  same : ∀ w i w' i', (w, i) ∈ s.captured.zip m.caps → (w', i') ∈ s.captured.zip m.caps → (w = w' ↔ i = i')
  order : m.pending.Pairwise (fun i j => ∀ a b, m.loc i = some a → m.loc j = some b → b < a)
  backed : ∀ i ∈ m.pending, ∃ w a, (w, i) ∈ s.captured.zip m.caps ∧ addr s.live w a
  listed : ∀ w i, (w, i) ∈ s.captured.zip m.caps → w ∈ s.live → i ∈ m.pending

theorem initial_sinv : OInv UVM.initial Vars.initial where
  toLInv := initial_linv
  dead := by intro w i h; simp [Vars.initial] at h
  same := by intro w i w' i' h; simp [Vars.initial] at h
  order := by simp [UVM.initial]
  backed := by simp [UVM.initial]
  listed := by intro w i h; simp [Vars.initial] at h

/-- the upvalue of a live variable -/
theorem LInv.upval {m : UVM} {s : Vars} (h : LInv m s) {w i a : Nat} (hz : (w, i) ∈ s.captured.zip m.caps) (ha : addr s.live w a) : m.upvalGet i = s.value w := by
  obtain ⟨v, hv⟩ := loc_up (h.ups w i hz a ha)
  simp only [UVM.upvalGet, hv]
  exact h.vals a w ha

theorem OInv.read {m : UVM} {s : Vars} (h : OInv m s) {w i : Nat} (hz : (w, i) ∈ s.captured.zip m.caps) : m.upvalGet i = s.value w := by
  by_cases hl : w ∈ s.live
  · obtain ⟨a, ha⟩ := mem_addr hl
    exact h.upval hz ha
  · simp [UVM.upvalGet, h.dead w i hz hl]

theorem OInv.write {m : UVM} {s : Vars} (h : OInv m s) {w a : Nat} (v : Val) (ha : addr s.live w a) : OInv (m.write a v) (s.set w v) where
  toLInv := h.toLInv.write v ha
  dead := by
    intro u i hz hu
    have := h.dead u i hz hu
    have hne : u ≠ w := by rintro rfl; exact hu (addr_mem (live := s.live) ha)
    simpa [Vars.set, hne, UVM.write] using this
  same := h.same
  order := h.order
  backed := h.backed
  listed := h.listed

theorem OInv.push {m : UVM} {s : Vars} (h : OInv m s) (v : Val) : OInv (m.op (.push v)) (s.op (.push v)) := by
  obtain ⟨f, fs, hf, hb, hbs⟩ := bases_ne h.bases
  have hs : s.op (.push v) = { s with frames := (s.next :: f) :: fs, next := s.next + 1, value := fun u => if u = s.next then v else s.value u } := by
    simp [Vars.op, hf]
  have hlive : (s.op (.push v)).live = s.next :: s.live := by rw [hs]; simp [Vars.live, hf]
  have hcap : (s.op (.push v)).captured = s.captured := by rw [hs]
  have hne : ∀ w i, (w, i) ∈ s.captured.zip m.caps → w ≠ s.next := fun w i hz => by
    have := h.capFresh w (List.of_mem_zip hz).1; omega
  refine ⟨h.toLInv.push v, ?_, ?_, h.order, ?_, ?_⟩
  · intro w i hz hw
    rw [hcap] at hz
    rw [hlive] at hw
    have := h.dead w i hz (fun hc => hw (by simp [hc]))
    rw [hs]
    simpa [hne w i hz, UVM.op, UVM.write] using this
  · rw [hcap]; exact h.same
  · intro i hi
    obtain ⟨w, a, hz, ha⟩ := h.backed i hi
    exact ⟨w, a, by rw [hcap]; exact hz, by rw [hlive]; exact addr_cons.2 (.inl ha)⟩
  · intro w i hz hw
    rw [hcap] at hz; rw [hlive] at hw
    rcases List.mem_cons.1 hw with rfl | hw
    · exact absurd rfl (hne _ i hz)
    · exact h.listed w i hz hw

/-- dropping variables of which none is captured -/
theorem OInv.drop {m : UVM} {s : Vars} (h : OInv m s) {frames : List (List Nat)} {pre : List Nat} (hl : s.live = pre ++ frames.flatten) {base : Nat}
    {callers : List Nat} (hb : basesOf frames = base :: callers) (ho : ∀ f ∈ frames.tail, f ≠ []) (hc : ∀ w ∈ s.captured, w ∈ s.live → w ∈ frames.flatten) :
    OInv { m with len := frames.flatten.length, base := base, callers := callers } { s with frames := frames } := by
  have hmem : ∀ w, w ∈ frames.flatten → w ∈ s.live := fun w hw => by rw [hl]; simp only [List.mem_append]; exact .inr hw
  refine ⟨h.toLInv.drop hl hb ho, ?_, h.same, h.order, ?_, ?_⟩
  · intro w i hz hw
    refine h.dead w i hz (fun hc' => hw (hc w (List.of_mem_zip hz).1 hc'))
  · intro i hi
    obtain ⟨w, a, hz, ha⟩ := h.backed i hi
    have hw := hc w (List.of_mem_zip hz).1 (addr_mem ha)
    obtain ⟨b, hb⟩ := mem_addr hw
    exact ⟨w, b, hz, hb⟩
  · intro w i hz hw; exact h.listed w i hz (hmem w hw)

theorem idxOf_addr {live : List Nat} (hn : live.Nodup) {w a : Nat} (h : addr live w a) : live.idxOf w = live.length - 1 - a := by
  have hlt := addr_lt h
  unfold addr at h
  rw [List.getElem?_reverse hlt] at h
  obtain ⟨h1, h2⟩ := List.getElem?_eq_some_iff.1 h
  rw [← h2]
  exact hn.idxOf_getElem _ h1

theorem OInv.capture {m : UVM} {s : Vars} (h : OInv m s) {k w : Nat} (hw : s.var k = some w)
    (ho : ∀ u ∈ s.captured, u ∈ s.live → s.live.idxOf u ≤ s.live.idxOf w) : OInv (m.op (.capture k)) (s.op (.capture k)) := by
  have hp : s.possible (.capture k) := by simp [Vars.possible, hw]
  have hs : s.op (.capture k) = { s with captured := w :: s.captured } := by simp [Vars.op, hw]
  have haddr := var_addr h.toLInv hw
  have hge : ∀ i ∈ m.pending, ∃ a, m.loc i = some a ∧ m.base + k ≤ a := by
    intro i hi
    obtain ⟨u, a, hz, ha⟩ := h.backed i hi
    refine ⟨a, h.ups u i hz a ha, ?_⟩
    have := ho u (List.of_mem_zip hz).1 (addr_mem ha)
    rw [idxOf_addr h.nodup ha, idxOf_addr h.nodup haddr] at this
    have := addr_lt ha; have := addr_lt haddr
    omega
  have hL := h.toLInv.capture hp
  rcases addPending_ordered (new := m.upvals.length) hge h.order with ⟨i, hi, hil, hr⟩ | ⟨hgt, hr⟩
  · have hm : m.op (.capture k) = { m with caps := i :: m.caps } := by simp [UVM.op, UVM.addUpvalue, hr]
    rw [hm, hs] at hL ⊢
    obtain ⟨w0, a0, hz0, ha0⟩ := h.backed i hi
    have : a0 = m.base + k := by have := h.ups w0 i hz0 a0 ha0; rw [hil] at this; simp at this; exact this.symm
    subst this
    have hw0 : w0 = w := addr_fun ha0 haddr
    subst hw0
    have hzip : ∀ u j, (u, j) ∈ (w0 :: s.captured).zip (i :: m.caps) → (u, j) ∈ s.captured.zip m.caps := by
      intro u j hj
      rw [List.zip_cons_cons] at hj
      rcases List.mem_cons.1 hj with he | hj
      · simp only [Prod.mk.injEq] at he; obtain ⟨rfl, rfl⟩ := he; exact hz0
      · exact hj
    refine ⟨hL, fun u j hj hu => h.dead u j (hzip u j hj) hu, fun u j u' j' hj hj' => h.same u j u' j' (hzip u j hj) (hzip u' j' hj'), h.order, ?_, ?_⟩
    · intro j hj
      obtain ⟨u, a, hz, ha⟩ := h.backed j hj
      exact ⟨u, a, by show _ ∈ (w0 :: s.captured).zip (i :: m.caps); rw [List.zip_cons_cons]; exact List.mem_cons_of_mem _ hz, ha⟩
    · intro u j hj hu; exact h.listed u j (hzip u j hj) hu
  · have hm : m.op (.capture k) = { m with upvals := m.upvals ++ [⟨some (m.base + k), .undef⟩], pending := m.pending ++ [m.upvals.length], caps := m.upvals.length :: m.caps } := by
      simp [UVM.op, UVM.addUpvalue, hr]
    have hold : ∀ i, i < m.upvals.length → (m.op (.capture k)).loc i = m.loc i := by
      intro i hi; rw [hm]; simp only [UVM.loc]; rw [loc_append hi]
    have hnew : (m.op (.capture k)).loc m.upvals.length = some (m.base + k) := by rw [hm]; simp [UVM.loc]
    have hnotcap : ∀ j, (w, j) ∉ s.captured.zip m.caps := by
      intro j hj
      have h1 := h.ups w j hj _ haddr
      obtain ⟨a, ha, hlt⟩ := hgt j (h.listed w j hj (addr_mem haddr))
      rw [h1] at ha; simp at ha; omega
    have hvalid : ∀ u j, (u, j) ∈ s.captured.zip m.caps → j < m.upvals.length := fun u j hj => h.valid j (List.of_mem_zip hj).2
    have hcases : ∀ u j, (u, j) ∈ (s.op (.capture k)).captured.zip (m.op (.capture k)).caps → (u = w ∧ j = m.upvals.length) ∨ (u, j) ∈ s.captured.zip m.caps := by
      intro u j hj
      rw [hs, hm] at hj
      have hj' : (u, j) ∈ (w :: s.captured).zip (m.upvals.length :: m.caps) := hj
      rw [List.zip_cons_cons] at hj'
      rcases List.mem_cons.1 hj' with he | hj'
      · simp only [Prod.mk.injEq] at he; exact .inl he
      · exact .inr hj'
    have hlive : (s.op (.capture k)).live = s.live := by rw [hs]; rfl
    refine ⟨hL, ?_, ?_, ?_, ?_, ?_⟩
    · intro u j hj hu
      rw [hlive] at hu
      rcases hcases u j hj with ⟨rfl, rfl⟩ | hj
      · exact absurd (addr_mem haddr) hu
      · have := h.dead u j hj hu
        rw [hm, hs]
        rw [← this]
        exact loc_append (hvalid u j hj)
    · intro u j u' j' hj hj'
      rcases hcases u j hj with ⟨rfl, rfl⟩ | hj <;> rcases hcases u' j' hj' with ⟨rfl, rfl⟩ | hj'
      · simp
      · have := hvalid u' j' hj'
        exact ⟨fun hc => absurd hj' (hc ▸ hnotcap j'), fun hc => by omega⟩
      · have := hvalid u j hj
        exact ⟨fun hc => absurd hj (hc ▸ hnotcap j), fun hc => by omega⟩
      · exact h.same u j u' j' hj hj'
    · have hpend : (m.op (.capture k)).pending = m.pending ++ [m.upvals.length] := by rw [hm]
      rw [hpend, List.pairwise_append]
      have hlt : ∀ i ∈ m.pending, i < m.upvals.length := fun i hi => by obtain ⟨a, ha⟩ := h.open_ i hi; exact loc_lt ha
      refine ⟨?_, List.pairwise_singleton _ _, ?_⟩
      · refine h.order.imp_of_mem ?_
        intro x y hx hy hxy
        rw [hold x (hlt x hx), hold y (hlt y hy)]; exact hxy
      · intro x hx y hy a b ha hb
        simp at hy; subst hy
        rw [hnew] at hb; simp at hb; subst hb
        rw [hold x (hlt x hx)] at ha
        obtain ⟨c, hc, hcl⟩ := hgt x hx
        rw [hc] at ha; simp at ha; omega
    · intro i hi
      have hi' : i ∈ m.pending ++ [m.upvals.length] := by rw [hm] at hi; exact hi
      rw [hlive]
      have hzip : (s.op (.capture k)).captured.zip (m.op (.capture k)).caps = (w, m.upvals.length) :: s.captured.zip m.caps := by
        rw [hs, hm]; rfl
      rw [hzip]
      rcases List.mem_append.1 hi' with hi' | hi'
      · obtain ⟨u, a, hz, ha⟩ := h.backed i hi'
        exact ⟨u, a, List.mem_cons_of_mem _ hz, ha⟩
      · simp at hi'; subst hi'
        exact ⟨w, _, by simp, haddr⟩
    · intro u j hj hu
      rw [hlive] at hu
      have hpend : (m.op (.capture k)).pending = m.pending ++ [m.upvals.length] := by rw [hm]
      rw [hpend]
      rcases hcases u j hj with ⟨rfl, rfl⟩ | hj
      · simp
      · exact List.mem_append.2 (.inl (h.listed u j hj hu))

theorem OInv.closeAll {m : UVM} {s : Vars} (h : OInv m s) {f g : List Nat} {fs : List (List Nat)} (hf : s.frames = f :: g :: fs) :
    OInv { m.closeAll with len := (g.tail :: fs).flatten.length, base := m.callers.headD 0, callers := m.callers.tail } { s with frames := g.tail :: fs } := by
  have hL := h.toLInv.closeAll hf
  have hc := closeFrom_spec (base := m.base) m.pending m h.pnodup
  have hord := closeFrom_ordered (base := m.base) m.pending m h.pnodup h.open_ h.order
  have hret := ret_op h.toLInv hf
  obtain ⟨x, g', rfl⟩ : ∃ x g', g = x :: g' := by
    cases g with
    | nil => exact absurd rfl (h.outer [] (by simp [hf]))
    | cons x g' => exact ⟨x, g', rfl⟩
  obtain ⟨f', fs', hf', hb, hbs⟩ := bases_ne h.bases
  rw [hf] at hf'; simp only [List.cons.injEq] at hf'; obtain ⟨rfl, rfl⟩ := hf'
  simp only [List.tail_cons] at hret hL ⊢
  have hlive : s.live = (f ++ [x]) ++ (g' :: fs).flatten := by simp [Vars.live, hf]
  have hbpos : m.base = (g' :: fs).flatten.length + 1 := by rw [hb]; simp
  have hup : ∀ w a, addr s.live w a → a + 1 < m.base → addr (g' :: fs).flatten w a := by
    intro w a ha hlt
    rw [hlive] at ha
    exact addr_of_append ha (by omega)
  have hdown : ∀ w a, addr (g' :: fs).flatten w a → addr s.live w a ∧ a + 1 < m.base := by
    intro w a ha
    exact ⟨by rw [hlive]; exact addr_append ha, by have := addr_lt ha; omega⟩
  have hcaps : m.closeAll.caps = m.caps := hc.caps
  have hkept : ∀ i ∈ m.closeAll.pending, m.closeAll.loc i = m.loc i := by
    intro i hi
    show ((UVM.closeFrom m.base m m.pending).upvals[i]?).bind _ = _
    rw [hc.kept i hi]; rfl
  refine ⟨hL, ?_, ?_, ?_, ?_, ?_⟩
  · intro w i hz hw
    have hz' : (w, i) ∈ s.captured.zip m.caps := hcaps ▸ hz
    show m.closeAll.upvals[i]? = _
    by_cases hwl : w ∈ s.live
    · obtain ⟨a, ha⟩ := mem_addr hwl
      have hloc := h.ups w i hz' a ha
      have hge : m.base ≤ a + 1 := by
        by_contra hcon
        exact hw (addr_mem (hup w a ha (by omega)))
      have := ((hord i (h.listed w i hz' hwl) a hloc).1 hge).1
      rw [show m.closeAll.upvals[i]? = _ from this, h.vals a w ha]
    · have hd := h.dead w i hz' hwl
      rcases hc.loc i with hl | ⟨hi, _⟩
      · rw [show m.closeAll.upvals[i]? = m.upvals[i]? from hl, hd]
      · obtain ⟨a, ha⟩ := h.open_ i hi
        obtain ⟨v, hv⟩ := loc_up ha
        rw [hd] at hv; simp at hv
  · show ∀ w i w' i', (w, i) ∈ s.captured.zip m.closeAll.caps → (w', i') ∈ s.captured.zip m.closeAll.caps → (w = w' ↔ i = i')
    rw [hcaps]; exact h.same
  · show m.closeAll.pending.Pairwise _
    refine (h.order.sublist hc.pending.sublist).imp_of_mem ?_
    intro y z hy hz hyz
    show ∀ a b, m.closeAll.loc y = some a → m.closeAll.loc z = some b → b < a
    rw [hkept y hy, hkept z hz]; exact hyz
  · intro i hi
    have hi0 : i ∈ m.closeAll.pending := hi
    have hip : i ∈ m.pending := hc.pending.mem hi0
    obtain ⟨w, a, hz, ha⟩ := h.backed i hip
    refine ⟨w, a, by show (w, i) ∈ s.captured.zip m.closeAll.caps; rw [hcaps]; exact hz, ?_⟩
    refine hup w a ha ?_
    by_contra hcon
    exact ((hord i hip a (h.ups w i hz a ha)).1 (by omega)).2 hi0
  · intro w i hz hw
    have hz' : (w, i) ∈ s.captured.zip m.caps := hcaps ▸ hz
    obtain ⟨a, ha⟩ := mem_addr hw
    obtain ⟨ha1, ha2⟩ := hdown w a ha
    exact (hord i (h.listed w i hz' (addr_mem ha1)) a (h.ups w i hz' a ha1)).2 ha2

theorem OInv.assignCaptured {m : UVM} {s : Vars} (h : OInv m s) {j w : Nat} {v : Val} (hw : s.cap j = some w) :
    OInv (m.op (.assignCaptured j v)) (s.op (.assignCaptured j v)) := by
  obtain ⟨i, hi, hz⟩ := cap_up h.toLInv hw
  by_cases hl : w ∈ s.live
  · obtain ⟨a, ha⟩ := mem_addr hl
    obtain ⟨u, hu⟩ := loc_up (h.ups w i hz a ha)
    have := h.write v ha
    simpa [UVM.op, Vars.op, hw, hi, UVM.upvalSet, hu] using this
  · have hd := h.dead w i hz hl
    have hilt := h.valid i (List.of_mem_zip hz).2
    have hs : s.op (.assignCaptured j v) = s.set w v := by simp [Vars.op, hw]
    have hm : m.op (.assignCaptured j v) = { m with upvals := m.upvals.set i ⟨none, v⟩ } := by simp [UVM.op, hi, UVM.upvalSet, hd]
    rw [hs, hm]
    have hloc : ∀ x, ({ m with upvals := m.upvals.set i ⟨none, v⟩ } : UVM).loc x = m.loc x := by
      intro x
      simp only [UVM.loc]
      by_cases hx : i = x
      · subst hx; rw [List.getElem?_set_self hilt, hd]; rfl
      · rw [List.getElem?_set_ne hx]
    have hne : ∀ u a, addr s.live u a → u ≠ w := fun u a ha hc => hl (hc ▸ addr_mem ha)
    refine ⟨⟨h.len, h.bases, h.nodup, h.fresh, h.capFresh, ?_, h.caps, ?_, ?_, ?_, h.pnodup, h.outer⟩, ?_, h.same, ?_, h.backed, h.listed⟩
    · intro a u ha
      have : s.live = (s.set w v).live := rfl
      simp only [Vars.set, if_neg (hne u a ha)]
      exact h.vals a u ha
    · intro x hx; simpa using h.valid x hx
    · intro u x hz a ha; rw [hloc]; exact h.ups u x hz a ha
    · intro x hx; rw [hloc]; exact h.open_ x hx
    · intro u x hzx hu
      have hd' := h.dead u x hzx hu
      have hsame := h.same w i u x hz hzx
      simp only [Vars.set]
      by_cases hwu : u = w
      · subst hwu
        rw [if_pos rfl, ← hsame.1 rfl, List.getElem?_set_self hilt]
      · rw [if_neg hwu, List.getElem?_set_ne (fun hc => hwu (hsame.2 hc).symm)]
        exact hd'
    · simp only [hloc]; exact h.order

end Yasl
