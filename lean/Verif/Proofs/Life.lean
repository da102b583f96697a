import Verif.Spec.Life
import Mathlib.Data.List.Count
import Mathlib.Data.List.Perm.Basic
import Mathlib.Data.List.Nodup
import Mathlib.Data.List.Induction
import Mathlib.Tactic.Linarith
/-! # The memory of a state: each function gives back what it should (C118) -/
set_option autoImplicit false
namespace Yasl
open LifeSpec

/-! ## Histories, one step more -/

theorem places_snoc (p : List LifeOp → LifeOp → Bool) (h : List LifeOp) (o : LifeOp) :
    places p (h ++ [o]) = places p h ++ if p h o then [h.length] else [] := by
  unfold places
  rw [List.length_append, List.length_singleton, List.range_succ, List.filter_append]
  congr 1
  · apply List.filter_congr
    intro k hk
    have hk := List.mem_range.1 hk
    rw [List.getElem?_append_left hk, List.take_append_of_le_length hk.le]
  · rw [List.filter_singleton, List.getElem?_concat_length, List.take_left]
    show (bif p h o then [h.length] else []) = _
    cases p h o <;> rfl

theorem refused_snoc (h : List LifeOp) (o : LifeOp) : refused (h ++ [o]) = match o with
    | .resetBB => false
    | .resetFile found => refused h && !found
    | .execute _ t => refused h || t.res != .accepted
    | .compile t => refused h || t.res != .accepted
    | _ => refused h := by
  unfold refused; rw [List.foldl_append]; rfl

theorem textsRun_snoc (h : List LifeOp) (o : LifeOp) : textsRun (h ++ [o]) = textsRun h + if isRun h o then 1 else 0 := by
  unfold textsRun; rw [places_snoc, List.length_append]; split <;> rfl

theorem onlyCompiled_snoc (h : List LifeOp) (o : LifeOp) : onlyCompiled (h ++ [o]) = onlyCompiled h + if isCompiled h o then 1 else 0 := by
  unfold onlyCompiled; rw [places_snoc, List.length_append]; split <;> rfl

theorem syntaxErrors_snoc (h : List LifeOp) (o : LifeOp) : syntaxErrors (h ++ [o]) = syntaxErrors h + if isSyntaxError h o then 1 else 0 := by
  unfold syntaxErrors; rw [places_snoc, List.length_append]; split <;> rfl

theorem codeFreed_snoc (h : List LifeOp) (o : LifeOp) (i : Nat) :
    codeFreed (h ++ [o]) i = (codeFreed h i || (o == .resetBB && textsRun h == i + 1)) := by
  unfold codeFreed; rw [places_snoc, List.length_append]
  by_cases c : (o == .resetBB && textsRun h == i + 1) = true
  · rw [if_pos c, c]; simp
  · rw [if_neg c]; simp only [Bool.not_eq_true] at c; rw [c]; simp

theorem codeFreed_fresh (h : List LifeOp) : ∀ i, textsRun h ≤ i → codeFreed h i = false := by
  induction h using List.reverseRecOn with
  | nil => intro i _; rfl
  | append_singleton h o ih =>
    intro i le
    rw [textsRun_snoc] at le
    rw [codeFreed_snoc, ih i (by omega)]
    simp only [Bool.false_or, Bool.and_eq_false_imp, beq_iff_eq, beq_eq_false_iff_ne]
    intro _; omega

theorem callsKept_snoc (h : List LifeOp) (o : LifeOp) :
    CallsKept (h ++ [o]) ↔ CallsKept h ∧ ∀ i ∈ uses h o, i < textsRun (h ++ [o]) ∧ codeFreed h i = false := by
  unfold CallsKept
  constructor
  · intro a
    refine ⟨fun k o' e i m => ?_, fun i m => ?_⟩
    · have hk : k < h.length := (List.getElem?_eq_some_iff.1 e).1
      have := a k o' (by rw [List.getElem?_append_left hk]; exact e) i
      rw [List.take_append_of_le_length hk.le, List.take_append_of_le_length hk] at this
      exact this m
    · have := a h.length o (by simp) i
      simp only [List.take_left] at this
      have e : (h ++ [o]).take (h.length + 1) = h ++ [o] := List.take_of_length_le (by simp)
      rw [e] at this
      exact this m
  · rintro ⟨a, b⟩ k o' e i m
    by_cases hk : k < h.length
    · rw [List.getElem?_append_left hk] at e
      rw [List.take_append_of_le_length hk.le] at m ⊢
      rw [List.take_append_of_le_length hk]
      exact a k o' e i m
    · have hk2 : k < (h ++ [o]).length := (List.getElem?_eq_some_iff.1 e).1
      have ek : k = h.length := by simp at hk2; omega
      subst ek
      have : o' = o := by simpa using e.symm
      subst this
      have e2 : (h ++ [o']).take (h.length + 1) = h ++ [o'] := List.take_of_length_le (by simp)
      rw [List.take_left] at m ⊢
      rw [e2]
      exact b i m

theorem Life.iter_append {α : Type} (f : Life → α → Option Life) (s : Life) (as bs : List α) :
    s.iter f (as ++ bs) = (s.iter f as).bind fun s => s.iter f bs := by
  induction as generalizing s with
  | nil => rfl
  | cons a as ih =>
    show (f s a).bind _ = ((f s a).bind _).bind _
    cases f s a with
    | none => rfl
    | some s' => exact ih s'

theorem Life.runs_snoc (s : Life) (h : List LifeOp) (o : LifeOp) : s.runs (h ++ [o]) = (s.runs h).bind fun s => s.step o := by
  unfold Life.runs; rw [Life.iter_append]
  congr 1; funext s'
  show (s'.step o).bind (fun s => some s) = s'.step o
  simp

/-! ## Blocks -/

/-- The memory holds exactly these blocks, each once, and no later one. -/
structure LifeMem.Holds (m : LifeMem) (L : List Nat) : Prop where
  perm : m.live.Perm L
  nodup : m.live.Nodup
  lt : ∀ a ∈ m.live, a < m.next

theorem LifeMem.Holds.of_perm {m : LifeMem} {L L' : List Nat} (H : m.Holds L) (p : L.Perm L') : m.Holds L' :=
  ⟨H.perm.trans p, H.nodup, H.lt⟩

theorem LifeMem.Holds.alloc {m : LifeMem} {L : List Nat} (H : m.Holds L) : m.alloc.2.Holds (m.alloc.1 :: L) := by
  refine ⟨List.Perm.cons _ H.perm, List.nodup_cons.2 ⟨fun h => ?_, H.nodup⟩, fun a h => ?_⟩
  · exact absurd (H.lt _ h) (Nat.lt_irrefl _)
  · rcases List.mem_cons.1 h with rfl | h
    · exact Nat.lt_succ_self _
    · exact Nat.lt_succ_of_lt (H.lt _ h)

theorem LifeMem.Holds.free {m : LifeMem} {a : Nat} {L : List Nat} (H : m.Holds (a :: L)) :
    ∃ m', m.free a = some m' ∧ m'.Holds L ∧ m'.next = m.next ∧ ∀ x, x ∈ m'.live ↔ x ∈ m.live ∧ x ≠ a := by
  have ha : a ∈ m.live := H.perm.mem_iff.2 (List.mem_cons_self ..)
  refine ⟨{ m with live := m.live.erase a }, by simp [LifeMem.free, ha], ⟨?_, H.nodup.erase a, fun b h => H.lt b (List.mem_of_mem_erase h)⟩, rfl, fun x => ?_⟩
  · have := H.perm.erase a
    simpa using this
  · show x ∈ m.live.erase a ↔ _
    rw [H.nodup.mem_erase_iff]; exact and_comm

theorem LifeMem.Holds.free_none {m : LifeMem} {a : Nat} {L : List Nat} (H : m.Holds L) (na : a ∉ L) : m.free a = none := by
  unfold LifeMem.free; rw [if_neg fun h => na (H.perm.mem_iff.1 h)]

theorem LifeMem.Holds.freeOpt {m : LifeMem} {o : Option Nat} {L : List Nat} (H : m.Holds (o.toList ++ L)) :
    ∃ m', m.freeOpt o = some m' ∧ m'.Holds L ∧ m'.next = m.next ∧ ∀ x, x ∈ m'.live ↔ x ∈ m.live ∧ some x ≠ o := by
  cases o with
  | none => exact ⟨m, rfl, H, rfl, fun x => by simp⟩
  | some a => obtain ⟨m', e, H', n, l⟩ := LifeMem.Holds.free (L := L) H; exact ⟨m', e, H', n, fun x => by rw [l]; simp⟩

theorem LifeMem.Holds.freeAll {as : List Nat} : ∀ {m : LifeMem} {L : List Nat}, m.Holds (as ++ L) → ∃ m', m.freeAll as = some m' ∧ m'.Holds L := by
  induction as with
  | nil => intro m L H; exact ⟨m, rfl, H⟩
  | cons a as ih =>
    intro m L H
    obtain ⟨m', e, H', _, _⟩ := LifeMem.Holds.free (L := as ++ L) H
    obtain ⟨m'', e', H''⟩ := ih H'
    exact ⟨m'', by show (m.free a).bind _ = _; rw [e]; exact e', H''⟩

/-- Two lists of the same blocks. -/
macro "same_blocks" : tactic => `(tactic| (rw [List.perm_iff_count]; intro x; simp only [List.count_append, List.count_cons, List.count_nil]; omega))

/-- What was freed stays so. -/
def LifeMem.Later (m m' : LifeMem) : Prop := m.next ≤ m'.next ∧ ∀ a, a < m.next → a ∈ m'.live → a ∈ m.live

theorem LifeMem.Later.refl (m : LifeMem) : m.Later m := ⟨Nat.le_refl _, fun _ _ h => h⟩

theorem LifeMem.Later.trans {m m' m'' : LifeMem} (a : m.Later m') (b : m'.Later m'') : m.Later m'' :=
  ⟨Nat.le_trans a.1 b.1, fun x l h => a.2 x l (b.2 x (Nat.lt_of_lt_of_le l a.1) h)⟩

theorem LifeMem.Later.alloc (m : LifeMem) : m.Later m.alloc.2 :=
  ⟨Nat.le_succ _, fun x l h => by
    rcases List.mem_cons.1 h with rfl | h
    · exact absurd l (Nat.lt_irrefl _)
    · exact h⟩

theorem LifeMem.Later.of_iff {m m' : LifeMem} {p : Nat → Prop} (e : m'.next = m.next) (h : ∀ x, x ∈ m'.live ↔ x ∈ m.live ∧ p x) : m.Later m' :=
  ⟨by rw [e], fun x _ hx => ((h x).1 hx).1⟩

theorem life_print {io : LifeIO} {m : LifeMem} {L : List Nat} (H : m.Holds (io.string.toList ++ L)) (t : List Nat) :
    ∃ io' m' w, io.print m t = some (io', m', w) ∧ m'.Holds (io'.string.toList ++ L) ∧ m.Later m' := by
  unfold LifeIO.print
  by_cases c : t = []
  · rw [if_pos c]; exact ⟨_, _, _, rfl, H, .refl _⟩
  · rw [if_neg c]
    by_cases c2 : io.captured
    · rw [if_pos c2]
      obtain ⟨m1, e, H1, n, l⟩ := H.freeOpt
      rw [e]
      exact ⟨_, _, _, rfl, H1.alloc, (LifeMem.Later.of_iff n l).trans (.alloc _)⟩
    · rw [if_neg c2]; exact ⟨_, _, _, rfl, H, .refl _⟩

/-! ## The state -/

/-- The code of the texts that was not freed. -/
def liveCode (Fr : Nat → Bool) (ts : List Nat) : List Nat := ts.zipIdx.filterMap fun p => if Fr p.2 then none else some p.1

theorem liveCode_snoc (Fr : Nat → Bool) (ts : List Nat) (a : Nat) :
    liveCode Fr (ts ++ [a]) = liveCode Fr ts ++ if Fr ts.length then [] else [a] := by
  unfold liveCode
  rw [List.zipIdx_append, List.filterMap_append]
  congr 1
  simp only [List.zipIdx_cons, List.zipIdx_nil, Nat.zero_add, List.filterMap_cons, List.filterMap_nil]
  split <;> simp_all

theorem liveCode_congr {Fr Fr' : Nat → Bool} {ts : List Nat} (h : ∀ i, i < ts.length → Fr i = Fr' i) : liveCode Fr ts = liveCode Fr' ts := by
  induction ts using List.reverseRecOn with
  | nil => rfl
  | append_singleton ts a ih =>
    rw [liveCode_snoc, liveCode_snoc, ih fun i l => h i (by simp; omega), h ts.length (by simp)]

theorem liveCode_mem {Fr : Nat → Bool} {ts : List Nat} {i a : Nat} (e : ts[i]? = some a) (n : Fr i = false) : a ∈ liveCode Fr ts := by
  unfold liveCode
  rw [List.mem_filterMap]
  exact ⟨(a, i), List.mem_zipIdx_iff_getElem?.2 e, by simp [n]⟩

theorem liveCode_length (Fr : Nat → Bool) (ts : List Nat) : (liveCode Fr ts).length = ((List.range ts.length).filter fun i => !Fr i).length := by
  induction ts using List.reverseRecOn with
  | nil => rfl
  | append_singleton ts a ih =>
    rw [liveCode_snoc, List.length_append, List.length_append, List.length_singleton, List.range_succ, List.filter_append, List.length_append, ih]
    cases h : Fr ts.length <;> simp [h]

/-- All blocks of a state: `L` the code of texts, `C` constants that are lost, `P` code that was never kept. -/
def Life.blocks (s : Life) (L C P : List Nat) : List Nat :=
  s.input :: (s.lexErr.string.toList ++ (s.out.string.toList ++ (s.err.string.toList ++ (s.scopes ++ (s.modules ++ (s.consts.toList ++ (s.own ++ (L ++ (C ++ P)))))))))

structure LifeInv (Fr : Nat → Bool) (s : Life) (C P : List Nat) : Prop where
  holds : s.mem.Holds (s.blocks (liveCode Fr s.texts) C P)
  lt : ∀ a ∈ s.texts, a < s.mem.next
  gone : ∀ i a, s.texts[i]? = some a → Fr i = true → a ∉ s.mem.live
  header : s.header = s.texts.getLast?
  code : s.code = if Fr (s.texts.length - 1) then none else s.texts.getLast?

theorem LifeInv.move {Fr : Nat → Bool} {s s' : Life} {C P C' P' : List Nat} (I : LifeInv Fr s C P) (et : s'.texts = s.texts) (eh : s'.header = s.header)
    (ec : s'.code = s.code) (l : s.mem.Later s'.mem) (H : s'.mem.Holds (s'.blocks (liveCode Fr s.texts) C' P')) : LifeInv Fr s' C' P' := by
  refine ⟨by rw [et]; exact H, fun a h => ?_, fun i a h f m => ?_, by rw [eh, et]; exact I.header, by rw [ec, et]; exact I.code⟩
  · rw [et] at h; exact Nat.lt_of_lt_of_le (I.lt a h) l.1
  · rw [et] at h
    exact I.gone i a h f (l.2 a (I.lt a (List.mem_of_getElem? h)) m)

theorem LifeInv.call {Fr : Nat → Bool} {s : Life} {C P : List Nat} (I : LifeInv Fr s C P) (i : Nat) :
    s.call i = if i < s.texts.length ∧ Fr i = false then some s else none := by
  unfold Life.call
  by_cases c : i < s.texts.length
  · rw [List.getElem?_eq_getElem c]
    show (if s.texts[i] ∈ s.mem.live then some s else none) = _
    have e : s.texts[i]? = some s.texts[i] := List.getElem?_eq_getElem c
    cases f : Fr i with
    | true => rw [if_neg (I.gone i _ e f)]; simp
    | false =>
      have : s.texts[i] ∈ s.mem.live := I.holds.perm.mem_iff.2 (by simp [Life.blocks, liveCode_mem e f])
      rw [if_pos this]; simp [c]
  · rw [List.getElem?_eq_none (Nat.le_of_not_lt c)]; simp [c]

theorem LifeInv.calls {Fr : Nat → Bool} {s : Life} {C P : List Nat} (I : LifeInv Fr s C P) (is : List Nat) :
    s.iter Life.call is = if ∀ i ∈ is, i < s.texts.length ∧ Fr i = false then some s else none := by
  induction is with
  | nil => simp [Life.iter]
  | cons i is ih =>
    show (s.call i).bind _ = _
    rw [I.call]
    by_cases c : i < s.texts.length ∧ Fr i = false
    · rw [if_pos c]; show s.iter Life.call is = _; rw [ih]; simp [c]
    · rw [if_neg c, if_neg fun h => c (h i (List.mem_cons_self ..))]; rfl

theorem LifeInv.newLexer {Fr : Nat → Bool} {s : Life} {C P : List Nat} (I : LifeInv Fr s C P) :
    ∃ s', s.newLexer = some s' ∧ LifeInv Fr s' C P ∧ s'.texts = s.texts ∧ s'.consts = s.consts ∧ s'.refused = false ∧ s'.scopes = s.scopes ∧ s'.code = s.code := by
  obtain ⟨m1, e1, H1, n1, l1⟩ := I.holds.free
  obtain ⟨m2, e2, H2, n2, l2⟩ := H1.freeOpt
  refine ⟨{ s with mem := m2.alloc.2, input := m2.alloc.1, lexErr := .new, refused := false }, by unfold Life.newLexer; rw [e1]; show (m1.freeOpt _).bind _ = _; rw [e2]; rfl, ?_, rfl, rfl, rfl, rfl, rfl⟩
  exact I.move rfl rfl rfl (((LifeMem.Later.of_iff n1 l1).trans (.of_iff n2 l2)).trans (.alloc _)) H2.alloc

theorem LifeInv.report {Fr : Nat → Bool} {s : Life} {C P : List Nat} (I : LifeInv Fr s C P) (r : List Nat) :
    ∃ s', s.report r = some s' ∧ LifeInv Fr s' C P ∧ s'.texts = s.texts ∧ s'.consts = s.consts ∧ s'.refused = true ∧ s'.scopes = s.scopes := by
  have H : s.mem.Holds (s.lexErr.string.toList ++ (s.input :: (s.out.string.toList ++ (s.err.string.toList ++ (s.scopes ++ (s.modules ++ (s.consts.toList ++ (s.own ++
    (liveCode Fr s.texts ++ (C ++ P)))))))))) := I.holds.of_perm (by unfold Life.blocks; same_blocks)
  obtain ⟨io, m, w, e, H', l⟩ := life_print H r
  refine ⟨{ s with lexErr := io, mem := m, terminal := s.terminal ++ w, refused := true }, by unfold Life.report; rw [e]; rfl, ?_, rfl, rfl, rfl, rfl⟩
  exact I.move rfl rfl rfl l (H'.of_perm (by unfold Life.blocks; same_blocks))

theorem LifeInv.enter {Fr : Nat → Bool} {s : Life} {C P : List Nat} (I : LifeInv Fr s C P) : LifeInv Fr s.enterScope C P :=
  I.move rfl rfl rfl (.alloc _) (I.holds.alloc.of_perm (by unfold Life.blocks Life.enterScope; same_blocks))

theorem LifeInv.exit {Fr : Nat → Bool} {s : Life} {C P : List Nat} (I : LifeInv Fr s C P) (n : s.scopes ≠ []) :
    ∃ s', s.exitScope = some s' ∧ LifeInv Fr s' C P ∧ s'.texts = s.texts ∧ s'.consts = s.consts ∧ s'.refused = s.refused ∧ s'.scopes.length + 1 = s.scopes.length := by
  unfold Life.exitScope
  cases es : s.scopes with
  | nil => exact absurd es n
  | cons a as =>
    have H : s.mem.Holds (a :: (s.input :: (s.lexErr.string.toList ++ (s.out.string.toList ++ (s.err.string.toList ++ (as ++ (s.modules ++ (s.consts.toList ++ (s.own ++
      (liveCode Fr s.texts ++ (C ++ P))))))))))) := I.holds.of_perm (by unfold Life.blocks; rw [es]; same_blocks)
    obtain ⟨m, e, H', n, l⟩ := H.free
    refine ⟨{ s with mem := m, scopes := as }, by show (s.mem.free a).bind _ = _; rw [e]; rfl, ?_, rfl, rfl, rfl, rfl⟩
    exact I.move rfl rfl rfl (.of_iff n l) H'

theorem LifeInv.compile {Fr : Nat → Bool} {s : Life} {C P : List Nat} (I : LifeInv Fr s C P) (repl : Bool) (t : LifeText) :
    ∃ s' r, s.compile repl t = some (s', r) ∧ LifeInv Fr s' C (r.toList ++ P) ∧ s'.texts = s.texts ∧ s'.consts = s.consts ∧
      s'.refused = (s.refused || t.res != .accepted) ∧ r.isSome = !(s.refused || t.res != .accepted) ∧
      s'.scopes.length = s.scopes.length + if !repl && t.res == .syntaxError then 1 else 0 := by
  -- the scope
  obtain ⟨s0, e0, I0, t0, c0, r0, l0⟩ : ∃ s0, (if repl then s else s.enterScope) = s0 ∧ LifeInv Fr s0 C P ∧ s0.texts = s.texts ∧ s0.consts = s.consts ∧
      s0.refused = s.refused ∧ s0.scopes.length = s.scopes.length + if !repl then 1 else 0 := by
    cases repl with
    | true => exact ⟨s, rfl, I, rfl, rfl, rfl, rfl⟩
    | false => exact ⟨_, rfl, I.enter, rfl, rfl, rfl, rfl⟩
  -- the report
  obtain ⟨s1, e1, I1, t1, c1, r1, l1⟩ : ∃ s1, (if t.res = .accepted then some s0 else s0.report t.report) = some s1 ∧ LifeInv Fr s1 C P ∧ s1.texts = s0.texts ∧
      s1.consts = s0.consts ∧ s1.refused = (s0.refused || t.res != .accepted) ∧ s1.scopes = s0.scopes := by
    by_cases c : t.res = .accepted
    · rw [if_pos c]; exact ⟨s0, rfl, I0, rfl, rfl, by simp [c], rfl⟩
    · rw [if_neg c]
      obtain ⟨s1, e, I1, a, b, r, d⟩ := I0.report t.report
      exact ⟨s1, e, I1, a, b, by rw [r]; simp [c], d⟩
  -- the end of the scope
  obtain ⟨s2, e2, I2, t2, c2, r2, l2⟩ : ∃ s2, (if repl || t.res = .syntaxError then some s1 else s1.exitScope) = some s2 ∧ LifeInv Fr s2 C P ∧ s2.texts = s1.texts ∧
      s2.consts = s1.consts ∧ s2.refused = s1.refused ∧ s2.scopes.length = s.scopes.length + if !repl && t.res == .syntaxError then 1 else 0 := by
    by_cases c : (repl || t.res = .syntaxError) = true
    · rw [if_pos c]
      refine ⟨s1, rfl, I1, rfl, rfl, rfl, ?_⟩
      rw [l1, l0]
      cases repl <;> simp_all
    · rw [if_neg c]
      have hr : repl = false := by cases repl <;> simp_all
      have hs : ¬ t.res = .syntaxError := by simp_all
      have hl : s1.scopes.length = s.scopes.length + 1 := by rw [l1, l0, hr]; rfl
      obtain ⟨s2, e, I2, a, b, r, d⟩ := I1.exit (by intro h; rw [h] at hl; simp at hl)
      refine ⟨s2, e, I2, a, b, r, ?_⟩
      simp only [hr, Bool.not_false, Bool.true_and, beq_iff_eq, if_neg hs]; omega
  have eR : s2.refused = (s.refused || t.res != .accepted) := by rw [r2, r1, r0]
  unfold Life.compile
  simp only
  rw [e0, e1]
  show ∃ s' r, Option.bind (if repl || t.res = .syntaxError then some s1 else s1.exitScope) _ = _ ∧ _
  rw [e2]
  show ∃ s' r, (if s2.refused then some (s2, none) else _) = _ ∧ _
  cases hr : s2.refused with
  | true =>
    rw [if_pos rfl]
    exact ⟨s2, none, rfl, I2, by rw [t2, t1, t0], by rw [c2, c1, c0], by rw [← eR, hr], by rw [← eR, hr]; rfl, l2⟩
  | false =>
    rw [if_neg (by simp)]
    refine ⟨{ s2 with mem := s2.mem.alloc.2, refused := false }, some s2.mem.alloc.1, rfl, ?_, by show s2.texts = _; rw [t2, t1, t0],
      by show s2.consts = _; rw [c2, c1, c0], by rw [← eR, hr], by rw [← eR, hr]; rfl, l2⟩
    exact I2.move rfl rfl rfl (.alloc _) (I2.holds.alloc.of_perm (by unfold Life.blocks; simp only [Option.toList]; same_blocks))

theorem LifeInv.require {Fr : Nat → Bool} {s : Life} {C P : List Nat} (I : LifeInv Fr s C P) :
    ∃ s', s.require = some s' ∧ LifeInv Fr s' C P ∧ s'.texts = s.texts ∧ s'.consts.isSome ∧ s'.refused = s.refused ∧ s'.scopes = s.scopes := by
  have H : s.mem.alloc.2.Holds (s.consts.toList ++ (s.mem.alloc.1 :: s.input :: (s.lexErr.string.toList ++ (s.out.string.toList ++ (s.err.string.toList ++ (s.scopes ++
    (s.modules ++ (s.own ++ (liveCode Fr s.texts ++ (C ++ P)))))))))) := I.holds.alloc.of_perm (by unfold Life.blocks; same_blocks)
  obtain ⟨m, e, H', n, l⟩ := H.freeOpt
  refine ⟨{ s with mem := m.alloc.2, modules := s.modules ++ [s.mem.alloc.1], consts := some m.alloc.1 }, by unfold Life.require; simp only; rw [e]; rfl, ?_, rfl, rfl, rfl, rfl⟩
  exact I.move rfl rfl rfl ((LifeMem.Later.alloc _).trans ((LifeMem.Later.of_iff n l).trans (.alloc _)))
    (H'.alloc.of_perm (by unfold Life.blocks; simp only [Option.toList]; same_blocks))

theorem LifeInv.requires {Fr : Nat → Bool} {C P : List Nat} (ks : List Nat) : ∀ {s : Life}, LifeInv Fr s C P → s.consts.isSome →
    ∃ s', s.iter (fun s (_ : Nat) => s.require) ks = some s' ∧ LifeInv Fr s' C P ∧ s'.texts = s.texts ∧ s'.consts.isSome ∧ s'.refused = s.refused ∧ s'.scopes = s.scopes := by
  induction ks with
  | nil => intro s I c; exact ⟨s, rfl, I, rfl, c, rfl, rfl⟩
  | cons k ks ih =>
    intro s I _
    obtain ⟨s1, e, I1, a, b, c, d⟩ := I.require
    obtain ⟨s2, e2, I2, a2, b2, c2, d2⟩ := ih I1 b
    exact ⟨s2, by show (s.require).bind _ = _; rw [e]; exact e2, I2, a2.trans a, b2, c2.trans c, d2.trans d⟩

theorem LifeInv.run {Fr : Nat → Bool} {s : Life} {C P : List Nat} (I : LifeInv Fr s C P) (t : LifeText) :
    if ∀ i ∈ t.calls, i < s.texts.length ∧ Fr i = false then
      ∃ s', s.run t = some s' ∧ LifeInv Fr s' (s.consts.toList ++ C) P ∧ s'.texts = s.texts ∧ s'.consts.isSome ∧ s'.refused = s.refused ∧ s'.scopes = s.scopes
    else s.run t = none := by
  have I0 : LifeInv Fr { s with mem := s.mem.alloc.2, consts := some s.mem.alloc.1 } (s.consts.toList ++ C) P :=
    I.move rfl rfl rfl (.alloc _) (I.holds.alloc.of_perm (by unfold Life.blocks; simp only [Option.toList]; same_blocks))
  unfold Life.run
  simp only
  rw [I0.calls]
  by_cases c : ∀ i ∈ t.calls, i < s.texts.length ∧ Fr i = false
  · rw [if_pos c, if_pos c]
    show ∃ s', Option.bind (Life.iter _ _ _) _ = _ ∧ _
    obtain ⟨s1, e1, I1, t1, c1, r1, l1⟩ := I0.requires (List.range t.requires) rfl
    rw [e1]
    show ∃ s', Option.bind (LifeIO.print _ _ _) _ = _ ∧ _
    have H : s1.mem.Holds (s1.out.string.toList ++ (s1.input :: (s1.lexErr.string.toList ++ (s1.err.string.toList ++ (s1.scopes ++ (s1.modules ++ (s1.consts.toList ++
      (s1.own ++ (liveCode Fr s1.texts ++ ((s.consts.toList ++ C) ++ P)))))))))) := I1.holds.of_perm (by unfold Life.blocks; same_blocks)
    obtain ⟨io, m, w, e, H', l⟩ := life_print H t.out
    rw [e]
    show ∃ s', Option.bind (LifeIO.print _ _ _) _ = _ ∧ _
    have H2 : m.Holds (s1.err.string.toList ++ (s1.input :: (s1.lexErr.string.toList ++ (io.string.toList ++ (s1.scopes ++ (s1.modules ++ (s1.consts.toList ++
      (s1.own ++ (liveCode Fr s1.texts ++ ((s.consts.toList ++ C) ++ P)))))))))) := H'.of_perm (by same_blocks)
    obtain ⟨io2, m2, w2, e2, H3, l2⟩ := life_print H2 t.err
    rw [e2]
    refine ⟨{ s1 with out := io, err := io2, mem := m2, terminal := s1.terminal ++ w ++ w2 }, rfl, ?_, t1, c1, r1, l1⟩
    exact I1.move rfl rfl rfl (l.trans l2) (H3.of_perm (by unfold Life.blocks; same_blocks))
  · rw [if_neg c, if_neg c]; rfl

/-! ## Histories -/

/-- What is known of a state after a history. -/
structure LifeKnown (h : List LifeOp) (s : Life) (C P : List Nat) : Prop where
  inv : LifeInv (codeFreed h) s C P
  texts : s.texts.length = textsRun h
  consts : s.consts.isSome = (textsRun h != 0)
  lostConsts : C.length = textsRun h - 1
  lostCode : P.length = onlyCompiled h
  refused : s.refused = LifeSpec.refused h
  scopes : s.scopes.length = syntaxErrors h

theorem codeFreed_other {h : List LifeOp} {o : LifeOp} (n : o ≠ .resetBB) : codeFreed (h ++ [o]) = codeFreed h := by
  funext i; rw [codeFreed_snoc]
  have : (o == LifeOp.resetBB) = false := by simpa using n
  simp [this]

/-- A step that runs nothing, frees no code and leaves the verdict and the scopes as the history says. -/
theorem LifeKnown.quiet {h : List LifeOp} {s s' : Life} {C P P' : List Nat} {o : LifeOp} (K : LifeKnown h s C P) (n : o ≠ .resetBB) (nr : isRun h o = false)
    (I : LifeInv (codeFreed h) s' C P') (et : s'.texts = s.texts) (ec : s'.consts = s.consts) (lp : P'.length = P.length + if isCompiled h o then 1 else 0)
    (er : s'.refused = LifeSpec.refused (h ++ [o])) (es : s'.scopes.length = s.scopes.length + if isSyntaxError h o then 1 else 0) : LifeKnown (h ++ [o]) s' C P' := by
  have e : textsRun (h ++ [o]) = textsRun h := by rw [textsRun_snoc, nr]; rfl
  refine ⟨by rw [codeFreed_other n]; exact I, by rw [et, K.texts, e], by rw [ec, K.consts, e], by rw [K.lostConsts, e], ?_, er, ?_⟩
  · rw [onlyCompiled_snoc, lp, K.lostCode]
  · rw [syntaxErrors_snoc, es, K.scopes]

theorem life_known_resetBB {h : List LifeOp} {s : Life} {C P : List Nat} (K : LifeKnown h s C P) :
    ∃ s', s.resetBB = some s' ∧ LifeKnown (h ++ [.resetBB]) s' C P := by
  obtain ⟨s1, e1, I1, t1, c1, r1, l1, k1⟩ := K.inv.newLexer
  have e : textsRun (h ++ [.resetBB]) = textsRun h := by rw [textsRun_snoc]; rfl
  have F : ∀ i, codeFreed (h ++ [.resetBB]) i = (codeFreed h i || textsRun h == i + 1) := fun i => by rw [codeFreed_snoc]; rfl
  have fin : ∀ s' : Life, LifeInv (codeFreed (h ++ [.resetBB])) s' C P → s'.texts = s.texts → s'.consts = s.consts → s'.refused = false → s'.scopes = s.scopes →
      LifeKnown (h ++ [.resetBB]) s' C P := fun s' I a b c d =>
    ⟨I, by rw [a, K.texts, e], by rw [b, K.consts, e], by rw [K.lostConsts, e], by rw [K.lostCode, onlyCompiled_snoc]; rfl, by rw [c, refused_snoc],
      by rw [d, K.scopes, syntaxErrors_snoc]; rfl⟩
  unfold Life.resetBB
  rw [e1]
  show ∃ s', (s1.mem.freeOpt s1.code).bind _ = _ ∧ _
  rcases List.eq_nil_or_concat s1.texts with en | ⟨T, a, et⟩
  · -- no text was run
    have hc : s1.code = none := by rw [I1.code, en]; simp
    rw [hc]
    refine ⟨{ s1 with code := none }, rfl, fin _ ?_ t1 c1 r1 l1⟩
    have h0 : textsRun h = 0 := by rw [← K.texts, ← t1, en]; rfl
    refine ⟨?_, I1.lt, fun i a' h' => ?_, I1.header, ?_⟩
    · have : liveCode (codeFreed (h ++ [.resetBB])) s1.texts = liveCode (codeFreed h) s1.texts := by rw [en]; rfl
      show s1.mem.Holds (Life.blocks _ (liveCode _ s1.texts) C P)
      rw [this]; exact I1.holds
    · rw [show ({ s1 with code := none } : Life).texts = [] from en] at h'; simp at h'
    · show none = if _ then none else s1.texts.getLast?
      rw [en]; simp
  · have hn : textsRun h = T.length + 1 := by rw [← K.texts, ← t1, et]; simp
    have hl : s1.texts.length - 1 = T.length := by rw [et]; simp
    have FT : ∀ i, i < T.length → codeFreed (h ++ [.resetBB]) i = codeFreed h i := fun i l => by
      rw [F, hn]; have : (T.length + 1 == i + 1) = false := by simp; omega
      rw [this]; simp
    have Flast : codeFreed (h ++ [.resetBB]) T.length = true := by rw [F, hn]; simp
    have hL : liveCode (codeFreed (h ++ [.resetBB])) s1.texts = liveCode (codeFreed h) T := by
      rw [et, List.concat_eq_append, liveCode_snoc, Flast, if_pos rfl, List.append_nil]; exact liveCode_congr FT
    have hcode := I1.code
    rw [hl] at hcode
    cases f : codeFreed h T.length with
    | true =>
      -- freed before
      rw [f, if_pos rfl] at hcode
      rw [hcode]
      refine ⟨{ s1 with code := none }, rfl, fin _ ?_ t1 c1 r1 l1⟩
      have hF : ∀ i, i < s1.texts.length → codeFreed (h ++ [.resetBB]) i = codeFreed h i := fun i l => by
        rcases Nat.lt_or_ge i T.length with l' | g
        · exact FT i l'
        · have : i = T.length := by rw [et] at l; simp at l; omega
          rw [this, Flast, f]
      refine ⟨?_, I1.lt, fun i a' h' hf => ?_, I1.header, ?_⟩
      · show s1.mem.Holds (Life.blocks _ (liveCode _ s1.texts) C P)
        rw [liveCode_congr hF]; exact I1.holds
      · exact I1.gone i a' h' (by rw [← hF i (List.getElem?_eq_some_iff.1 h').1]; exact hf)
      · show none = if codeFreed _ (s1.texts.length - 1) then none else _
        rw [hl, Flast]; rfl
    | false =>
      rw [f, if_neg (by simp), et, List.concat_eq_append, List.getLast?_concat] at hcode
      rw [hcode]
      have hL0 : liveCode (codeFreed h) s1.texts = liveCode (codeFreed h) T ++ [a] := by
        rw [et, List.concat_eq_append, liveCode_snoc, f]; rfl
      have H : s1.mem.Holds (a :: s1.blocks (liveCode (codeFreed h) T) C P) := I1.holds.of_perm (by rw [hL0]; unfold Life.blocks; same_blocks)
      obtain ⟨m, e2, H2, n2, l2⟩ := H.free
      refine ⟨{ s1 with mem := m, code := none }, by show (s1.mem.free a).bind _ = _; rw [e2]; rfl, fin _ ?_ t1 c1 r1 l1⟩
      refine ⟨?_, fun x hx => by show x < m.next; rw [n2]; exact I1.lt x hx, fun i a' h' hf hm => ?_, I1.header, ?_⟩
      · show m.Holds (Life.blocks _ (liveCode _ s1.texts) C P)
        rw [hL]; exact H2
      · have hm := (l2 a').1 hm
        rcases Nat.lt_or_ge i T.length with l' | g
        · exact I1.gone i a' h' (by rw [← FT i l']; exact hf) hm.1
        · have hi : i < s1.texts.length := (List.getElem?_eq_some_iff.1 h').1
          have : i = T.length := by rw [et] at hi; simp at hi; omega
          subst this
          rw [show ({ s1 with mem := m, code := none } : Life).texts = T ++ [a] by rw [← List.concat_eq_append]; exact et] at h'
          simp at h'
          exact hm.2 h'.symm
      · show none = if codeFreed _ (s1.texts.length - 1) then none else _
        rw [hl, Flast]; rfl

theorem life_known_execute {h : List LifeOp} {s : Life} {C P : List Nat} (K : LifeKnown h s C P) (repl : Bool) (t : LifeText) :
    if ∀ i ∈ uses h (.execute repl t), i < textsRun (h ++ [.execute repl t]) ∧ codeFreed h i = false then
      ∃ s' C', s.execute repl t = some s' ∧ LifeKnown (h ++ [.execute repl t]) s' C' P
    else s.execute repl t = none := by
  obtain ⟨s1, r, e, I, et, ec, er, es, el⟩ := K.inv.compile repl t
  have erun : isRun h (.execute repl t) = r.isSome := by
    rw [es, K.refused]
    show (!LifeSpec.refused h && t.res == .accepted) = _
    cases LifeSpec.refused h <;> cases t.res <;> rfl
  have eref : s1.refused = LifeSpec.refused (h ++ [.execute repl t]) := by rw [er, K.refused, refused_snoc]
  have esc : s1.scopes.length = s.scopes.length + if isSyntaxError h (.execute repl t) then 1 else 0 := by
    rw [el]
    have : isSyntaxError h (.execute repl t) = (!repl && t.res == .syntaxError) := by cases repl <;> rfl
    rw [this]
  unfold Life.execute
  rw [e]
  cases r with
  | none =>
    have hu : uses h (.execute repl t) = [] := by
      show (if isRun h (.execute repl t) then t.calls else []) = _; rw [erun]; rfl
    rw [hu, if_pos (by simp)]
    refine ⟨s1, C, rfl, K.quiet (by simp) (by rw [erun]; rfl) I et ec ?_ eref esc⟩
    show P.length = P.length + 0
    rfl
  | some a =>
    have hu : uses h (.execute repl t) = t.calls := by
      show (if isRun h (.execute repl t) then t.calls else []) = _; rw [erun]; rfl
    have hn : textsRun (h ++ [.execute repl t]) = textsRun h + 1 := by rw [textsRun_snoc, erun]; rfl
    rw [hu]
    show if _ then _ else (Life.run _ t) = none
    have ht : s1.texts.length = textsRun h := by rw [et, K.texts]
    have hF : codeFreed h s1.texts.length = false := codeFreed_fresh h _ (by rw [ht])
    have I' : LifeInv (codeFreed h) { s1 with code := some a, header := some a, texts := s1.texts ++ [a] } C P := by
      have ham : a ∈ s1.mem.live := I.holds.perm.mem_iff.2 (by simp [Life.blocks])
      refine ⟨?_, fun x hx => ?_, fun i x hx hf => ?_, by simp, by simp [hF]⟩
      · show s1.mem.Holds (Life.blocks _ (liveCode _ (s1.texts ++ [a])) C P)
        rw [liveCode_snoc, hF]
        exact I.holds.of_perm (by unfold Life.blocks; simp only [Option.toList, Bool.false_eq_true, if_false]; same_blocks)
      · rcases List.mem_append.1 hx with hx | hx
        · exact I.lt x hx
        · rw [List.mem_singleton.1 hx]; exact I.holds.lt a ham
      · rcases Nat.lt_or_ge i s1.texts.length with l | g
        · rw [show ({ s1 with code := some a, header := some a, texts := s1.texts ++ [a] } : Life).texts = s1.texts ++ [a] from rfl,
            List.getElem?_append_left l] at hx
          exact I.gone i x hx hf
        · rw [codeFreed_fresh h i (by omega)] at hf; cases hf
    have R := I'.run t
    have hlen : (s1.texts ++ [a]).length = textsRun (h ++ [.execute repl t]) := by rw [hn, ← ht]; simp
    rw [show ({ s1 with code := some a, header := some a, texts := s1.texts ++ [a] } : Life).texts = s1.texts ++ [a] from rfl, hlen] at R
    by_cases c : ∀ i ∈ t.calls, i < textsRun (h ++ [.execute repl t]) ∧ codeFreed h i = false
    · rw [if_pos c] at R ⊢
      obtain ⟨s2, e2, I2, t2, c2, r2, l2⟩ := R
      refine ⟨s2, s1.consts.toList ++ C, e2, ?_⟩
      have hcl : (s1.consts.toList ++ C).length = textsRun h := by
        rw [List.length_append, ec, K.lostConsts]
        have := K.consts
        cases hc : s.consts <;> rw [hc] at this <;> simp at this <;> simp <;> omega
      exact ⟨by rw [codeFreed_other (by simp)]; exact I2, by rw [t2, hlen], by rw [c2, hn]; rfl, by rw [hcl, hn]; rfl,
        by rw [K.lostCode, onlyCompiled_snoc]; rfl, by rw [r2]; exact eref, by rw [l2]; show s1.scopes.length = _; rw [esc, K.scopes, syntaxErrors_snoc]⟩
    · rw [if_neg c] at R ⊢; exact R

theorem life_known_step {h : List LifeOp} {s : Life} {C P : List Nat} (K : LifeKnown h s C P) (o : LifeOp) :
    if ∀ i ∈ uses h o, i < textsRun (h ++ [o]) ∧ codeFreed h i = false then ∃ s' C' P', s.step o = some s' ∧ LifeKnown (h ++ [o]) s' C' P'
    else s.step o = none := by
  cases o with
  | resetBB =>
    rw [if_pos (by simp [uses])]
    obtain ⟨s', e, K'⟩ := life_known_resetBB K
    exact ⟨s', C, P, e, K'⟩
  | resetFile found =>
    rw [if_pos (by simp [uses])]
    cases found with
    | false => exact ⟨s, C, P, rfl, K.quiet (by simp) rfl K.inv rfl rfl rfl (by rw [refused_snoc, K.refused]; simp) rfl⟩
    | true =>
      obtain ⟨s1, e1, I1, t1, c1, r1, l1, k1⟩ := K.inv.newLexer
      exact ⟨s1, C, P, e1, K.quiet (by simp) rfl I1 t1 c1 rfl (by rw [refused_snoc, r1]; simp) (by rw [l1]; rfl)⟩
  | execute repl t =>
    have := life_known_execute K repl t
    split
    · rename_i c; rw [if_pos c] at this
      obtain ⟨s', C', e, K'⟩ := this; exact ⟨s', C', P, e, K'⟩
    · rename_i c; rw [if_neg c] at this; exact this
  | compile t =>
    rw [if_pos (by simp [uses])]
    obtain ⟨s1, r, e, I, et, ec, er, es, el⟩ := K.inv.compile false t
    refine ⟨s1, C, r.toList ++ P, by show Option.map _ _ = _; rw [e]; rfl, K.quiet (by simp) rfl I et ec ?_ (by rw [refused_snoc, er, K.refused]) ?_⟩
    · have : isCompiled h (.compile t) = r.isSome := by
        rw [es, K.refused]
        show (!LifeSpec.refused h && t.res == .accepted) = _
        cases LifeSpec.refused h <;> cases t.res <;> rfl
      rw [this]
      cases r <;> simp
    · rw [el]; rfl
  | call i =>
    have hc := K.inv.call i
    have e : textsRun (h ++ [.call i]) = textsRun h := by rw [textsRun_snoc]; rfl
    rw [e, ← K.texts]
    by_cases c : i < s.texts.length ∧ codeFreed h i = false
    · rw [if_pos (by simpa [uses] using c)]
      rw [if_pos c] at hc
      exact ⟨s, C, P, hc, K.quiet (by simp) rfl K.inv rfl rfl rfl (by rw [refused_snoc, K.refused]) rfl⟩
    · rw [if_neg (by simpa [uses] using c)]
      rw [if_neg c] at hc
      exact hc
  | captureOut =>
    rw [if_pos (by simp [uses])]
    exact ⟨_, C, P, rfl, K.quiet (by simp) rfl (K.inv.move rfl rfl rfl (.refl _) K.inv.holds) rfl rfl rfl (by rw [refused_snoc]; exact K.refused) rfl⟩
  | captureErr =>
    rw [if_pos (by simp [uses])]
    exact ⟨_, C, P, rfl, K.quiet (by simp) rfl (K.inv.move rfl rfl rfl (.refl _) K.inv.holds) rfl rfl rfl (by rw [refused_snoc]; exact K.refused) rfl⟩

theorem life_known_new : LifeKnown [] Life.new [] [] := by
  refine ⟨⟨⟨?_, by decide, by decide⟩, by simp [Life.new], by simp [Life.new], rfl, rfl⟩, rfl, rfl, rfl, rfl, rfl, rfl⟩
  show List.Perm [3, 2, 1, 0] [3, 0, 1, 2]
  decide

theorem life_known (h : List LifeOp) :
    (CallsKept h → ∃ s C P, Life.new.runs h = some s ∧ LifeKnown h s C P) ∧ (¬ CallsKept h → Life.new.runs h = none) := by
  induction h using List.reverseRecOn with
  | nil => exact ⟨fun _ => ⟨_, [], [], rfl, life_known_new⟩, fun n => absurd (fun k o e => by simp at e) n⟩
  | append_singleton h o ih =>
    rw [Life.runs_snoc, callsKept_snoc]
    by_cases c : CallsKept h
    · obtain ⟨s, C, P, e, K⟩ := ih.1 c
      have st := life_known_step K o
      rw [e]
      by_cases c2 : ∀ i ∈ uses h o, i < textsRun (h ++ [o]) ∧ codeFreed h i = false
      · rw [if_pos c2] at st; exact ⟨fun _ => st, fun n => absurd ⟨c, c2⟩ n⟩
      · rw [if_neg c2] at st; exact ⟨fun n => absurd n.2 c2, fun _ => st⟩
    · rw [ih.2 c]; exact ⟨fun n => absurd n.1 c, fun _ => rfl⟩

/-! ## `YASL_delstate` -/

theorem life_scopeDel {as : List Nat} : ∀ {m : LifeMem} {L : List Nat}, m.Holds (as ++ L) →
    if as.length ≤ 1 then ∃ m', m.scopeDel as = some m' ∧ m'.Holds L ∧ m.Later m' ∧ (∀ a ∈ as, a ∉ m'.live) else m.scopeDel as = none := by
  induction as with
  | nil => intro m L H; exact ⟨m, rfl, H, .refl _, by simp⟩
  | cons a as ih =>
    intro m L H
    have H1 : m.Holds (as ++ (a :: L)) := H.of_perm (by same_blocks)
    have h := ih H1
    cases as with
    | nil =>
      obtain ⟨m', e, H', n, l⟩ := LifeMem.Holds.free (L := L) H
      exact ⟨m', e, H', .of_iff n l, fun x hx hm => by rw [List.mem_singleton.1 hx] at hm; exact ((l a).1 hm).2 rfl⟩
    | cons b bs =>
      rw [if_neg (by simp)]
      show (m.scopeDel (b :: bs)).bind _ = none
      cases bs with
      | nil =>
        obtain ⟨m', e, H', l, g⟩ := h
        rw [e]
        show (m'.free b).bind _ = none
        unfold LifeMem.free; rw [if_neg (g b (by simp))]; rfl
      | cons c cs =>
        rw [if_neg (by simp)] at h
        rw [h]; rfl

theorem life_delete {h : List LifeOp} {s : Life} {C P : List Nat} (K : LifeKnown h s C P) :
    if syntaxErrors h ≤ 1 ∧ codeFreed h (textsRun h - 1) = false then ∃ m, s.delete = some m ∧ m.live.length = codeOverwritten h + (textsRun h - 1) + onlyCompiled h
    else s.delete = none := by
  have H0 : s.mem.Holds (s.scopes ++ (s.input :: (s.lexErr.string.toList ++ (s.consts.toList ++ (liveCode (codeFreed h) s.texts ++
      (s.modules ++ (s.out.string.toList ++ (s.err.string.toList ++ (s.own ++ (C ++ P)))))))))) := K.inv.holds.of_perm (by unfold Life.blocks; same_blocks)
  have D := life_scopeDel H0
  rw [K.scopes] at D
  unfold Life.delete
  by_cases c : syntaxErrors h ≤ 1
  · rw [if_pos c] at D
    obtain ⟨m1, e1, H1, L1, _⟩ := D
    obtain ⟨m2, e2, H2, n2, l2⟩ := H1.free
    obtain ⟨m3, e3, H3, n3, l3⟩ := H2.freeOpt
    obtain ⟨m4, e4, H4, n4, l4⟩ := H3.freeOpt
    have L4 : s.mem.Later m4 := ((L1.trans (.of_iff n2 l2)).trans (.of_iff n3 l3)).trans (.of_iff n4 l4)
    simp only [e1, e2, e3, e4, Option.bind_some]
    -- what is left once the code of the last text is freed
    have rest : ∀ {m5 : LifeMem} {L : List Nat}, m5.Holds (L ++ (s.modules ++ (s.out.string.toList ++ (s.err.string.toList ++ (s.own ++ (C ++ P)))))) →
        L.length = codeOverwritten h → ∃ m, ((m5.freeAll s.modules).bind fun m => (m.freeOpt s.out.string).bind fun m => (m.freeOpt s.err.string).bind fun m =>
          m.freeAll s.own) = some m ∧ m.live.length = codeOverwritten h + (textsRun h - 1) + onlyCompiled h := by
      intro m5 L H5 hL
      obtain ⟨m6, e6, H6⟩ := (H5.of_perm (L' := s.modules ++ (s.out.string.toList ++ (s.err.string.toList ++ (s.own ++ (L ++ (C ++ P)))))) (by same_blocks)).freeAll
      obtain ⟨m7, e7, H7, _, _⟩ := H6.freeOpt
      obtain ⟨m8, e8, H8, _, _⟩ := H7.freeOpt
      obtain ⟨m9, e9, H9⟩ := H8.freeAll
      refine ⟨m9, by simp only [e6, e7, e8, Option.bind_some]; exact e9, ?_⟩
      rw [H9.perm.length_eq, List.length_append, List.length_append, hL, K.lostConsts, K.lostCode]; omega
    rcases List.eq_nil_or_concat s.texts with en | ⟨T, a, et⟩
    · have h0 : textsRun h = 0 := by rw [← K.texts, en]; rfl
      rw [if_pos ⟨c, codeFreed_fresh h _ (by omega)⟩]
      have hh : s.header = none := by rw [K.inv.header, en]; rfl
      rw [hh]
      show ∃ m, Option.bind (m4.freeAll _) _ = _ ∧ _
      rw [en] at H4
      exact rest (L := []) H4 (by unfold codeOverwritten; rw [h0]; rfl)
    · rw [List.concat_eq_append] at et
      have hn : textsRun h - 1 = T.length := by rw [← K.texts, et]; simp
      have hh : s.header = some a := by rw [K.inv.header, et, List.getLast?_concat]
      have ha : s.texts[T.length]? = some a := by rw [et]; simp
      rw [hn, hh]
      show if _ then (∃ m, Option.bind (m4.free a) _ = _ ∧ _) else Option.bind (m4.free a) _ = _
      cases f : codeFreed h T.length with
      | true =>
        rw [if_neg (by simp)]
        have na : a ∉ m4.live := fun hm => K.inv.gone T.length a ha f (L4.2 a (K.inv.lt a (by rw [et]; simp)) hm)
        unfold LifeMem.free; rw [if_neg na]; rfl
      | false =>
        rw [if_pos ⟨c, rfl⟩]
        rw [et, liveCode_snoc, f] at H4
        obtain ⟨m5, e5, H5, _, _⟩ := LifeMem.Holds.free (H4.of_perm (L' := a :: (liveCode (codeFreed h) T ++
          (s.modules ++ (s.out.string.toList ++ (s.err.string.toList ++ (s.own ++ (C ++ P))))))) (by simp only [Bool.false_eq_true, if_false]; same_blocks))
        rw [e5]
        show ∃ m, Option.bind (m5.freeAll _) _ = _ ∧ _
        have := rest H5 (by rw [liveCode_length]; unfold codeOverwritten; rw [hn])
        rw [hn] at this
        exact this
  · rw [if_neg c] at D
    rw [if_neg fun n => c n.1, D]; rfl

/-! ## Captured output -/

theorem collected_snoc (p : List LifeOp → LifeOp → Bool) (f : LifeOp → List Nat) (h : List LifeOp) (o : LifeOp) :
    collected p f (h ++ [o]) = collected p f h ++ if p h o then f o else [] := by
  unfold collected
  rw [places_snoc, List.map_append, List.flatten_append]
  congr 1
  · congr 1
    apply List.map_congr_left
    intro k hk
    have hk : k < h.length := by unfold places at hk; exact List.mem_range.1 (List.mem_filter.1 hk).1
    rw [List.getElem?_append_left hk]
  · cases p h o <;> simp

theorem collected_nil (p : List LifeOp → LifeOp → Bool) (f : LifeOp → List Nat) : collected p f [] = [] := rfl

theorem sinceReset_snoc (h : List LifeOp) (o : LifeOp) :
    sinceReset (h ++ [o]) = if o != .resetBB && o != .resetFile true then sinceReset h ++ [o] else [] := by
  unfold sinceReset
  rw [List.reverse_append]
  show (List.takeWhile _ (o :: h.reverse)).reverse = _
  rw [List.takeWhile_cons]
  split <;> simp

theorem sinceReset_more {h : List LifeOp} {o : LifeOp} (c : (o != .resetBB && o != .resetFile true) = true) : sinceReset (h ++ [o]) = sinceReset h ++ [o] := by
  rw [sinceReset_snoc, if_pos c]

theorem life_print_text {io io' : LifeIO} {m m' : LifeMem} {t w : List Nat} (e : io.print m t = some (io', m', w)) :
    io'.captured = io.captured ∧ io'.text = io.text ++ (if io.captured then t else []) ∧ w = if io.captured then [] else t := by
  unfold LifeIO.print at e
  by_cases c : t = []
  · rw [if_pos c] at e; cases e; simp [c]
  · rw [if_neg c] at e
    by_cases c2 : io.captured = true
    · rw [if_pos c2] at e
      obtain ⟨m1, _, e⟩ := Option.bind_eq_some_iff.1 e
      cases e; simp [c2]
    · rw [if_neg c2] at e
      cases e; simp [c2]

/-- What is in the strings and where output goes. -/
structure LifeTexts (h : List LifeOp) (s : Life) : Prop where
  outTo : s.out.captured = h.contains .captureOut
  out : s.out.text = outputCaptured h
  errTo : s.err.captured = h.contains .captureErr
  err : s.err.text = runErrorsCaptured h
  lexTo : s.lexErr.captured = (sinceReset h).contains .captureErr
  lex : s.lexErr.text = reportsCaptured (sinceReset h)

theorem Life.compile_io {s s' : Life} {repl : Bool} {t : LifeText} {r : Option Nat} (e : s.compile repl t = some (s', r)) :
    s'.out = s.out ∧ s'.err = s.err ∧ s'.lexErr.captured = s.lexErr.captured ∧
    s'.lexErr.text = s.lexErr.text ++ if t.res != .accepted && s.lexErr.captured then t.report else [] := by
  unfold Life.compile at e
  simp only at e
  generalize e0 : (if repl then s else s.enterScope) = s0 at e
  have h0 : s0.out = s.out ∧ s0.err = s.err ∧ s0.lexErr = s.lexErr := by cases repl <;> cases e0 <;> exact ⟨rfl, rfl, rfl⟩
  obtain ⟨s1, e1, e⟩ := Option.bind_eq_some_iff.1 e
  obtain ⟨s2, e2, e⟩ := Option.bind_eq_some_iff.1 e
  have h1 : s1.out = s0.out ∧ s1.err = s0.err ∧ s1.lexErr.captured = s0.lexErr.captured ∧
      s1.lexErr.text = s0.lexErr.text ++ if t.res != .accepted && s0.lexErr.captured then t.report else [] := by
    by_cases c : t.res = .accepted
    · rw [if_pos c] at e1; cases e1; simp [c]
    · rw [if_neg c] at e1
      obtain ⟨⟨io, m, w⟩, ep, e1⟩ := Option.bind_eq_some_iff.1 e1
      cases e1
      obtain ⟨a, b, _⟩ := life_print_text ep
      refine ⟨rfl, rfl, a, ?_⟩
      show io.text = _
      rw [b]; simp [c]
  have h2 : s2.out = s1.out ∧ s2.err = s1.err ∧ s2.lexErr = s1.lexErr := by
    by_cases c : (repl || t.res = .syntaxError) = true
    · rw [if_pos c] at e2; cases e2; exact ⟨rfl, rfl, rfl⟩
    · rw [if_neg c] at e2
      unfold Life.exitScope at e2
      cases es : s1.scopes with
      | nil => rw [es] at e2; cases e2
      | cons a as =>
        rw [es] at e2
        obtain ⟨m, _, e2⟩ := Option.bind_eq_some_iff.1 e2
        cases e2; exact ⟨rfl, rfl, rfl⟩
  have h3 : s'.out = s2.out ∧ s'.err = s2.err ∧ s'.lexErr = s2.lexErr := by
    by_cases c : s2.refused = true
    · rw [if_pos c] at e; cases e; exact ⟨rfl, rfl, rfl⟩
    · rw [if_neg c] at e; cases e; exact ⟨rfl, rfl, rfl⟩
  refine ⟨by rw [h3.1, h2.1, h1.1, h0.1], by rw [h3.2.1, h2.2.1, h1.2.1, h0.2.1], by rw [h3.2.2, h2.2.2, h1.2.2.1, h0.2.2], ?_⟩
  rw [h3.2.2, h2.2.2, h1.2.2.2, h0.2.2]

theorem Life.calls_same {s s' : Life} (is : List Nat) (e : s.iter Life.call is = some s') : s' = s := by
  induction is generalizing s with
  | nil => cases e; rfl
  | cons i is ih =>
    obtain ⟨s1, e1, e2⟩ := Option.bind_eq_some_iff.1 e
    have : s1 = s := by
      unfold Life.call at e1
      cases ha : s.texts[i]? with
      | none => rw [ha] at e1; cases e1
      | some a => 
        rw [ha] at e1
        by_cases c : a ∈ s.mem.live
        · simp only [if_pos c] at e1; cases e1; rfl
        · simp only [if_neg c] at e1; cases e1
    rw [this] at e2; exact ih e2

theorem Life.requires_io {s s' : Life} (ks : List Nat) (e : s.iter (fun s (_ : Nat) => s.require) ks = some s') :
    s'.out = s.out ∧ s'.err = s.err ∧ s'.lexErr = s.lexErr := by
  induction ks generalizing s with
  | nil => cases e; exact ⟨rfl, rfl, rfl⟩
  | cons k ks ih =>
    obtain ⟨s1, e1, e⟩ := Option.bind_eq_some_iff.1 e
    obtain ⟨m, _, e1⟩ := Option.bind_eq_some_iff.1 e1
    have h := ih e
    cases e1
    exact h

theorem Life.run_io {s s' : Life} {t : LifeText} (e : s.run t = some s') : s'.lexErr = s.lexErr ∧
    s'.out.captured = s.out.captured ∧ s'.out.text = s.out.text ++ (if s.out.captured then t.out else []) ∧
    s'.err.captured = s.err.captured ∧ s'.err.text = s.err.text ++ (if s.err.captured then t.err else []) := by
  unfold Life.run at e
  simp only at e
  obtain ⟨s1, e1, e⟩ := Option.bind_eq_some_iff.1 e
  have := Life.calls_same _ e1
  subst this
  obtain ⟨s2, e2, e⟩ := Option.bind_eq_some_iff.1 e
  obtain ⟨h1, h2, h3⟩ := Life.requires_io _ e2
  obtain ⟨⟨io, m, w⟩, e3, e⟩ := Option.bind_eq_some_iff.1 e
  obtain ⟨⟨io2, m2, w2⟩, e4, e⟩ := Option.bind_eq_some_iff.1 e
  cases e
  obtain ⟨a, b, _⟩ := life_print_text e3
  obtain ⟨c, d, _⟩ := life_print_text e4
  refine ⟨h3, ?_, ?_, ?_, ?_⟩
  · show io.captured = _; rw [a, h1]
  · show io.text = _; rw [b, h1]
  · show io2.captured = _; rw [c]; show s2.err.captured = _; rw [h2]
  · show io2.text = _; rw [d]; show s2.err.text ++ (if s2.err.captured then _ else _) = _; rw [h2]

theorem life_texts {h : List LifeOp} {s : Life} {C P : List Nat} (K : LifeKnown h s C P) (T : LifeTexts h s) {o : LifeOp} {s' : Life} (e : s.step o = some s') :
    LifeTexts (h ++ [o]) s' := by
  have simple : ∀ s' : Life, s'.out = s.out → s'.err = s.err → s'.lexErr = s.lexErr → (∀ a, isRun a o = false) → isRefused o = false →
      (o == .captureOut) = false → (o == .captureErr) = false → (o != .resetBB && o != .resetFile true) = true → LifeTexts (h ++ [o]) s' := by
    intro s' a b c d f g i j
    refine ⟨?_, ?_, ?_, ?_, ?_, ?_⟩
    · rw [a, T.outTo]; simp only [List.contains_append, List.contains_cons, List.contains_nil]; rw [BEq.comm, g]; simp
    · rw [a, T.out]; unfold outputCaptured; rw [collected_snoc, d]; simp
    · rw [b, T.errTo]; simp only [List.contains_append, List.contains_cons, List.contains_nil]; rw [BEq.comm, i]; simp
    · rw [b, T.err]; unfold runErrorsCaptured; rw [collected_snoc, d]; simp
    · rw [c, T.lexTo, sinceReset_snoc, if_pos j]; simp only [List.contains_append, List.contains_cons, List.contains_nil]; rw [BEq.comm, i]; simp
    · rw [c, T.lex, sinceReset_snoc, if_pos j]; unfold reportsCaptured; rw [collected_snoc, f]; simp
  have reset : ∀ s' : Life, s'.out = s.out → s'.err = s.err → s'.lexErr = .new → (∀ a, isRun a o = false) → (o == .captureOut) = false →
      (o == .captureErr) = false → (o != .resetBB && o != .resetFile true) = false → LifeTexts (h ++ [o]) s' := by
    intro s' a b c d g i j
    refine ⟨?_, ?_, ?_, ?_, ?_, ?_⟩
    · rw [a, T.outTo]; simp only [List.contains_append, List.contains_cons, List.contains_nil]; rw [BEq.comm, g]; simp
    · rw [a, T.out]; unfold outputCaptured; rw [collected_snoc, d]; simp
    · rw [b, T.errTo]; simp only [List.contains_append, List.contains_cons, List.contains_nil]; rw [BEq.comm, i]; simp
    · rw [b, T.err]; unfold runErrorsCaptured; rw [collected_snoc, d]; simp
    · rw [c, sinceReset_snoc, j]; rfl
    · rw [c, sinceReset_snoc, j]; rfl
  cases o with
  | resetBB =>
    obtain ⟨s1, e1, e⟩ := Option.bind_eq_some_iff.1 e
    obtain ⟨m, _, e⟩ := Option.bind_eq_some_iff.1 e
    obtain ⟨m1, _, e1⟩ := Option.bind_eq_some_iff.1 e1
    obtain ⟨m2, _, e1⟩ := Option.bind_eq_some_iff.1 e1
    cases e; cases e1
    exact reset _ rfl rfl rfl (fun _ => rfl) rfl rfl rfl
  | resetFile found =>
    cases found with
    | false => cases e; exact simple _ rfl rfl rfl (fun _ => rfl) rfl rfl rfl rfl
    | true =>
      obtain ⟨m1, _, e⟩ := Option.bind_eq_some_iff.1 e
      obtain ⟨m2, _, e⟩ := Option.bind_eq_some_iff.1 e
      cases e
      exact reset _ rfl rfl rfl (fun _ => rfl) rfl rfl rfl
  | compile t =>
    obtain ⟨⟨s1, r⟩, e1, e⟩ := Option.map_eq_some_iff.1 e
    cases e
    obtain ⟨a, b, c, d⟩ := Life.compile_io e1
    refine ⟨?_, ?_, ?_, ?_, ?_, ?_⟩
    · rw [a, T.outTo]; simp
    · rw [a, T.out]; unfold outputCaptured; rw [collected_snoc]; simp [isRun]
    · rw [b, T.errTo]; simp
    · rw [b, T.err]; unfold runErrorsCaptured; rw [collected_snoc]; simp [isRun]
    · rw [c, T.lexTo, sinceReset_snoc]; simp
    · rw [d, T.lex, T.lexTo, sinceReset_more (by simp)]; unfold reportsCaptured; rw [collected_snoc]; rfl
  | execute repl t =>
    obtain ⟨⟨s1, r⟩, e1, e⟩ := Option.bind_eq_some_iff.1 e
    obtain ⟨a, b, c, d⟩ := Life.compile_io e1
    obtain ⟨s1', r', e1', _, _, _, _, es, _⟩ := K.inv.compile repl t
    rw [e1] at e1'; cases e1'
    have hrun : isRun h (.execute repl t) = r.isSome := by
      rw [es, K.refused]
      show (!LifeSpec.refused h && t.res == .accepted) = _
      cases LifeSpec.refused h <;> cases t.res <;> rfl
    have lexTo : s1.lexErr.captured = (sinceReset (h ++ [.execute repl t])).contains .captureErr := by rw [c, T.lexTo, sinceReset_snoc]; simp
    have lex : s1.lexErr.text = reportsCaptured (sinceReset (h ++ [.execute repl t])) := by
      rw [d, T.lex, T.lexTo, sinceReset_more (by simp)]; unfold reportsCaptured; rw [collected_snoc]; rfl
    cases r with
    | none =>
      cases e
      refine ⟨?_, ?_, ?_, ?_, lexTo, lex⟩
      · rw [a, T.outTo]; simp
      · rw [a, T.out]; unfold outputCaptured; rw [collected_snoc, hrun]; simp
      · rw [b, T.errTo]; simp
      · rw [b, T.err]; unfold runErrorsCaptured; rw [collected_snoc, hrun]; simp
    | some x =>
      obtain ⟨g, o1, o2, o3, o4⟩ := Life.run_io e
      refine ⟨?_, ?_, ?_, ?_, ?_, ?_⟩
      · rw [o1]; show s1.out.captured = _; rw [a, T.outTo]; simp
      · rw [o2]; show s1.out.text ++ (if s1.out.captured then _ else _) = _; rw [a, T.out, T.outTo]; unfold outputCaptured; rw [collected_snoc, hrun]; simp [outOf]
      · rw [o3]; show s1.err.captured = _; rw [b, T.errTo]; simp
      · rw [o4]; show s1.err.text ++ (if s1.err.captured then _ else _) = _; rw [b, T.err, T.errTo]; unfold runErrorsCaptured; rw [collected_snoc, hrun]; simp [errOf]
      · rw [g]; exact lexTo
      · rw [g]; exact lex
  | call i =>
    have := Life.calls_same [i] (s := s) (s' := s') (by show (s.call i).bind _ = _; rw [show s.call i = some s' from e]; rfl)
    subst this
    exact simple _ rfl rfl rfl (fun _ => rfl) rfl rfl rfl rfl
  | captureOut =>
    cases e
    refine ⟨?_, ?_, ?_, ?_, ?_, ?_⟩
    · simp
    · show s.out.text = _; rw [T.out]; unfold outputCaptured; rw [collected_snoc]; simp [isRun]
    · show s.err.captured = _; rw [T.errTo]; simp
    · show s.err.text = _; rw [T.err]; unfold runErrorsCaptured; rw [collected_snoc]; simp [isRun]
    · show s.lexErr.captured = _; rw [T.lexTo, sinceReset_snoc]; simp
    · show s.lexErr.text = _; rw [T.lex, sinceReset_more (by simp)]; unfold reportsCaptured; rw [collected_snoc]; simp [isRefused]
  | captureErr =>
    cases e
    refine ⟨?_, ?_, ?_, ?_, ?_, ?_⟩
    · show s.out.captured = _; rw [T.outTo]; simp
    · show s.out.text = _; rw [T.out]; unfold outputCaptured; rw [collected_snoc]; simp [isRun]
    · simp
    · show s.err.text = _; rw [T.err]; unfold runErrorsCaptured; rw [collected_snoc]; simp [isRun]
    · rw [sinceReset_snoc]; simp
    · show s.lexErr.text = _; rw [T.lex, sinceReset_more (by simp)]; unfold reportsCaptured; rw [collected_snoc]; simp [isRefused]

theorem life_all (h : List LifeOp) (s : Life) (e : Life.new.runs h = some s) : (∃ C P, LifeKnown h s C P) ∧ LifeTexts h s := by
  induction h using List.reverseRecOn generalizing s with
  | nil => cases e; exact ⟨⟨[], [], life_known_new⟩, ⟨rfl, rfl, rfl, rfl, rfl, rfl⟩⟩
  | append_singleton h o ih =>
    have e0 := e
    rw [Life.runs_snoc] at e
    obtain ⟨s0, e1, e2⟩ := Option.bind_eq_some_iff.1 e
    obtain ⟨⟨C, P, K⟩, T⟩ := ih s0 e1
    refine ⟨?_, life_texts K T e2⟩
    have k : CallsKept (h ++ [o]) := by
      by_contra n
      rw [(life_known _).2 n] at e0; cases e0
    obtain ⟨s', C, P, e', K⟩ := (life_known _).1 k
    rw [e0] at e'; cases e'
    exact ⟨C, P, K⟩

end Yasl
