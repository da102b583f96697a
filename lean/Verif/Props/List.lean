import Verif.Proofs.List
import Mathlib.Data.List.Forall2
/-!
# C36–C39, C42, C43: lists
-/
namespace Yasl
open Spec

/-! ## C36: indexing -/

/-- C36 (read): for `-n ≤ i < n` the element at position `i` (counted from the end if negative), else ValueError; never
an out-of-bounds or uninitialised read. -/
theorem C36_get (ls : YList) (xs : List Val) (h : ls.Holds xs) (i : BitVec 64) :
    listGet ls i = match pos xs.length i.toInt with
      | some k => (match xs[k]? with | some v => Out.ok v | none => Out.ub)
      | none => Out.valueError := by
  have hc := h.count
  unfold listGet pos
  by_cases h1 : 0 ≤ i.toInt ∧ i.toInt < xs.length
  · have hl : i.toInt.toNat < xs.length := by omega
    rw [if_neg (by omega), if_pos (by omega), if_pos h1, Holds.ld h hl]
    simp only [List.getElem?_eq_getElem hl]
  · rw [if_neg h1]
    by_cases h2 : -(xs.length : Int) ≤ i.toInt ∧ i.toInt < 0
    · have hl : (i.toInt + xs.length).toNat < xs.length := by omega
      rw [if_neg (by omega), if_neg (by omega), if_pos h2, hc, Holds.ld h hl]
      simp only [List.getElem?_eq_getElem hl]
    · rw [if_neg h2, if_pos (by omega)]

/-- A position denoted by an index is inside the list: in `C36_get` the `ub` branch is never taken. -/
theorem C36_pos_lt (n : Nat) (i : Int) (k : Nat) (h : pos n i = some k) : k < n ∧ (k : Int) = i % n := by
  unfold pos at h
  split at h
  · rename_i h1
    have hk := (Option.some.inj h).symm
    refine ⟨by omega, ?_⟩
    rw [Int.emod_eq_of_lt h1.1 h1.2]; omega
  · split at h
    · rename_i h1
      have hk := (Option.some.inj h).symm
      refine ⟨by omega, ?_⟩
      have h2 : (i + n) % n = i % n := by simp
      rw [← h2, Int.emod_eq_of_lt (by omega) (by omega)]; omega
    · exact absurd h (by simp)

/-- C36 (write): `ls[i] = v` changes exactly the element at position `i`, else ValueError (state unchanged). -/
theorem C36_set (ls : YList) (xs : List Val) (h : ls.Holds xs) (i : BitVec 64) (v : Val) :
    match pos xs.length i.toInt with
    | some k => ∃ ls', listSet ls i v = .ok ls' ∧ ls'.Holds (xs.set k v)
    | none => listSet ls i v = .valueError := by
  have hc := h.count
  unfold listSet pos
  by_cases h1 : 0 ≤ i.toInt ∧ i.toInt < xs.length
  · obtain ⟨m, e, hm⟩ := Holds.st h (i := i.toInt.toNat) (by omega) v
    rw [if_pos h1]
    dsimp only
    rw [if_neg (by omega), if_neg (by omega), Holds.ld h (by omega), Out.bind_ok, e]
    exact ⟨_, rfl, hm⟩
  · rw [if_neg h1]
    by_cases h2 : -(xs.length : Int) ≤ i.toInt ∧ i.toInt < 0
    · obtain ⟨m, e, hm⟩ := Holds.st h (i := (i.toInt + xs.length).toNat) (by omega) v
      rw [if_pos h2]
      dsimp only
      rw [if_neg (by omega), if_pos (by omega), hc, Holds.ld h (by omega), Out.bind_ok, e]
      exact ⟨_, rfl, by simpa [hc] using hm⟩
    · rw [if_neg h2]
      dsimp only
      rw [if_pos (by omega)]

/-- Case: `[1,2,3][-1]` is `3`, `[1,2,3][3]` raises. -/
example : ∃ ls, YList.new.appendAll [.int 1, .int 2, .int 3] = .ok ls ∧ listGet ls (-1) = .ok (.int 3) ∧
    listGet ls 3 = .valueError := ⟨_, rfl, by decide, by decide⟩

/-! ## C37: any history of mutations -/

/-- Running one operation of the implementation. -/
def runOp (ls : YList) : LOp → Out YList
  | .push v => listPush ls v
  | .pop => (listPop ls).bind fun r => .ok r.1
  | .insert i v => listInsert ls i v
  | .set i v => listSet ls i v
  | .reverse => ls.reverse
  | .clear => listClear ls

/-- C37 (single operation, any capacity): the implementation does what the specification says, raising ValueError exactly when
it says so; it never reads or writes outside the allocation (no `ub`). -/
theorem C37_op_correct (ls : YList) (xs : List Val) (h : ls.Holds xs) (o : LOp) :
    match o.step xs with
    | some ys => ∃ ls', runOp ls o = .ok ls' ∧ ls'.Holds ys
    | none => runOp ls o = .valueError := by
  have hc := h.count; have hf := h.fits; have ha := h.alloc
  cases o with
  | push v => exact Holds.append h v
  | pop =>
    by_cases hx : xs = []
    · simp [LOp.step, hx, runOp, listPop, hc, Out.bind]
    · have hpos : 0 < xs.length := List.length_pos_iff.mpr hx
      simp only [LOp.step, if_neg hx, runOp, listPop]
      rw [if_neg (by omega), Holds.ld h (by omega)]
      refine ⟨_, rfl, ha, ?_, ?_, ?_⟩
      · simp [hc]
      · dsimp only; omega
      · dsimp only
        have := congrArg List.dropLast h.data
        rw [List.dropLast_eq_take, List.take_take, List.length_take, Nat.min_eq_left (by omega), ← List.map_dropLast,
          Nat.min_eq_left (by omega)] at this
        exact this
  | insert i v =>
    simp only [LOp.step, runOp, listInsert]
    rw [hc]
    by_cases h0 : i.toInt = xs.length
    · rw [if_pos h0, if_pos h0]; exact Holds.append h v
    · rw [if_neg h0, if_neg h0]
      unfold pos
      by_cases h1 : 0 ≤ i.toInt ∧ i.toInt < xs.length
      · rw [if_pos h1]
        dsimp only [Option.map]
        rw [if_neg (by omega), if_neg (by omega)]
        exact Holds.insertAt h (by omega) v
      · rw [if_neg h1]
        by_cases h2 : -(xs.length : Int) ≤ i.toInt ∧ i.toInt < 0
        · rw [if_pos h2]
          dsimp only [Option.map]
          rw [if_neg (by omega), if_pos (by omega)]
          exact Holds.insertAt h (by omega) v
        · rw [if_neg h2]
          dsimp only [Option.map]
          rw [if_pos (by omega)]
  | set i v =>
    have := C36_set ls xs h i v
    simp only [LOp.step, runOp]
    cases hp : pos xs.length i.toInt <;> rw [hp] at this <;> exact this
  | reverse => exact Holds.reverse h
  | clear =>
    refine ⟨{ count := 0, size := LIST_BASESIZE, items := ls.items.realloc LIST_BASESIZE }, ?_, ?_, ?_, ?_, ?_⟩
    · show (listClear ls) = _
      rw [listClear, Holds.forItems h, Out.bind_ok]
    · simp only [Block.realloc, List.length_append, List.length_take, List.length_replicate]; omega
    · rfl
    · simp
    · simp

/-- Running a history; a ValueError leaves the list as it was. -/
def runOps (ls : YList) : List LOp → Out YList
  | [] => .ok ls
  | o :: os => match runOp ls o with
    | .ok ls' => runOps ls' os
    | .valueError => runOps ls os
    | .typeError => .typeError
    | .ub => .ub

/-- C37: after any history of push/pop/insert/set/reverse/clear on a list created with any capacity, the list
holds exactly what the specification says. -/
theorem C37_history (n : Nat) (ops : List LOp) :
    ∃ ls, runOps (YList.newSized n) ops = .ok ls ∧ ls.Holds (LOp.runAll [] ops) := by
  suffices H : ∀ (ls : YList) (xs : List Val), ls.Holds xs →
      ∃ ls', runOps ls ops = .ok ls' ∧ ls'.Holds (LOp.runAll xs ops) from H _ _ (Holds.newSized n)
  induction ops with
  | nil => exact fun ls xs h => ⟨ls, rfl, h⟩
  | cons o os ih =>
    intro ls xs h
    have h1 := C37_op_correct ls xs h o
    unfold LOp.runAll
    rw [List.foldl_cons]
    cases hs : o.step xs with
    | none =>
      rw [hs] at h1
      simp only [runOps, h1, Option.getD_none]
      exact ih ls xs h
    | some ys =>
      rw [hs] at h1
      obtain ⟨l1, e, hh⟩ := h1
      simp only [runOps, e, Option.getD_some]
      exact ih l1 ys hh

/-- C37: pop returns the last element (and removes it). -/
theorem C37_pop_value (ls : YList) (xs : List Val) (v : Val) (h : ls.Holds (xs ++ [v])) :
    ∃ ls', listPop ls = .ok (ls', v) ∧ ls'.Holds xs := by
  have h1 := C37_op_correct ls _ h .pop
  have hc := h.count
  simp only [LOp.step, List.append_eq_nil_iff, List.cons_ne_nil, and_false, if_false, List.dropLast_concat, runOp] at h1
  obtain ⟨ls', e, hh⟩ := h1
  have hld : ls.items.ld (ls.count - 1) = .ok v := by
    rw [Holds.ld h (by simp at hc ⊢; omega)]
    simp [hc]
  unfold listPop at e ⊢
  rw [if_neg (by simp at hc; omega), hld] at e ⊢
  simp only [Out.bind_ok] at e ⊢
  cases e
  exact ⟨_, rfl, hh⟩

/-- Case: growth from capacity 0, insertion in the middle, failing operations. -/
example : LOp.runAll [] [.push (.int 1), .push (.int 2), .insert (-1) (.int 3), .insert 9 .undef, .pop, .pop, .pop, .pop,
    .push .undef] = [.undef] := by decide
example : ∃ ls, runOps (YList.newSized 0) [.push (.int 1), .push (.int 2), .insert (-1) (.int 3), .insert 9 .undef] = .ok ls ∧
    ls.items = [some (.int 1), some (.int 3), some (.int 2), none] := ⟨_, rfl, by decide⟩

/-! ## C38: reverse, copy, concatenation -/

/-- C38: reverse. -/
theorem C38_reverse (ls : YList) (xs : List Val) (h : ls.Holds xs) :
    ∃ ls', ls.reverse = .ok ls' ∧ ls'.Holds xs.reverse := Holds.reverse h

/-- C38: reversing twice is the identity on the contents. -/
theorem C38_reverse_reverse (ls : YList) (xs : List Val) (h : ls.Holds xs) :
    ∃ l1 l2, ls.reverse = .ok l1 ∧ l1.reverse = .ok l2 ∧ l2.Holds xs := by
  obtain ⟨l1, e1, h1⟩ := Holds.reverse h
  obtain ⟨l2, e2, h2⟩ := Holds.reverse h1
  exact ⟨l1, l2, e1, e2, by simpa using h2⟩

/-- C38: copy has the same elements (in a fresh allocation: `listCopy` returns a new list and does not change its argument). -/
theorem C38_copy (ls : YList) (xs : List Val) (h : ls.Holds xs) :
    ∃ ls', listCopy ls = .ok ls' ∧ ls'.Holds xs := by
  rw [listCopy, Holds.forItems h, Out.bind_ok]
  simpa using Holds.appendAll (Holds.newSized ls.size) xs

/-- C38: `a + b`. -/
theorem C38_concat (a b : YList) (xs ys : List Val) (ha : a.Holds xs) (hb : b.Holds ys) :
    ∃ ls, listConcat a b = .ok ls ∧ ls.Holds (xs ++ ys) := by
  rw [listConcat, Holds.forItems ha, Out.bind_ok, Holds.forItems hb, Out.bind_ok]
  obtain ⟨l1, e1, h1⟩ := Holds.appendAll (Holds.newSized (a.count + b.count)) xs
  obtain ⟨l2, e2, h2⟩ := Holds.appendAll h1 ys
  rw [e1, Out.bind_ok, e2]
  exact ⟨l2, rfl, by simpa using h2⟩

/-- C38: spreading (`...ls`) pushes the elements in order. -/
theorem C38_spread (ls : YList) (xs : List Val) (h : ls.Holds xs) : listSpread ls = .ok xs := Holds.forItems h

/-- C38: `==` on lists holds exactly when the lengths agree and the elements are pairwise equal, for elements on which
`==` gives a boolean (`eq`). -/
theorem C38_eq (eq : Val → Val → Bool) (a b : YList) (xs ys : List Val) (ha : a.Holds xs) (hb : b.Holds ys) :
    listEq (fun x y => .ok (eq x y)) a b = .ok (decide (List.Forall₂ (fun x y => eq x y = true) xs ys)) := by
  unfold listEq
  rw [ha.count, hb.count]
  by_cases hl : xs.length = ys.length
  · rw [if_neg (by simpa using hl), Holds.forItems ha, Out.bind_ok, Holds.forItems hb, Out.bind_ok]
    clear ha hb
    induction xs generalizing ys with
    | nil =>
      cases ys with
      | nil => simp [eqLoop]
      | cons y ys => simp at hl
    | cons x xs ih =>
      cases ys with
      | nil => simp at hl
      | cons y ys =>
        have := ih ys (by simpa using hl)
        simp only [eqLoop, Out.bind_ok]
        cases hxy : eq x y
        · simp [hxy]
        · simp only [if_true, this, List.forall₂_cons, hxy, true_and]
  · rw [if_pos hl]
    have : ¬ List.Forall₂ (fun x y => eq x y = true) xs ys := fun h => hl (List.Forall₂.length_eq h)
    simp [this]

/-- Case: the empty concatenation allocates nothing and is still usable. -/
example : ∃ l l', listConcat (YList.newSized 0) YList.new = .ok l ∧ listPush l (.int 5) = .ok l' ∧
    l'.items = [some (.int 5)] := ⟨_, _, rfl, rfl, rfl⟩

/-! ## C39: slices -/

/-- A slice bound as written in the program: omitted or an int. -/
def boundVal : Option (BitVec 64) → Val
  | none => .undef
  | some i => .int i

theorem slice_eq {α : Type} (xs : List α) (a b : Option Int) :
    slice xs a b = (xs.drop (sliceLo xs.length a).toNat).take (sliceHi xs.length b - sliceLo xs.length a).toNat := by
  unfold slice
  have hlo : 0 ≤ sliceLo xs.length a := by cases a <;> simp [sliceLo]
  have hhi : sliceHi xs.length b ≤ xs.length := by cases b <;> simp [sliceHi]
  generalize sliceLo xs.length a = lo at *
  generalize sliceHi xs.length b = hi at *
  suffices H : ∀ (xs : List α) (n : Nat), ((xs.zipIdx n).filter fun p => decide (lo ≤ (p.2 : Int) ∧ (p.2 : Int) < hi)).map (·.1)
      = (xs.drop (lo - n).toNat).take (hi - max lo n).toNat by
    have := H xs 0
    simp only [Int.sub_zero, Nat.cast_zero] at this
    rw [this, max_eq_left hlo]
  clear hhi
  intro xs
  induction xs with
  | nil => intro n; simp
  | cons x xs ih =>
    intro n
    rw [List.zipIdx_cons, List.filter_cons]
    by_cases h1 : lo ≤ n
    · by_cases h2 : (n : Int) < hi
      · rw [if_pos (by simp [h1, h2]), List.map_cons, ih (n + 1)]
        rw [show (lo - (n : Int)).toNat = 0 by omega, show (lo - ((n + 1 : Nat) : Int)).toNat = 0 by omega,
          show (hi - max lo (n : Int)).toNat = (hi - max lo ((n + 1 : Nat) : Int)).toNat + 1 by omega]
        rfl
      · rw [if_neg (by simp [h2]), ih (n + 1)]
        rw [show (hi - max lo (n : Int)).toNat = 0 by omega, show (hi - max lo ((n + 1 : Nat) : Int)).toNat = 0 by omega]
        simp
    · rw [if_neg (by simp [h1]), ih (n + 1)]
      rw [show (lo - (n : Int)).toNat = (lo - ((n + 1 : Nat) : Int)).toNat + 1 by omega, List.drop_succ_cons,
        show max lo (n : Int) = max lo ((n + 1 : Nat) : Int) by omega]

/-- C39: for all int bounds (or omitted ones) slicing succeeds without touching memory outside the list and yields exactly
the elements whose index lies in `[lo, hi)`. -/
theorem C39_slice (ls : YList) (xs : List Val) (h : ls.Holds xs) (a b : Option (BitVec 64)) :
    ∃ ls', listSlice ls (boundVal a) (boundVal b) = .ok ls' ∧
      ls'.Holds (slice xs (a.map BitVec.toInt) (b.map BitVec.toInt)) := by
  have hc := h.count
  have he : sliceEnd ls.count (boundVal b) = .ok (sliceHi xs.length (b.map BitVec.toInt)) := by
    cases b with
    | none => simp [boundVal, sliceEnd, sliceHi, hc]
    | some b =>
      simp only [boundVal, sliceEnd, sliceHi, hc, Option.map_some]
      congr 1
      split <;> (try split) <;> omega
  have hs : sliceStart ls.count (boundVal a) = .ok (sliceLo xs.length (a.map BitVec.toInt)) := by
    cases a with
    | none => simp [boundVal, sliceStart, sliceLo]
    | some a =>
      simp only [boundVal, sliceStart, sliceLo, hc, Option.map_some]
      congr 1
      split <;> (try split) <;> omega
  rw [slice_eq, listSlice, he, Out.bind_ok, hs, Out.bind_ok]
  have hlo : 0 ≤ sliceLo xs.length (a.map BitVec.toInt) := by cases a <;> simp [sliceLo]
  have hhi : sliceHi xs.length (b.map BitVec.toInt) ≤ xs.length := by cases b <;> simp [sliceHi]
  generalize sliceLo xs.length (a.map BitVec.toInt) = lo at *
  generalize sliceHi xs.length (b.map BitVec.toInt) = hi at *
  by_cases hle : lo ≤ hi
  · rw [Holds.readItems h _ _ (by omega), Out.bind_ok]
    simpa [YList.new] using Holds.appendAll (Holds.newSized LIST_BASESIZE) (List.take (hi - lo).toNat (List.drop lo.toNat xs))
  · rw [show (hi - lo).toNat = 0 by omega]
    simp only [readItems, Out.bind_ok, YList.appendAll, List.take_zero]
    exact ⟨_, rfl, Holds.newSized _⟩

/-- C39: any other bound is a TypeError (no memory is touched). -/
theorem C39_bad_bound (ls : YList) (a b : Val) (h : (∀ i, b ≠ .int i) ∧ b ≠ .undef) : listSlice ls a b = .typeError := by
  cases b <;> simp_all [listSlice, sliceEnd, Out.bind]

/-- Case: `[1,2,3,4][-3:-1] == [2,3]`, bounds beyond both ends. -/
example : slice [1, 2, 3, 4] (some (-3)) (some (-1)) = [2, 3] ∧ slice [1, 2, 3, 4] (some 3) (some 1) = [] ∧
    slice [1, 2, 3, 4] (some (-9)) (some 99) = [1, 2, 3, 4] ∧ slice [1, 2, 3, 4] (some 2) none = [3, 4] := by decide

/-! ## C42: search and count -/

theorem lsSearchLoop_spec (needle : Val) (vs : List Val) (i : Nat) (ix : Val) :
    (lsSearchLoop needle vs i ix = ix ∧ ∀ v ∈ vs, isEqual v needle = false) ∨
    (∃ k v, vs[k]? = some v ∧ isEqual v needle = true ∧ lsSearchLoop needle vs i ix = .int (BitVec.ofNat 64 (i + k)) ∧
      ∀ j w, k < j → vs[j]? = some w → isEqual w needle = false) := by
  induction vs generalizing i ix with
  | nil => left; simp [lsSearchLoop]
  | cons x xs ih =>
    simp only [lsSearchLoop]
    rcases ih (i + 1) (if isEqual x needle = true then .int (BitVec.ofNat 64 i) else ix) with ⟨e, hn⟩ | ⟨k, v, hk, hv, e, hl⟩
    · by_cases hx : isEqual x needle = true
      · right
        refine ⟨0, x, rfl, hx, by rw [e, if_pos hx]; rfl, ?_⟩
        intro j w hj hw
        obtain ⟨j, rfl⟩ : ∃ m, j = m + 1 := ⟨j - 1, by omega⟩
        exact hn w (List.mem_of_getElem? hw)
      · left
        refine ⟨by rw [e, if_neg hx], ?_⟩
        intro v hv
        rcases List.mem_cons.mp hv with rfl | hv
        · simpa using hx
        · exact hn v hv
    · right
      refine ⟨k + 1, v, hk, hv, by rw [e, show i + 1 + k = i + (k + 1) by omega], ?_⟩
      intro j w hj hw
      obtain ⟨j, rfl⟩ : ∃ m, j = m + 1 := ⟨j - 1, by omega⟩
      exact hl j w (by omega) hw

/-- C42: search returns the index of an equal element (the *last* one), or undef when there is none. -/
theorem C42_search (ls : YList) (xs : List Val) (h : ls.Holds xs) (needle : Val) :
    (listSearch ls needle = .ok .undef ∧ ∀ v ∈ xs, isEqual v needle = false) ∨
    (∃ k v, xs[k]? = some v ∧ isEqual v needle = true ∧ listSearch ls needle = .ok (.int (BitVec.ofNat 64 k)) ∧
      ∀ j w, k < j → xs[j]? = some w → isEqual w needle = false) := by
  rw [listSearch, Holds.forItems h, Out.bind_ok]
  rcases lsSearchLoop_spec needle xs 0 .undef with ⟨e, hn⟩ | ⟨k, v, hk, hv, e, hl⟩
  · exact .inl ⟨by rw [e], hn⟩
  · exact .inr ⟨k, v, hk, hv, by rw [e, Nat.zero_add], hl⟩

/-- C42: count returns the number of equal elements (modulo 2^64, never reached by a list in memory). -/
theorem C42_count (ls : YList) (xs : List Val) (h : ls.Holds xs) (v : Val) :
    listCount ls v = .ok (.int (BitVec.ofNat 64 (xs.countP fun x => isEqual x v))) := by
  rw [listCount, Holds.forItems h, Out.bind_ok]
  congr 2
  suffices H : ∀ (xs : List Val) (n : Nat), xs.foldl (fun c x => c + (if isEqual x v then 1#64 else 0#64)) (BitVec.ofNat 64 n)
      = BitVec.ofNat 64 (n + xs.countP fun x => isEqual x v) by simpa using H xs 0
  intro xs
  induction xs with
  | nil => intro n; simp
  | cons x xs ih =>
    intro n
    rw [List.foldl_cons, List.countP_cons]
    by_cases hx : isEqual x v = true
    · simp only [hx, if_true]
      rw [show BitVec.ofNat 64 n + 1#64 = BitVec.ofNat 64 (n + 1) by rw [BitVec.ofNat_add], ih (n + 1)]
      congr 1; omega
    · simp only [Bool.not_eq_true] at hx
      simp only [hx, Bool.false_eq_true, if_false]
      rw [show BitVec.ofNat 64 n + 0#64 = BitVec.ofNat 64 n by simp, ih n]
      congr 1

/-- Case: in `[1, 2, 1.0, 3]`, searching 1 gives index 2 and counting gives 2 (1 == 1.0). -/
example : ∃ ls, YList.new.appendAll [.int 1, .int 2, .float 0x3FF0000000000000, .int 3] = .ok ls ∧
    listSearch ls (.int 1) = .ok (.int 2) ∧ listCount ls (.int 1) = .ok (.int 2) ∧ listSearch ls (.int 9) = .ok .undef :=
  ⟨_, rfl, by decide +kernel, by decide +kernel, by decide +kernel⟩

/-! ## C43: join -/

/-- The buffer holds `bs` and has room for it. -/
structure JoinBuf.Has (b : JoinBuf) (bs : List Byte) : Prop where
  count : b.count = bs.length
  alloc : b.mem.length = b.size
  pos : 0 < b.size
  fits : b.count ≤ b.size
  data : b.mem.take b.count = bs.map some

theorem joinGrow_spec (len : Nat) (f : Nat) (b : JoinBuf) (bs : List Byte) (h : b.Has bs)
    (hf : 0 < f ∧ b.count + len + 1 < f + b.size) : ∃ b', joinGrow len f b = some b' ∧ b'.Has bs ∧ b'.count + len < b'.size := by
  induction f generalizing b with
  | zero => omega
  | succ f ih =>
    rw [joinGrow]
    have h1 := h.alloc; have h2 := h.pos; have h3 := h.fits; have h4 := h.count
    by_cases hc : b.count + len ≥ b.size
    · rw [if_pos hc]
      refine ih _ ⟨h4, ?_, ?_, ?_, ?_⟩ ?_
      · simp only [Block.realloc, List.length_append, List.length_take, List.length_replicate]; omega
      · dsimp only; omega
      · dsimp only; omega
      · dsimp only
        rw [Block.realloc, List.take_append_of_le_length (by rw [List.length_take]; omega), List.take_take,
          Nat.min_eq_left (by omega)]
        exact h.data
      · dsimp only; omega
    · rw [if_neg hc]
      exact ⟨b, rfl, h, by omega⟩

theorem joinAdd_spec (f : Nat) (s : List Byte) (b : JoinBuf) (bs : List Byte) (h : b.Has bs) (hf : b.count + s.length < f) :
    ∃ b', joinAdd f s b = some (.ok b') ∧ b'.Has (bs ++ s) := by
  obtain ⟨b1, e, h1, hr⟩ := joinGrow_spec s.length f b bs h (by have := h.pos; omega)
  have ha := h1.alloc; have hc := h1.count
  refine ⟨{ b1 with
      mem := b1.mem.take b1.count ++ s.map some ++ b1.mem.drop (b1.count + s.length)
      count := b1.count + s.length }, ?_, ?_, ?_, ?_, ?_, ?_⟩
  · rw [joinAdd, e, Option.map_some, Block.memcpy, if_pos (by omega), Out.bind_ok]
  · simp [hc]
  · simp only [List.length_append, List.length_take, List.length_map, List.length_drop]; omega
  · exact h1.pos
  · dsimp only; omega
  · dsimp only
    rw [List.take_append_of_le_length (by simp; omega), List.take_of_length_le (by simp), h1.data, List.map_append]

theorem joinLoop_spec (f : Nat) (str : Val → List Byte) (sep : List Byte) (vs : List Val) (b : JoinBuf) (bs : List Byte)
    (h : b.Has bs) (hf : (bs ++ (vs.map fun v => sep ++ str v).flatten).length < f) :
    ∃ b', joinLoop f str sep vs b = some (.ok b') ∧ b'.Has (bs ++ (vs.map fun v => sep ++ str v).flatten) := by
  induction vs generalizing b bs with
  | nil => exact ⟨b, rfl, by simpa using h⟩
  | cons v vs ih =>
    have hc := h.count
    simp only [List.map_cons, List.flatten_cons, List.length_append] at hf
    obtain ⟨b1, e1, h1⟩ := joinAdd_spec f sep b bs h (by omega)
    have hc1 := h1.count
    rw [List.length_append] at hc1
    obtain ⟨b2, e2, h2⟩ := joinAdd_spec f (str v) b1 _ h1 (by omega)
    obtain ⟨b3, e3, h3⟩ := ih b2 _ h2 (by simp only [List.length_append]; omega)
    refine ⟨b3, ?_, ?_⟩
    · simp only [joinLoop, e1, e2, e3]
    · simpa using h3

theorem listJoin_eq (str : Val → List Byte) (vs : List Val) (sep : List Byte) (f : Nat) (hf : (List.intercalate sep (vs.map str)).length < f) :
    listJoin f str vs sep = some (.ok ((List.intercalate sep (vs.map str)).map some)) := by
  cases vs with
  | nil => simp [listJoin, List.intercalate]
  | cons v vs =>
    have key : str v ++ (vs.map fun v => sep ++ str v).flatten = List.intercalate sep ((v :: vs).map str) := by
      induction vs generalizing v with
      | nil => simp [List.intercalate]
      | cons w vs ih =>
        rw [List.map_cons, List.flatten_cons, List.append_assoc, ih w]
        · simp [List.intercalate]
        · refine Nat.lt_of_le_of_lt ?_ hf
          simp [List.intercalate]; omega
    rw [← key] at hf
    have h0 : (JoinBuf.mk 0 8 (Block.malloc 8)).Has [] := by constructor <;> simp [Block.malloc]
    obtain ⟨b1, e1, h1⟩ := joinAdd_spec f (str v) _ [] h0 (by simp only [List.length_append] at hf; simp; omega)
    obtain ⟨b2, e2, h2⟩ := joinLoop_spec f str sep vs b1 _ h1 (by rw [List.nil_append]; omega)
    simp only [listJoin, e1, e2]
    rw [h2.data, List.nil_append, key]

/-- C43: join terminates, never overruns its buffer, and yields the string forms with the separator between them, for any
number and sizes of elements. -/
theorem C43_join (str : Val → List Byte) (vs : List Val) (sep : List Byte) :
    ∃ F, ∀ f ≥ F, listJoin f str vs sep = some (.ok ((List.intercalate sep (vs.map str)).map some)) :=
  ⟨_, fun f hf => listJoin_eq str vs sep f (Nat.lt_of_succ_le hf)⟩

/-- Case: `["ab", "", "c"].join("--")`. -/
example : List.intercalate [45#8, 45#8] [[97#8, 98#8], [], [99#8]] = [97#8, 98#8, 45#8, 45#8, 45#8, 45#8, 99#8] := by decide

end Yasl
