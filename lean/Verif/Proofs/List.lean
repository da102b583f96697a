import Verif.Model.List
import Verif.Spec.List
import Mathlib.Tactic.Linarith
/-! Refinement of the list implementation to mathematical lists. -/
namespace Yasl
open Spec

/-- The allocation has `size` cells and the first `count` hold exactly the values `xs`. -/
structure YList.Holds (ls : YList) (xs : List Val) : Prop where
  alloc : ls.items.length = ls.size
  count : ls.count = xs.length
  fits : ls.count ≤ ls.size
  data : ls.items.take ls.count = xs.map some

theorem Holds.get? {ls : YList} {xs : List Val} (h : ls.Holds xs) {i : Nat} (hi : i < xs.length) :
    ls.items[i]? = some (some xs[i]) := by
  have h2 : (ls.items.take ls.count)[i]? = (xs.map some)[i]? := by rw [h.data]
  rw [List.getElem?_take, if_pos (by rw [h.count]; exact hi)] at h2
  rw [h2]; simp [hi]

theorem Holds.ld {ls : YList} {xs : List Val} (h : ls.Holds xs) {i : Nat} (hi : i < xs.length) :
    ls.items.ld i = .ok xs[i] := by
  simp [Block.ld, Holds.get? h hi]

theorem Holds.st {ls : YList} {xs : List Val} (h : ls.Holds xs) {i : Nat} (hi : i < xs.length) (v : Val) :
    ∃ m, ls.items.st i v = .ok m ∧ YList.Holds { ls with items := m } (xs.set i v) := by
  have hc := h.count; have hf := h.fits; have ha := h.alloc
  refine ⟨ls.items.set i (some v), ?_, ?_, ?_, ?_, ?_⟩
  · rw [Block.st, if_pos (by omega)]
  · simpa using ha
  · simpa using hc
  · exact hf
  · simp only [List.take_set, h.data, List.map_set]

theorem Holds.newSized (n : Nat) : (YList.newSized n).Holds [] := by
  constructor <;> simp [YList.newSized, Block.malloc]

theorem Holds.resizeUp {ls : YList} {xs : List Val} (h : ls.Holds xs) :
    ls.resizeUp.Holds xs ∧ ls.size < ls.resizeUp.size ∧ ls.resizeUp.count = ls.count := by
  have hc := h.count; have hf := h.fits; have ha := h.alloc
  have hs : ls.size < (if ls.size ≠ 0 then ls.size * 2 else 1) := by split <;> omega
  refine ⟨⟨?_, ?_, ?_, ?_⟩, hs, rfl⟩
  · simp only [YList.resizeUp, YList.resize, Block.realloc]
    rw [List.length_append, List.length_take, List.length_replicate]; omega
  · exact hc
  · simp only [YList.resizeUp, YList.resize]; omega
  · simp only [YList.resizeUp, YList.resize, Block.realloc]
    rw [List.take_append_of_le_length (by rw [List.length_take]; omega), List.take_take, Nat.min_eq_left (by omega)]
    exact h.data

theorem Holds.room {ls : YList} {xs : List Val} (h : ls.Holds xs) :
    (if ls.count ≥ ls.size then ls.resizeUp else ls).Holds xs ∧
    (if ls.count ≥ ls.size then ls.resizeUp else ls).count < (if ls.count ≥ ls.size then ls.resizeUp else ls).size := by
  by_cases hh : ls.count ≥ ls.size
  · rw [if_pos hh]; have h1 := Holds.resizeUp h; have h2 := h.fits; exact ⟨h1.1, by omega⟩
  · rw [if_neg hh]; exact ⟨h, by omega⟩

theorem Holds.append {ls : YList} {xs : List Val} (h : ls.Holds xs) (v : Val) :
    ∃ ls', ls.append v = .ok ls' ∧ ls'.Holds (xs ++ [v]) := by
  obtain ⟨h1, h2⟩ := Holds.room h
  unfold YList.append
  generalize (if ls.count ≥ ls.size then ls.resizeUp else ls) = l at h1 h2
  have hc := h1.count; have hf := h1.fits; have ha := h1.alloc
  refine ⟨{ l with items := l.items.set l.count (some v), count := l.count + 1 }, ?_, ?_, ?_, ?_, ?_⟩
  · dsimp only; rw [Block.st, if_pos (by omega)]; rfl
  · simpa using ha
  · simp [hc]
  · exact h2
  · simp only [List.map_append, List.map_cons, List.map_nil]
    rw [← h1.data, List.take_set, List.take_add_one, List.getElem?_eq_getElem (by omega), List.set_append,
      if_neg (by rw [List.length_take]; omega)]
    rw [show l.count - (List.take l.count l.items).length = 0 by rw [List.length_take]; omega]
    rfl

theorem Holds.appendAll {ls : YList} {xs : List Val} (h : ls.Holds xs) (vs : List Val) :
    ∃ ls', ls.appendAll vs = .ok ls' ∧ ls'.Holds (xs ++ vs) := by
  induction vs generalizing ls xs with
  | nil => exact ⟨ls, rfl, by simpa using h⟩
  | cons v vs ih =>
    obtain ⟨l1, e1, h1⟩ := Holds.append h v
    obtain ⟨l2, e2, h2⟩ := ih h1
    exact ⟨l2, by rw [YList.appendAll, e1, Out.bind_ok, e2], by simpa using h2⟩

theorem Holds.insertAt {ls : YList} {xs : List Val} (h : ls.Holds xs) {k : Nat} (hk : k < xs.length) (v : Val) :
    ∃ ls', ls.insertAt k v = .ok ls' ∧ ls'.Holds (xs.take k ++ v :: xs.drop k) := by
  obtain ⟨h1, h2⟩ := Holds.room h
  unfold YList.insertAt
  generalize (if ls.count ≥ ls.size then ls.resizeUp else ls) = l at h1 h2
  have hc := h1.count; have hf := h1.fits; have ha := h1.alloc
  dsimp only
  rw [Block.memmove, if_pos (by omega), Out.bind_ok]
  have hlen : (l.items.take (k + 1) ++ (l.items.drop k).take (l.count - k) ++ l.items.drop (k + 1 + (l.count - k))).length
      = l.size := by
    simp only [List.length_append, List.length_take, List.length_drop]; omega
  rw [Block.st, if_pos (by omega), Out.bind_ok]
  refine ⟨_, rfl, ?_, ?_, ?_, ?_⟩
  · simpa using hlen
  · simp [hc]; omega
  · exact h2
  · dsimp only
    apply List.ext_getElem?
    intro i
    have hd := fun j (hj : j < xs.length) => Holds.get? h1 hj
    simp only [List.getElem?_take, List.getElem?_set, List.getElem?_map]
    by_cases hi : i < l.count + 1
    · rw [if_pos hi]
      by_cases hik : i = k
      · subst hik
        rw [if_pos rfl, if_pos (by omega), List.getElem?_append_right (by simp)]
        simp [show i - min i xs.length = 0 by omega]
      · rw [if_neg (Ne.symm hik)]
        rcases Nat.lt_or_gt_of_ne hik with hlt | hgt
        · rw [List.append_assoc, List.getElem?_append_left (by rw [List.length_take]; omega), List.getElem?_take,
            if_pos (by omega), hd i (by omega), List.getElem?_append_left (by rw [List.length_take]; omega),
            List.getElem?_take, if_pos hlt, List.getElem?_eq_getElem (by omega)]
          rfl
        · rw [List.getElem?_append_left (by simp only [List.length_append, List.length_take, List.length_drop]; omega),
            List.getElem?_append_right (by rw [List.length_take]; omega), List.getElem?_take, List.length_take,
            if_pos (by omega), List.getElem?_drop, show k + (i - min (k + 1) l.items.length) = i - 1 by omega,
            hd (i - 1) (by omega), List.getElem?_append_right (by rw [List.length_take]; omega), List.length_take,
            show i - min k xs.length = (i - 1 - k) + 1 by omega, List.getElem?_cons_succ, List.getElem?_drop,
            show k + (i - 1 - k) = i - 1 by omega, List.getElem?_eq_getElem (by omega)]
          rfl
    · rw [if_neg hi, List.getElem?_eq_none (by simp; omega)]; rfl

theorem Holds.readItems {ls : YList} {xs : List Val} (h : ls.Holds xs) (k i : Nat) (hi : i + k ≤ xs.length) :
    readItems ls.items k i = .ok ((xs.drop i).take k) := by
  induction k generalizing i with
  | zero => simp [Yasl.readItems]
  | succ k ih =>
    rw [Yasl.readItems, Holds.ld h (by omega), Out.bind_ok, ih (i + 1) (by omega), Out.bind_ok,
      List.drop_eq_getElem_cons (i := i) (by omega), List.take_succ_cons]

theorem Holds.forItems {ls : YList} {xs : List Val} (h : ls.Holds xs) : ls.forItems = .ok xs := by
  rw [YList.forItems, Holds.readItems h _ _ (by rw [h.count]; omega), h.count]; simp

theorem revLoop_spec (n : Nat) (k i : Nat) (ls : YList) (xs : List Val) (hn : xs.length = n) (h : ls.Holds xs)
    (hk : i + k = n / 2) :
    ∃ m ys, revLoop n k i ls.items = .ok m ∧ YList.Holds { ls with items := m } ys ∧ ys.length = n ∧
      ∀ j, j < n → ys[j]? = if i ≤ j ∧ j < n - i then xs[n - 1 - j]? else xs[j]? := by
  induction k generalizing i ls xs with
  | zero =>
    refine ⟨ls.items, xs, rfl, h, hn, ?_⟩
    intro j hj
    split
    · rw [show n - 1 - j = j by omega]
    · rfl
  | succ k ih =>
    obtain ⟨m1, e1, h1⟩ := Holds.st h (i := i) (by omega) (xs[n - i - 1]'(by omega))
    obtain ⟨m2, e2, h2⟩ := Holds.st h1 (i := n - i - 1) (by simp; omega) (xs[i]'(by omega))
    have estep : revStep n ls.items i = .ok m2 := by
      rw [revStep, Holds.ld h (by omega), Out.bind_ok, Holds.ld h (by omega), Out.bind_ok, e1, Out.bind_ok]
      exact e2
    obtain ⟨m, ys, e, hh, hl, hy⟩ := ih (i + 1) { ls with items := m2 } _ (by simpa using hn) h2 (by omega)
    refine ⟨m, ys, ?_, hh, hl, ?_⟩
    · rw [revLoop, estep, Out.bind_ok]; exact e
    · intro j hj
      rw [hy j hj]
      simp only [List.getElem?_set, List.length_set]
      by_cases c1 : i + 1 ≤ j ∧ j < n - (i + 1)
      · rw [if_pos c1, if_neg (by omega), if_neg (by omega), if_pos (by omega)]
      · rw [if_neg c1]
        by_cases c2 : n - i - 1 = j
        · rw [if_pos c2, if_pos (by omega), if_pos (by omega), show n - 1 - j = i by omega,
            List.getElem?_eq_getElem (by omega)]
        · rw [if_neg c2]
          by_cases c3 : i = j
          · subst c3
            rw [if_pos rfl, if_pos (by omega), if_pos (by omega), show n - 1 - i = n - i - 1 by omega,
              List.getElem?_eq_getElem (by omega)]
          · rw [if_neg c3, if_neg (by omega)]

theorem Holds.reverse {ls : YList} {xs : List Val} (h : ls.Holds xs) :
    ∃ ls', ls.reverse = .ok ls' ∧ ls'.Holds xs.reverse := by
  obtain ⟨m, ys, e, hh, hl, hy⟩ := revLoop_spec xs.length (xs.length / 2) 0 ls xs rfl h (by omega)
  refine ⟨{ ls with items := m }, ?_, ?_⟩
  · rw [YList.reverse, h.count, e]; rfl
  · have : ys = xs.reverse := by
      apply List.ext_getElem?
      intro j
      by_cases hj : j < xs.length
      · rw [hy j hj, if_pos (by omega), List.getElem?_reverse hj]
      · rw [List.getElem?_eq_none (by omega), List.getElem?_eq_none (by simp; omega)]
    rwa [← this]

end Yasl
