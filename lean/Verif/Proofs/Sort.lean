import Verif.Model.Sort
import Verif.Proofs.Value
import Mathlib.Data.List.Perm.Basic
/-! Lemmas about `list.sort`. -/
namespace Yasl

theorem objCmp_swap (a b : Val) : objCmp b a = - objCmp a b := by
  have key : ∀ x y : BitVec 64, (if flt y x then (-1 : Int) else if flt x y then 1 else 0) =
      - (if flt x y then -1 else if flt y x then 1 else 0) := by
    intro x y
    by_cases h1 : flt x y = true <;> by_cases h2 : flt y x = true <;> simp [h1, h2]
    have := (flt_iff x y).1 h1; have := (flt_iff y x).1 h2; omega
  cases a <;> cases b <;> first | rfl | exact key _ _ | exact strCmp_swap _ _

theorem objCmp_self (a : Val) : objCmp a a = 0 := by have := objCmp_swap a a; omega

theorem scanL_ok {mid : Val} {l : List Val} {left left' : Nat} (h : scanL mid l left = .ok left') :
    left ≤ left' ∧ (∃ a, l[left' - left]? = some a ∧ ¬ objCmp a mid < 0) ∧
    ∀ i a, i < left' - left → l[i]? = some a → objCmp a mid < 0 := by
  induction l generalizing left with
  | nil => simp [scanL] at h
  | cons x xs ih =>
    rw [scanL] at h
    split at h
    · rename_i hx
      obtain ⟨h1, ⟨a, ha, hna⟩, h3⟩ := ih h
      refine ⟨by omega, ⟨a, ?_, hna⟩, ?_⟩
      · rw [show left' - left = (left' - (left + 1)) + 1 by omega]; simpa using ha
      · intro i a hi hia
        cases i with
        | zero => simp at hia; rwa [← hia]
        | succ i => exact h3 i a (by omega) (by simpa using hia)
    · rename_i hx
      cases h
      refine ⟨le_refl _, ⟨x, by simp, hx⟩, by simp⟩

theorem scanL_ub {mid : Val} {l : List Val} {left : Nat} (h : scanL mid l left = .ub) :
    ∀ a ∈ l, objCmp a mid < 0 := by
  induction l generalizing left with
  | nil => simp
  | cons x xs ih =>
    rw [scanL] at h
    split at h
    · rename_i hx
      intro a ha
      rcases List.mem_cons.mp ha with rfl | ha
      · exact hx
      · exact ih h a ha
    · cases h

theorem scanL_not_err {mid : Val} {l : List Val} {left : Nat} :
    scanL mid l left ≠ .valueError ∧ scanL mid l left ≠ .typeError := by
  induction l generalizing left with
  | nil => simp [scanL]
  | cons x xs ih => rw [scanL]; split <;> simp [ih]

theorem scanR_ok {mid : Val} {l : List Val} {right : Nat} (hr : right < l.length) :
    ∃ right', scanR mid l right = .ok right' ∧ right' ≤ right ∧
    (∃ a, l[right']? = some a ∧ (objCmp a mid < 0 ∨ right' = 0)) ∧
    ∀ i a, right' < i → i ≤ right → l[i]? = some a → objCmp a mid ≥ 0 := by
  induction right with
  | zero =>
    refine ⟨0, ?_, le_refl _, ⟨l[0], ?_, .inr rfl⟩, by omega⟩
    · rw [scanR, List.getElem?_eq_getElem hr]
    · simp
  | succ r ih =>
    rw [scanR, List.getElem?_eq_getElem hr]
    dsimp only
    by_cases hx : objCmp l[r + 1] mid ≥ 0
    · rw [if_pos hx]
      obtain ⟨r', h1, h2, h3, h4⟩ := ih (by omega)
      refine ⟨r', h1, by omega, h3, ?_⟩
      intro i a hi hir hia
      by_cases he : i = r + 1
      · subst he; rw [List.getElem?_eq_getElem hr] at hia; cases hia; exact hx
      · exact h4 i a hi (by omega) hia
    · rw [if_neg hx]
      refine ⟨r + 1, rfl, le_refl _, ⟨l[r + 1], by simp, .inl (by omega)⟩, by omega⟩

/-- Swapping two cells is a permutation. -/
theorem swap_perm (l : List Val) (i j : Nat) (a b : Val) (hij : i < j) (ha : l[i]? = some a) (hb : l[j]? = some b) :
    ((l.set j a).set i b).Perm l := by
  obtain ⟨hj, hb'⟩ := List.getElem?_eq_some_iff.mp hb
  obtain ⟨hi, ha'⟩ := List.getElem?_eq_some_iff.mp ha
  have e : (l.set j a).set i b = l.take i ++ b :: ((l.drop (i + 1)).take (j - i - 1) ++ a :: l.drop (j + 1)) := by
    rw [List.set_eq_take_append_cons_drop (l := l.set j a), if_pos (by simpa using hi),
      List.take_set_of_le (by omega)]
    rw [List.drop_set, if_neg (by omega), List.set_eq_take_append_cons_drop, if_pos (by simp; omega)]
    rw [show j - (i + 1) = j - i - 1 by omega, List.drop_drop, show i + 1 + (j - i - 1 + 1) = j + 1 by omega]
  have e2 : l = l.take i ++ a :: ((l.drop (i + 1)).take (j - i - 1) ++ b :: l.drop (j + 1)) := by
    conv_lhs => rw [← List.take_append_drop i l, List.drop_eq_getElem_cons hi, ha',
      ← List.take_append_drop (j - i - 1) (l.drop (i + 1)), List.drop_drop, show i + 1 + (j - i - 1) = j by omega,
      List.drop_eq_getElem_cons hj, hb']
  rw [e]
  conv_rhs => rw [e2]
  apply List.Perm.append_left
  generalize (l.drop (i + 1)).take (j - i - 1) = u
  generalize l.drop (j + 1) = w
  calc (b :: (u ++ a :: w)).Perm (b :: a :: (u ++ w)) := List.Perm.cons _ List.perm_middle
    _ |>.Perm (a :: b :: (u ++ w)) := List.Perm.swap _ _ _
    _ |>.Perm (a :: (u ++ b :: w)) := List.Perm.cons _ List.perm_middle.symm

theorem partLoop_perm {mid : Val} {f left right : Nat} {l l' : List Val}
    (h : partLoop mid f left right l = some (.ok l')) : l'.Perm l := by
  induction f generalizing left right l with
  | zero => simp [partLoop] at h
  | succ f ih =>
    rw [partLoop] at h
    split at h
    · obtain ⟨left', -, h⟩ := Run.bind_eq_ok h
      obtain ⟨right', -, h⟩ := Run.bind_eq_ok h
      split at h
      · rename_i a b ha hb
        split at h
        · rename_i hc
          have hp := swap_perm l left' right' a b hc.2 ha hb
          split at h
          · cases h; exact hp
          · exact (ih h).trans hp
        · split at h
          · split at h
            · cases h; exact List.Perm.refl _
            · exact ih h
          · exact ih h
      · cases h
    · cases h; exact List.Perm.refl _

theorem sortC_perm {r : Nat → Nat} {f i : Nat} {l : List Val} {res : List Val × Nat}
    (h : sortC r f i l = some (.ok res)) : res.1.Perm l := by
  induction f generalizing i l res with
  | zero => simp [sortC] at h
  | succ f ih =>
    match l with
    | [] => simp [sortC] at h; subst h; exact List.Perm.refl _
    | [a] => simp [sortC] at h; subst h; exact List.Perm.refl _
    | [a, b] =>
      simp only [sortC, Option.some.injEq, Out.ok.injEq] at h
      subst h
      dsimp only
      split
      · exact List.Perm.swap _ _ _
      · exact List.Perm.refl _
    | a :: b :: c :: rest =>
      rw [sortC] at h
      dsimp only at h
      split at h
      · cases h
      · rename_i mid hm
        split at h
        · cases h; exact List.Perm.refl _
        · obtain ⟨l1, h1, h⟩ := Run.bind_eq_ok h
          obtain ⟨x, h2, h⟩ := Run.bind_eq_ok h
          obtain ⟨y, h3, h⟩ := Run.bind_eq_ok h
          cases h
          have := List.Perm.append (ih h2) (ih h3)
          rw [List.take_append_drop] at this
          exact this.trans (partLoop_perm h1)

/-! ## No access outside the array -/

/-- Some element at or after `left` stops the left scan. -/
def Sentinel (mid : Val) (l : List Val) (left right : Nat) : Prop :=
  (∃ j a, left ≤ j ∧ right < j ∧ l[j]? = some a ∧ ¬ objCmp a mid < 0) ∨ (∃ j, left ≤ j ∧ l[j]? = some mid)

theorem partLoop_no_ub {mid : Val} {f left right : Nat} {l : List Val} (hr : right < l.length)
    (hs : left < right → Sentinel mid l left right) : partLoop mid f left right l ≠ some .ub := by
  induction f generalizing left right l with
  | zero => simp [partLoop]
  | succ f ih =>
    rw [partLoop]
    split
    · rename_i hlt
      specialize hs hlt
      have hs' : ∃ j a, left ≤ j ∧ l[j]? = some a ∧ ¬ objCmp a mid < 0 := by
        rcases hs with ⟨j, a, h1, -, h2, h3⟩ | ⟨j, h1, h2⟩
        · exact ⟨j, a, h1, h2, h3⟩
        · exact ⟨j, mid, h1, h2, by rw [objCmp_self]; omega⟩
      cases hL : scanL mid (l.drop left) left with
      | ub =>
        obtain ⟨j, a, h1, h2, h3⟩ := hs'
        have := scanL_ub hL a (List.mem_of_getElem? (i := j - left) (by rw [List.getElem?_drop]; rwa [show left + (j - left) = j by omega]))
        exact absurd this h3
      | valueError => exact absurd hL scanL_not_err.1
      | typeError => exact absurd hL scanL_not_err.2
      | ok left' =>
        obtain ⟨hle, ⟨a, ha, hna⟩, hbefore⟩ := scanL_ok hL
        rw [List.getElem?_drop, show left + (left' - left) = left' by omega] at ha
        obtain ⟨right', hR, hrr, ⟨b, hb, hbm⟩, hafter⟩ := scanR_ok (mid := mid) hr
        rw [hR]
        simp only [Run.bind_ok, ha, hb]
        have hj : ∀ j x, left ≤ j → l[j]? = some x → ¬ objCmp x mid < 0 → left' ≤ j := by
          intro j x h1 h2 h3
          by_contra hcon
          exact h3 (hbefore (j - left) x (by omega) (by rw [List.getElem?_drop]; rwa [show left + (j - left) = j by omega]))
        split
        · rename_i hc
          split
          · simp
          · refine ih (by simp; omega) fun _ => .inl ⟨right', a, by omega, by omega, ?_, hna⟩
            have hl := (List.getElem?_eq_some_iff.mp hb).1
            rw [List.getElem?_set_ne (by omega), List.getElem?_set_self hl]
        · rename_i hc
          split
          · rename_i h0
            split
            · simp
            · rename_i hr0
              refine ih (by omega) fun hlt2 => ?_
              rcases hs with ⟨j, x, h1, h2, h3, h4⟩ | ⟨j, h1, h2⟩
              · exact .inl ⟨j, x, by omega, by omega, h3, h4⟩
              · have := hj j mid h1 h2 (by rw [objCmp_self]; omega)
                by_cases hjl : j = left'
                · subst hjl
                  rw [ha] at h2; cases h2
                  rcases hbm with hbm | hbm
                  · rw [objCmp_swap, h0] at hbm; omega
                  · exact absurd hbm hr0
                · exact .inr ⟨j, by omega, h2⟩
          · refine ih (by omega) fun _ => ?_
            rcases hs with ⟨j, x, h1, h2, h3, h4⟩ | ⟨j, h1, h2⟩
            · exact .inl ⟨j, x, hj j x h1 h3 h4, by omega, h3, h4⟩
            · exact .inr ⟨j, hj j mid h1 h2 (by rw [objCmp_self]; omega), h2⟩
    · simp

theorem sortC_no_ub {r : Nat → Nat} {f i : Nat} {l : List Val} : sortC r f i l ≠ some .ub := by
  induction f generalizing i l with
  | zero => simp [sortC]
  | succ f ih =>
    match l with
    | [] => simp [sortC]
    | [a] => simp [sortC]
    | [a, b] => simp [sortC]
    | a :: b :: c :: rest =>
      rw [sortC]
      dsimp only
      generalize hl : a :: b :: c :: rest = l
      have hlen : 0 < l.length := by rw [← hl]; simp
      have hidx : r i % l.length < l.length := Nat.mod_lt _ hlen
      rw [List.getElem?_eq_getElem hidx]
      dsimp only
      split
      · simp
      · intro h
        rcases Run.bind_eq_ub h with h | ⟨l1, h1, h⟩
        · exact partLoop_no_ub (by omega) (fun _ => .inr ⟨_, Nat.zero_le _, List.getElem?_eq_getElem hidx⟩) h
        · rcases Run.bind_eq_ub h with h | ⟨x, h2, h⟩
          · exact ih h
          · rcases Run.bind_eq_ub h with h | ⟨y, h3, h⟩
            · exact ih h
            · cases h

/-! ## Sortedness, when the comparison is a total preorder on the elements -/

/-- `objCmp` restricted to the values `S` is transitive. -/
def TransOn (S : Val → Prop) : Prop :=
  ∀ a b c, S a → S b → S c → objCmp a b ≤ 0 → objCmp b c ≤ 0 → objCmp a c ≤ 0

theorem TransOn.lt_of_lt_of_le {S : Val → Prop} (h : TransOn S) {a b c : Val} (ha : S a) (hb : S b) (hc : S c)
    (h1 : objCmp a b < 0) (h2 : objCmp b c ≤ 0) : objCmp a c < 0 := by
  have hac := h a b c ha hb hc (by omega) h2
  rcases Int.lt_or_eq_of_le hac with h3 | h3
  · exact h3
  · have hca : objCmp c a ≤ 0 := by rw [objCmp_swap]; omega
    have := h b c a hb hc ha h2 hca
    rw [objCmp_swap] at this; omega

theorem partLoop_spec {S : Val → Prop} (hT : TransOn S) {mid : Val} (hm : S mid) {left right : Nat} {l : List Val}
    (hS : ∀ a ∈ l, S a) (hr : right < l.length)
    (hlo : ∀ i a, i < left → l[i]? = some a → objCmp a mid < 0)
    (hhi : ∀ i a, right < i → l[i]? = some a → ¬ objCmp a mid < 0)
    (hs : left < right → Sentinel mid l left right) (f : Nat) (hf : right + 2 ≤ f) :
    ∃ l' p, partLoop mid f left right l = some (.ok l') ∧
      (∀ i a, i < p → l'[i]? = some a → objCmp a mid < 0) ∧
      (∀ i a, p ≤ i → l'[i]? = some a → ¬ objCmp a mid < 0) ∧ p ≤ l'.length := by
  induction f generalizing left right l with
  | zero => omega
  | succ f ih =>
    rw [partLoop]
    by_cases hlt : left < right
    · rw [if_pos hlt]
      specialize hs hlt
      have hs' : ∃ j a, left ≤ j ∧ l[j]? = some a ∧ ¬ objCmp a mid < 0 := by
        rcases hs with ⟨j, a, h1, -, h2, h3⟩ | ⟨j, h1, h2⟩
        · exact ⟨j, a, h1, h2, h3⟩
        · exact ⟨j, mid, h1, h2, by rw [objCmp_self]; omega⟩
      cases hL : scanL mid (l.drop left) left with
      | ub =>
        obtain ⟨j, a, h1, h2, h3⟩ := hs'
        have := scanL_ub hL a (List.mem_of_getElem? (i := j - left) (by rw [List.getElem?_drop]; rwa [show left + (j - left) = j by omega]))
        exact absurd this h3
      | valueError => exact absurd hL scanL_not_err.1
      | typeError => exact absurd hL scanL_not_err.2
      | ok left' =>
        obtain ⟨hle, ⟨a, ha, hna⟩, hbefore⟩ := scanL_ok hL
        rw [List.getElem?_drop, show left + (left' - left) = left' by omega] at ha
        obtain ⟨right', hR, hrr, ⟨b, hb, hbm⟩, hafter⟩ := scanR_ok (mid := mid) hr
        rw [hR]
        simp only [Run.bind_ok, ha, hb]
        have hal := (List.getElem?_eq_some_iff.mp ha).1
        have hbl := (List.getElem?_eq_some_iff.mp hb).1
        have hSa := hS a (List.mem_of_getElem? ha)
        have hSb := hS b (List.mem_of_getElem? hb)
        have hlo' : ∀ i x, i < left' → l[i]? = some x → objCmp x mid < 0 := by
          intro i x hi hx
          by_cases h : i < left
          · exact hlo i x h hx
          · exact hbefore (i - left) x (by omega) (by rw [List.getElem?_drop]; rwa [show left + (i - left) = i by omega])
        have hhi' : ∀ i x, right' < i → l[i]? = some x → ¬ objCmp x mid < 0 := by
          intro i x hi hx
          by_cases h : i ≤ right
          · have := hafter i x hi h hx; omega
          · exact hhi i x (by omega) hx
        -- `left' ≤ right' + 1`
        have hlr : left' ≤ right' + 1 := by
          by_contra hcon
          obtain ⟨x, hx⟩ : ∃ x, l[right' + 1]? = some x := ⟨_, List.getElem?_eq_getElem (by omega)⟩
          exact hhi' (right' + 1) x (by omega) hx (hlo' _ x (by omega) hx)
        by_cases hbm' : objCmp b mid < 0
        · -- the right scan stopped at a small element
          have hab : objCmp a b > 0 := by
            have h1 : objCmp mid a ≤ 0 := by rw [objCmp_swap]; omega
            have := hT.lt_of_lt_of_le hSb hm hSa hbm' h1
            rw [objCmp_swap] at this; omega
          by_cases hll : left' < right'
          · rw [if_pos ⟨hab, hll⟩, if_neg (by omega)]
            have hp := swap_perm l left' right' a b hll ha hb
            refine ih (fun x hx => hS x (hp.mem_iff.mp hx)) (by simp; omega) ?_ ?_ ?_ (by omega)
            · intro i x hi hx
              by_cases he : i = left'
              · subst he
                rw [List.getElem?_set_self (by simpa using hal)] at hx; cases hx; exact hbm'
              · rw [List.getElem?_set_ne (by omega), List.getElem?_set_ne (by omega)] at hx
                exact hlo' i x (by omega) hx
            · intro i x hi hx
              rw [List.getElem?_set_ne (by omega)] at hx
              by_cases he : i = right'
              · subst he
                rw [List.getElem?_set_self hbl] at hx; cases hx; exact hna
              · rw [List.getElem?_set_ne (by omega)] at hx
                exact hhi' i x (by omega) hx
            · intro _
              refine .inl ⟨right', a, by omega, by omega, ?_, hna⟩
              rw [List.getElem?_set_ne (by omega), List.getElem?_set_self hbl]
          · rw [if_neg (by omega), if_neg (by omega)]
            refine ⟨l, left', ?_, hlo', ?_, by omega⟩
            · obtain ⟨f, rfl⟩ : ∃ g, f = g + 1 := ⟨f - 1, by omega⟩
              rw [partLoop, if_neg hll]
            · intro i x hi hx
              by_cases he : i = left'
              · subst he; rw [ha] at hx; cases hx; exact hna
              · exact hhi' i x (by omega) hx
        · -- the right scan ran to the start: every element is at least `mid`
          have hr0 : right' = 0 := by rcases hbm with h | h <;> [exact absurd h hbm'; exact h]
          subst hr0
          have hl0 : left' = 0 := by
            by_contra hcon
            exact hbm' (hlo' 0 b (by omega) hb)
          subst hl0
          rw [ha] at hb; cases hb
          rw [if_neg (by omega), if_pos (objCmp_self a), if_pos rfl]
          refine ⟨l, 0, rfl, by omega, ?_, by omega⟩
          intro i x _ hx
          by_cases he : i = 0
          · subst he; rw [ha] at hx; cases hx; exact hna
          · exact hhi' i x (by omega) hx
    · rw [if_neg hlt]
      by_cases hll : right < left
      · -- crossed
        refine ⟨l, min left l.length, rfl, fun i a hi => hlo i a (by omega), ?_, by omega⟩
        intro i a hi ha
        have := (List.getElem?_eq_some_iff.mp ha).1
        exact hhi i a (by omega) ha
      · have he : left = right := by omega
        subst he
        have hx := List.getElem?_eq_getElem hr
        by_cases hc : objCmp l[left] mid < 0
        · refine ⟨l, left + 1, rfl, ?_, fun i a hi => hhi i a (by omega), by omega⟩
          intro i a hi ha
          by_cases he : i = left
          · subst he; rw [hx] at ha; cases ha; exact hc
          · exact hlo i a (by omega) ha
        · refine ⟨l, left, rfl, hlo, ?_, by omega⟩
          intro i a hi ha
          by_cases he : i = left
          · subst he; rw [hx] at ha; cases ha; exact hc
          · exact hhi i a (by omega) ha

/-- A list split at `p` into elements satisfying and not satisfying `q` satisfies `q` exactly `p` times. -/
theorem countP_split {q : Val → Bool} {l : List Val} {p : Nat} (hp : p ≤ l.length)
    (h1 : ∀ i a, i < p → l[i]? = some a → q a = true) (h2 : ∀ i a, p ≤ i → l[i]? = some a → ¬ q a = true) :
    l.countP q = p := by
  rw [← List.take_append_drop p l, List.countP_append]
  have a1 : (l.take p).countP q = (l.take p).length := by
    rw [List.countP_eq_length]
    intro a ha
    obtain ⟨i, hi⟩ := List.getElem?_of_mem ha
    rw [List.getElem?_take] at hi
    split at hi
    · rename_i hlt; exact h1 i a hlt hi
    · cases hi
  have a2 : (l.drop p).countP q = 0 := by
    rw [List.countP_eq_zero]
    intro a ha
    obtain ⟨i, hi⟩ := List.getElem?_of_mem ha
    rw [List.getElem?_drop] at hi
    exact h2 _ a (by omega) hi
  rw [a1, a2, List.length_take]; omega

/-- What one call of the partition does: the first `ltCount` elements are smaller than the pivot, the others are not. -/
theorem partition_spec {S : Val → Prop} (hT : TransOn S) {mid : Val} {l : List Val} (hS : ∀ a ∈ l, S a) (hm : mid ∈ l)
    (f : Nat) (hf : l.length + 1 ≤ f) :
    ∃ l', partLoop mid f 0 (l.length - 1) l = some (.ok l') ∧ l'.Perm l ∧
      (∀ a ∈ l'.take (l.countP fun x => decide (objCmp x mid < 0)), objCmp a mid < 0) ∧
      (∀ a ∈ l'.drop (l.countP fun x => decide (objCmp x mid < 0)), ¬ objCmp a mid < 0) := by
  have hlen : 0 < l.length := List.length_pos_of_mem hm
  obtain ⟨j, hj⟩ := List.getElem?_of_mem hm
  obtain ⟨l', p, e, h1, h2, h3⟩ := partLoop_spec hT (hS mid hm) (left := 0) (right := l.length - 1) hS (by omega)
    (by omega) (fun i a hi ha => by have := (List.getElem?_eq_some_iff.mp ha).1; omega)
    (fun _ => .inr ⟨j, Nat.zero_le _, hj⟩) f (by omega)
  have hp := partLoop_perm e
  have hcount : l.countP (fun x => decide (objCmp x mid < 0)) = p := by
    rw [← hp.countP_eq]
    exact countP_split h3 (fun i a hi ha => by simpa using h1 i a hi ha) (fun i a hi ha => by simpa using h2 i a hi ha)
  rw [hcount]
  refine ⟨l', e, hp, ?_, ?_⟩
  · intro a ha
    obtain ⟨i, hi⟩ := List.getElem?_of_mem ha
    rw [List.getElem?_take] at hi
    split at hi
    · rename_i hlt; exact h1 i a hlt hi
    · cases hi
  · intro a ha
    obtain ⟨i, hi⟩ := List.getElem?_of_mem ha
    rw [List.getElem?_drop] at hi
    exact h2 _ a (by omega) hi

theorem partLoop_mono {mid : Val} {f g left right : Nat} {l : List Val} {x : Out (List Val)}
    (h : partLoop mid f left right l = some x) (hfg : f ≤ g) : partLoop mid g left right l = some x := by
  induction f generalizing g left right l with
  | zero => simp [partLoop] at h
  | succ f ih =>
    obtain ⟨g, rfl⟩ : ∃ k, g = k + 1 := ⟨g - 1, by omega⟩
    rw [partLoop] at h ⊢
    split at h
    · rename_i hlt
      rw [if_pos hlt]
      cases hL : scanL mid (l.drop left) left with
      | ok left' =>
        rw [hL] at h
        cases hR : scanR mid l right with
        | ok right' =>
          rw [hR] at h
          simp only [Run.bind_ok] at h ⊢
          split at h
          · split at h
            · rename_i hc
              rw [if_pos hc]
              split at h
              · rename_i h0; rw [if_pos h0]; exact h
              · rename_i h0; rw [if_neg h0]; exact ih h (by omega)
            · rename_i hc
              rw [if_neg hc]
              split at h
              · rename_i hc0
                rw [if_pos hc0]
                split at h
                · rename_i h0; rw [if_pos h0]; exact h
                · rename_i h0; rw [if_neg h0]; exact ih h (by omega)
              · rename_i hc0; rw [if_neg hc0]; exact ih h (by omega)
          · exact h
        | _ => rw [hR] at h; exact h
      | _ => rw [hL] at h; exact h
    · rename_i hlt; rw [if_neg hlt]; exact h

theorem sortC_sorted {S : Val → Prop} (hT : TransOn S) {r : Nat → Nat} {f i : Nat} {l : List Val} {res : List Val × Nat}
    (hS : ∀ a ∈ l, S a) (h : sortC r f i l = some (.ok res)) : res.1.Pairwise fun a b => objCmp a b ≤ 0 := by
  induction f generalizing i l res with
  | zero => simp [sortC] at h
  | succ f ih =>
    match l with
    | [] => simp [sortC] at h; subst h; simp
    | [a] => simp [sortC] at h; subst h; simp
    | [a, b] =>
      simp only [sortC, Option.some.injEq, Out.ok.injEq] at h
      subst h
      dsimp only
      split
      · rename_i hc; simp; rw [objCmp_swap]; omega
      · simp; omega
    | a :: b :: c :: rest =>
      rw [sortC] at h
      dsimp only at h
      generalize hl : a :: b :: c :: rest = l at *
      have ha : a ∈ l := by rw [← hl]; simp
      split at h
      · cases h
      · rename_i mid hm
        have hmid : mid ∈ l := List.mem_of_getElem? hm
        split at h
        · rename_i hsd
          cases h
          have heq : ∀ x ∈ l, objCmp a x = 0 := by simpa using hsd
          dsimp only
          refine List.pairwise_iff_forall_sublist.mpr fun {x y} hxy => ?_
          have hx := hxy.subset (List.mem_cons_self (a := x) (l := [y]))
          have hy := hxy.subset (List.mem_cons_of_mem x (List.mem_cons_self (a := y) (l := [])))
          refine hT x a y (hS x hx) (hS a ha) (hS y hy) ?_ (by rw [heq y hy])
          rw [objCmp_swap, heq x hx]; omega
        · obtain ⟨l1, h1, h⟩ := Run.bind_eq_ok h
          obtain ⟨x, h2, h⟩ := Run.bind_eq_ok h
          obtain ⟨y, h3, h⟩ := Run.bind_eq_ok h
          cases h
          obtain ⟨l2, e2, hp, hlt, hge⟩ := partition_spec hT hS hmid (max f (l.length + 1)) (by omega)
          have e1 := partLoop_mono h1 (Nat.le_max_left f (l.length + 1))
          rw [e1] at e2; cases e2
          have hS1 : ∀ a ∈ l1, S a := fun a ha => hS a (hp.mem_iff.mp ha)
          refine List.pairwise_append.mpr ⟨ih (fun a ha => hS1 a (List.mem_of_mem_take ha)) h2,
            ih (fun a ha => hS1 a (List.mem_of_mem_drop ha)) h3, ?_⟩
          intro u hu v hv
          have hu' := (sortC_perm h2).mem_iff.mp hu
          have hv' := (sortC_perm h3).mem_iff.mp hv
          have c1 := hlt u hu'
          have c2 := hge v hv'
          have c3 : objCmp mid v ≤ 0 := by rw [objCmp_swap]; omega
          exact le_of_lt (hT.lt_of_lt_of_le (hS1 u (List.mem_of_mem_take hu')) (hS mid hmid)
            (hS1 v (List.mem_of_mem_drop hv')) c1 c3)

end Yasl
