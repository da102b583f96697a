import Verif.Proofs.Sort
import Verif.Props.Value
import Verif.Props.List
/-!
# C40, C41: `list.sort`
-/
namespace Yasl

/-! ## C40: the result is a sorted permutation -/

/-- C40 (safety, every list including NaNs and every rand stream): sort never reads or writes outside the array. -/
theorem C40_no_out_of_bounds (r : Nat → Nat) (f i : Nat) (vs : List Val) : listSort r f i vs ≠ some .ub := by
  intro h
  have ht : ∀ t vs, sortType t vs ≠ .ub := by
    intro t vs
    induction vs generalizing t with
    | nil => simp [sortType]
    | cons v vs ih => cases v <;> simp only [sortType] <;> (try split) <;> simp [ih]
  rcases Run.bind_eq_ub h with h | ⟨t, -, h⟩
  · exact ht _ _ (Option.some.inj h)
  · split at h
    · exact sortC_no_ub h
    · cases h

/-- C40 (permutation, every list and every rand stream). -/
theorem C40_permutation (r : Nat → Nat) (f i : Nat) (vs : List Val) (res : List Val × Nat)
    (h : listSort r f i vs = some (.ok res)) : res.1.Perm vs := by
  obtain ⟨t, -, h⟩ := Run.bind_eq_ok h
  split at h
  · exact sortC_perm h
  · cases h; exact List.Perm.refl _

/-- Values a list may be sorted on. -/
def AllStr (vs : List Val) : Prop := ∀ v ∈ vs, ∃ s, v = .str s
/-- All numbers. -/
def AllNum (vs : List Val) : Prop := ∀ v ∈ vs, v.IsNumber

theorem sortType_spec (t : SortType) (vs : List Val) :
    (∃ t', sortType t vs = .ok t' ∧ (t' = .empty ↔ t = .empty ∧ vs = []) ∧
      ((t ≠ .num ∧ AllStr vs) ∨ (t ≠ .str ∧ AllNum vs))) ∨
    (sortType t vs = .valueError ∧ ¬ (t ≠ .num ∧ AllStr vs) ∧ ¬ (t ≠ .str ∧ AllNum vs)) := by
  induction vs generalizing t with
  | nil =>
    left
    refine ⟨t, rfl, by simp, ?_⟩
    cases t <;> simp [AllStr, AllNum]
  | cons v vs ih =>
    cases v with
    | str s =>
      have hn : ¬ AllNum (.str s :: vs) := fun h => by simpa [Val.IsNumber] using h _ (List.mem_cons_self)
      have hs : AllStr (.str s :: vs) ↔ AllStr vs := by simp [AllStr]
      rw [hs]
      simp only [hn, and_false, or_false, not_false_eq_true, and_true, reduceCtorEq, iff_false]
      cases t with
      | num => right; simp [sortType]
      | _ =>
        simp only [sortType]
        rcases ih .str with ⟨t', e, h1, h2⟩ | ⟨e, h1, h2⟩
        · left; exact ⟨t', e, by simpa using h1, by simpa using h2⟩
        · right; exact ⟨e, by simpa using h1⟩
    | int n =>
      have hn : ¬ AllStr (.int n :: vs) := fun h => by simpa using h _ (List.mem_cons_self)
      have hs : AllNum (.int n :: vs) ↔ AllNum vs := by simp [AllNum, Val.IsNumber]
      rw [hs]
      simp only [hn, and_false, false_or, not_false_eq_true, true_and, reduceCtorEq, iff_false]
      cases t with
      | str => right; simp [sortType]
      | _ =>
        simp only [sortType]
        rcases ih .num with ⟨t', e, h1, h2⟩ | ⟨e, h1, h2⟩
        · left; exact ⟨t', e, by simpa using h1, by simpa using h2⟩
        · right; exact ⟨e, by simpa using h2⟩
    | float n =>
      have hn : ¬ AllStr (.float n :: vs) := fun h => by simpa using h _ (List.mem_cons_self)
      have hs : AllNum (.float n :: vs) ↔ AllNum vs := by simp [AllNum, Val.IsNumber]
      rw [hs]
      simp only [hn, and_false, false_or, not_false_eq_true, true_and, reduceCtorEq, iff_false]
      cases t with
      | str => right; simp [sortType]
      | _ =>
        simp only [sortType]
        rcases ih .num with ⟨t', e, h1, h2⟩ | ⟨e, h1, h2⟩
        · left; exact ⟨t', e, by simpa using h1, by simpa using h2⟩
        · right; exact ⟨e, by simpa using h2⟩
    | _ =>
      right
      refine ⟨rfl, ?_, ?_⟩ <;> rintro ⟨-, h⟩ <;> have := h _ (List.mem_cons_self) <;> simp [Val.IsNumber] at this

/-- C40 (type check): exactly the lists that are not all strings and not all numbers raise ValueError (the list is not touched:
the check precedes any write). -/
theorem C40_mixed_rejected (r : Nat → Nat) (f i : Nat) (vs : List Val) :
    listSort r f i vs = some .valueError ↔ ¬ AllStr vs ∧ ¬ AllNum vs := by
  have hne : ∀ f i l, sortC r f i l ≠ some .valueError := by
    intro f
    have hp : ∀ mid f left right l, partLoop mid f left right l ≠ some .valueError := by
      intro mid f
      induction f with
      | zero => simp [partLoop]
      | succ f ih =>
        intro left right l
        rw [partLoop]
        split
        · cases hL : scanL mid (l.drop left) left with
          | ok a =>
            have hR : ∀ k, scanR mid l k ≠ .valueError := by
              intro k
              induction k with
              | zero => rw [scanR]; split <;> simp
              | succ k ihk => rw [scanR]; split <;> [simp; (split <;> simp [ihk])]
            cases hR' : scanR mid l right with
            | ok b =>
              simp only [Run.bind_ok]
              split
              · split
                · split <;> [simp; exact ih _ _ _]
                · split
                  · split <;> [simp; exact ih _ _ _]
                  · exact ih _ _ _
              · simp
            | valueError => exact absurd hR' (hR _)
            | _ => simp [Run.bind]
          | valueError => exact absurd hL scanL_not_err.1
          | _ => simp [Run.bind]
        · simp
    have hb : ∀ {α β : Type} {x : Run α} {g : α → Run β}, x ≠ some .valueError → (∀ a, g a ≠ some .valueError) →
        Run.bind x g ≠ some .valueError := by
      intro α β x g h1 h2
      match x, h1 with
      | none, _ => simp [Run.bind]
      | some (.ok a), _ => exact h2 a
      | some .ub, _ => simp [Run.bind]
      | some .typeError, _ => simp [Run.bind]
    induction f with
    | zero => simp [sortC]
    | succ f ih =>
      intro i l
      match l with
      | [] => simp [sortC]
      | [a] => simp [sortC]
      | [a, b] => simp [sortC]
      | a :: b :: c :: rest =>
        rw [sortC]
        dsimp only
        split
        · simp
        · split
          · simp
          · exact hb (hp _ _ _ _ _) fun _ => hb (ih _ _) fun _ => hb (ih _ _) fun _ => by simp
  rcases sortType_spec .empty vs with ⟨t', e, h1, h2⟩ | ⟨e, h1, h2⟩
  · have hnot : ¬ (¬ AllStr vs ∧ ¬ AllNum vs) := by
      simp at h2; tauto
    simp only [hnot, iff_false, listSort, e, Run.bind_ok]
    split <;> [exact hne _ _ _; simp]
  · simp only [listSort, e, Run.bind, true_iff]
    exact ⟨fun h => h1 ⟨by simp, h⟩, fun h => h2 ⟨by simp, h⟩⟩

theorem transOn_str : TransOn fun v => ∃ s, v = .str s := by
  rintro _ _ _ ⟨a, rfl⟩ ⟨b, rfl⟩ ⟨c, rfl⟩ h1 h2
  simp only [objCmp] at *
  rcases Int.lt_or_eq_of_le h1 with h1 | h1
  · rcases Int.lt_or_eq_of_le h2 with h2 | h2
    · exact le_of_lt (lex_trans h1 h2)
    · rw [strCmp_eq_zero.mp h2] at h1; omega
  · rw [strCmp_eq_zero.mp h1]; exact h2

/-- A number that is not NaN. -/
def Val.RealNumber (v : Val) : Prop := v.IsNumber ∧ fnan v.getNum = false

theorem objCmp_num {a b : Val} (ha : a.RealNumber) (hb : b.RealNumber) :
    objCmp a b ≤ 0 ↔ fval a.getNum ≤ fval b.getNum := by
  obtain ⟨ha, na⟩ := ha; obtain ⟨hb, nb⟩ := hb
  have key : ∀ x y, fnan x = false → fnan y = false →
      ((if flt x y then (-1 : Int) else if flt y x then 1 else 0) ≤ 0 ↔ fval x ≤ fval y) := by
    intro x y hx hy
    have e1 := flt_iff x y; have e2 := flt_iff y x
    by_cases h1 : flt x y = true <;> by_cases h2 : flt y x = true <;> simp only [h1, h2, hx, hy, true_and, true_iff, if_true,
      Bool.false_eq_true, if_false, false_iff, not_lt] at * <;> omega
  cases a <;> simp [Val.IsNumber] at ha <;> cases b <;> simp [Val.IsNumber] at hb <;> exact key _ _ na nb

theorem transOn_num : TransOn Val.RealNumber := by
  intro a b c ha hb hc h1 h2
  rw [objCmp_num ha hb] at h1; rw [objCmp_num hb hc] at h2; rw [objCmp_num ha hc]; omega

theorem listSort_cases {r : Nat → Nat} {f i : Nat} {vs : List Val} {res : List Val × Nat}
    (h : listSort r f i vs = some (.ok res)) : sortC r f i vs = some (.ok res) ∨ (vs = [] ∧ res = (vs, i)) := by
  obtain ⟨t, ht', h⟩ := Run.bind_eq_ok h
  split at h
  · exact .inl h
  · rename_i ht
    rcases sortType_spec .empty vs with ⟨t', e, h1, -⟩ | ⟨e, -, -⟩
    · rw [e] at ht'; cases ht'
      exact .inr ⟨(h1.mp (by simpa using ht)).2, by cases h; rfl⟩
    · rw [e] at ht'; cases ht'

/-- C40 (strings): whenever sort returns, for every rand stream, the list is in nondecreasing order of `<=`. -/
theorem C40_sorted_strings (F : FloatOps) (r : Nat → Nat) (f i : Nat) (vs : List Val) (hvs : AllStr vs) (res : List Val × Nat)
    (h : listSort r f i vs = some (.ok res)) : res.1.Pairwise (LeTrue F) := by
  have hp := C40_permutation r f i vs res h
  rcases listSort_cases h with h | ⟨rfl, rfl⟩
  · have hs := sortC_sorted transOn_str hvs h
    refine hs.imp_of_mem ?_
    intro a b ha hb hab
    obtain ⟨x, rfl⟩ := hvs a (hp.mem_iff.mp ha)
    obtain ⟨y, rfl⟩ := hvs b (hp.mem_iff.mp hb)
    simp only [objCmp] at hab
    simpa [LeTrue, binOp, compOp] using hab
  · simp

theorem num_le_of_fval (F : FloatOps) {a b : Val} (ha : a.RealNumber) (hb : b.RealNumber) (sa : a.SmallInt) (sb : b.SmallInt)
    (h : fval a.getNum ≤ fval b.getNum) : LeTrue F a b := by
  obtain ⟨ha, na⟩ := ha; obtain ⟨hb, nb⟩ := hb
  rcases ha with ⟨i, rfl⟩ | ⟨x, rfl⟩ <;> rcases hb with ⟨j, rfl⟩ | ⟨y, rfl⟩ <;>
    simp only [LeTrue, binOp, compOp, Val.isNum, Bool.and_true, if_true, OpRes.val.injEq, Val.bool.injEq]
  · obtain ⟨n1, v1⟩ := intToFloat_exact i sa
    obtain ⟨n2, v2⟩ := intToFloat_exact j sb
    simp only [Val.getNum, v1, v2] at h
    simpa using Int.le_of_mul_le_mul_right h (by positivity)
  all_goals exact (fle_iff _ _).2 ⟨na, nb, h⟩

/-- C40 (numbers), partial: without NaN, and with every int in [-2^53, 2^53], the result is in nondecreasing order of `<=`.
The full statement (all numbers) is false, see `C40_nan_unsorted` and `C40_big_int_unsorted`. -/
theorem C40_sorted_numbers_partial (F : FloatOps) (r : Nat → Nat) (f i : Nat) (vs : List Val)
    (hvs : ∀ v ∈ vs, v.RealNumber ∧ v.SmallInt) (res : List Val × Nat)
    (h : listSort r f i vs = some (.ok res)) : res.1.Pairwise (LeTrue F) := by
  have hp := C40_permutation r f i vs res h
  rcases listSort_cases h with h | ⟨rfl, rfl⟩
  · have hs := sortC_sorted transOn_num (fun a ha => (hvs a ha).1) h
    refine hs.imp_of_mem ?_
    intro a b ha hb hab
    have Ha := hvs a (hp.mem_iff.mp ha)
    have Hb := hvs b (hp.mem_iff.mp hb)
    rw [objCmp_num Ha.1 Hb.1] at hab
    exact num_le_of_fval F Ha.1 Hb.1 Ha.2 Hb.2 hab
  · simp

/-- C40, every NaN-free list of numbers of any size: the result is in nondecreasing order of the values as doubles. -/
theorem C40_sorted_as_doubles (r : Nat → Nat) (f i : Nat) (vs : List Val)
    (hvs : ∀ v ∈ vs, v.RealNumber) (res : List Val × Nat)
    (h : listSort r f i vs = some (.ok res)) : res.1.Pairwise fun a b => fval a.getNum ≤ fval b.getNum := by
  have hp := C40_permutation r f i vs res h
  rcases listSort_cases h with h | ⟨rfl, rfl⟩
  · refine (sortC_sorted transOn_num hvs h).imp_of_mem ?_
    intro a b ha hb hab
    exact (objCmp_num (hvs a (hp.mem_iff.mp ha)) (hvs b (hp.mem_iff.mp hb))).mp hab
  · simp

/-- C40 is false with a NaN: `[nan, 3, 2].sort()` leaves the list as it is, whatever rand() returns. -/
theorem C40_nan_unsorted (F : FloatOps) (r : Nat → Nat) (f i : Nat) (hf : 0 < f) :
    listSort r f i [.float 0x7FF8000000000000, .int 3, .int 2] =
      some (.ok ([.float 0x7FF8000000000000, .int 3, .int 2], i + 1)) ∧ ¬ LeTrue F (.int 3) (.int 2) := by
  obtain ⟨f, rfl⟩ : ∃ g, f = g + 1 := ⟨f - 1, by omega⟩
  constructor
  · have hidx : r i % 3 < 3 := Nat.mod_lt _ (by omega)
    have hc : ∀ x ∈ [Val.float 0x7FF8000000000000, .int 3, .int 2], objCmp (.float 0x7FF8000000000000) x = 0 := by decide +kernel
    have hany : ([Val.float 0x7FF8000000000000, .int 3, .int 2].any fun x =>
        decide (objCmp (.float 0x7FF8000000000000) x ≠ 0)) = false := by
      rw [List.any_eq_false]; intro x hx; simpa using hc x hx
    simp only [listSort, sortType, Run.bind_ok, sortC, hany]
    rw [List.getElem?_eq_getElem (by simpa using hidx)]
    simp
  · simp [LeTrue, binOp, compOp]

/-- C40 is false for ints beyond 2^53: `[2^53 + 1, 2^53].sort()` leaves the list as it is. -/
theorem C40_big_int_unsorted (F : FloatOps) (r : Nat → Nat) (f i : Nat) (hf : 0 < f) :
    listSort r f i [.int 9007199254740993, .int 9007199254740992] =
      some (.ok ([.int 9007199254740993, .int 9007199254740992], i)) ∧
    ¬ LeTrue F (.int 9007199254740993) (.int 9007199254740992) := by
  obtain ⟨f, rfl⟩ : ∃ g, f = g + 1 := ⟨f - 1, by omega⟩
  constructor
  · have hc : ¬ objCmp (.int 9007199254740993) (.int 9007199254740992) > 0 := by decide +kernel
    simp only [listSort, sortType, Run.bind_ok, sortC, if_neg hc]
    simp
  · simp [LeTrue, binOp, compOp]

/-- Case: `[3, 1, 2]` with some rand stream is sorted. -/
example : listSort (fun i => if i = 0 then 2 else 0) 9 0 [.int 3, .int 1, .int 2] = some (.ok ([.int 1, .int 2, .int 3], 1)) := by
  decide +kernel
example : ∀ v ∈ [Val.int 3, .int 1, .int 2], v.RealNumber ∧ v.SmallInt := by
  intro v hv
  simp at hv
  rcases hv with rfl | rfl | rfl <;>
    exact ⟨⟨.inl ⟨_, rfl⟩, by decide +kernel⟩, by simp [Val.SmallInt]⟩

/-! ## C41: termination -/

theorem partLoop_min {mid : Val} {l : List Val} (hl : 0 < l.length) (h : ∀ a ∈ l, ¬ objCmp a mid < 0) (f : Nat) :
    partLoop mid (f + 1) 0 (l.length - 1) l = some (.ok l) := by
  rw [partLoop]
  split
  · rename_i hlt
    have hL : scanL mid (l.drop 0) 0 = .ok 0 := by
      rw [List.drop_zero]
      cases l with
      | nil => simp at hl
      | cons x xs => rw [scanL, if_neg (h x List.mem_cons_self)]
    obtain ⟨r', hR, -, ⟨b, hb, hbm⟩, -⟩ := scanR_ok (mid := mid) (l := l) (right := l.length - 1) (by omega)
    have : r' = 0 := by
      rcases hbm with hbm | hbm
      · exact absurd hbm (h b (List.mem_of_getElem? hb))
      · exact hbm
    subst this
    rw [hL, hR]
    simp only [Run.bind_ok, hb]
    rw [if_neg (by omega), if_pos (objCmp_self b)]
    simp
  · rfl

/-- C41 is false: if rand() keeps selecting the smallest element, `[1, 2, 3].sort()` recurses forever. -/
theorem C41_diverges : ∀ f, listSort (fun _ => 0) f 0 [.int 1, .int 2, .int 3] = none := by
  have key : ∀ f i, sortC (fun _ => 0) f i [.int 1, .int 2, .int 3] = none := by
    intro f
    induction f with
    | zero => intro i; rfl
    | succ f ih =>
      intro i
      have h1 : ∀ a ∈ [Val.int 1, .int 2, .int 3], ¬ objCmp a (.int 1) < 0 := by decide +kernel
      have h2 : ([Val.int 1, .int 2, .int 3].any fun x => decide (objCmp (.int 1) x ≠ 0)) = true := by decide +kernel
      have h3 : ([Val.int 1, .int 2, .int 3].countP fun x => decide (objCmp x (.int 1) < 0)) = 0 := by decide +kernel
      simp only [sortC]
      simp only [Nat.zero_mod, List.length_cons, List.length_nil, List.getElem?_cons_zero]
      rw [if_neg (by rw [h2]; simp), h3]
      cases f with
      | zero => rfl
      | succ f =>
        have := partLoop_min (mid := .int 1) (l := [.int 1, .int 2, .int 3]) (by simp) h1 f
        rw [show (0 + 1 + 1 + 1 - 1 : Nat) = [Val.int 1, .int 2, .int 3].length - 1 from rfl, this, Run.bind_ok]
        simp only [List.take_zero, List.drop_zero]
        have h4 : sortC (fun _ => 0) (f + 1) (i + 1) [] = some (.ok ([], i + 1)) := rfl
        rw [h4, Run.bind_ok, ih]
        rfl
  intro f
  simp only [listSort, sortType, Run.bind_ok]
  rw [if_pos (by simp), key]

/-- A fair rand stream: from any point on, every residue of every modulus still occurs. -/
def FairRand (r : Nat → Nat) : Prop := ∀ n j i, j < n → ∃ k, i ≤ k ∧ r k % n = j

theorem sortC_terminates {S : Val → Prop} (hT : TransOn S) {r : Nat → Nat} (hr : FairRand r) (n : Nat) :
    ∀ (l : List Val) (i : Nat), l.length ≤ n → (∀ a ∈ l, S a) → ∃ F res, ∀ f ≥ F, sortC r f i l = some (.ok res) := by
  induction n using Nat.strong_induction_on with
  | _ n IH =>
  intro l i hln hS
  match l with
  | [] => exact ⟨1, _, fun f hf => by obtain ⟨f, rfl⟩ : ∃ g, f = g + 1 := ⟨f - 1, by omega⟩; rfl⟩
  | [a] => exact ⟨1, _, fun f hf => by obtain ⟨f, rfl⟩ : ∃ g, f = g + 1 := ⟨f - 1, by omega⟩; rfl⟩
  | [a, b] => exact ⟨1, _, fun f hf => by obtain ⟨f, rfl⟩ : ∃ g, f = g + 1 := ⟨f - 1, by omega⟩; rfl⟩
  | a :: b :: c :: rest =>
    have unfoldS : ∀ f i, sortC r (f + 1) i (a :: b :: c :: rest) =
        match (a :: b :: c :: rest)[r i % (a :: b :: c :: rest).length]? with
        | none => some .ub
        | some mid =>
          if ((a :: b :: c :: rest).any fun x => decide (objCmp a x ≠ 0)) = false then some (.ok (a :: b :: c :: rest, i + 1))
          else
            Run.bind (partLoop mid f 0 ((a :: b :: c :: rest).length - 1) (a :: b :: c :: rest)) fun l' =>
            Run.bind (sortC r f (i + 1) (l'.take ((a :: b :: c :: rest).countP fun x => decide (objCmp x mid < 0)))) fun x =>
            Run.bind (sortC r f x.2 (l'.drop ((a :: b :: c :: rest).countP fun x => decide (objCmp x mid < 0)))) fun y =>
            some (.ok (x.1 ++ y.1, y.2)) := fun f i => rfl
    have ha : a ∈ a :: b :: c :: rest := List.mem_cons_self
    have hlen : 0 < (a :: b :: c :: rest).length := by simp
    generalize a :: b :: c :: rest = l at *
    by_cases hsd : (l.any fun x => decide (objCmp a x ≠ 0)) = false
    · refine ⟨1, (l, i + 1), fun f hf => ?_⟩
      obtain ⟨f, rfl⟩ : ∃ g, f = g + 1 := ⟨f - 1, by omega⟩
      rw [unfoldS, List.getElem?_eq_getElem (Nat.mod_lt _ hlen)]
      dsimp only
      rw [if_pos hsd]
    · -- a non-minimal element
      obtain ⟨j, x, hj, y, hy, hyx⟩ : ∃ j x, l[j]? = some x ∧ ∃ y ∈ l, objCmp y x < 0 := by
        rw [Bool.not_eq_false, List.any_eq_true] at hsd
        obtain ⟨x, hx, hne⟩ := hsd
        simp only [ne_eq, decide_not, Bool.not_eq_eq_eq_not, Bool.not_true, decide_eq_false_iff_not] at hne
        rcases Int.lt_or_gt_of_ne hne with h | h
        · obtain ⟨j, hj⟩ := List.getElem?_of_mem hx
          exact ⟨j, x, hj, a, ha, h⟩
        · obtain ⟨j, hj⟩ := List.getElem?_of_mem ha
          exact ⟨j, a, hj, x, hx, by rw [objCmp_swap]; omega⟩
      have hjl := (List.getElem?_eq_some_iff.mp hj).1
      obtain ⟨k, hik, hk⟩ := hr l.length j i hjl
      obtain ⟨d, hd⟩ : ∃ d, d = k - i := ⟨_, rfl⟩
      induction d using Nat.strong_induction_on generalizing i with
      | _ d ihd =>
      have hmod := Nat.mod_lt (r i) hlen
      have hmid : l[r i % l.length] ∈ l := List.getElem_mem hmod
      have hget := List.getElem?_eq_getElem hmod
      obtain ⟨mid, hmeq⟩ : ∃ m, m = l[r i % l.length] := ⟨_, rfl⟩
      rw [← hmeq] at hmid hget
      by_cases hmin : ∀ z ∈ l, ¬ objCmp z mid < 0
      · -- the pivot is minimal: the same list again with the next random number
        have hne : i ≠ k := by
          intro he
          subst he
          simp only [hk, hj, Option.some.injEq] at hget
          exact hmin y hy (hget ▸ hyx)
        obtain ⟨F, res, hF⟩ := ihd (k - (i + 1)) (by omega) (i + 1) (by omega) rfl
        have hc : (l.countP fun x => decide (objCmp x mid < 0)) = 0 := by
          rw [List.countP_eq_zero]; intro z hz; simpa using hmin z hz
        refine ⟨F + 2, ([] ++ res.1, res.2), fun f hf => ?_⟩
        obtain ⟨f, rfl⟩ : ∃ g, f = g + 2 := ⟨f - 2, by omega⟩
        rw [unfoldS, hget]
        dsimp only
        rw [if_neg hsd, partLoop_min hlen hmin, Run.bind_ok, hc, List.take_zero, List.drop_zero]
        have h4 : sortC r (f + 1) (i + 1) [] = some (.ok ([], i + 1)) := rfl
        rw [h4, Run.bind_ok, hF (f + 1) (by omega), Run.bind_ok]
      · -- both parts are shorter
        push Not at hmin
        obtain ⟨z, hz, hzm⟩ := hmin
        obtain ⟨l', e, hp, -, -⟩ := partition_spec hT hS hmid (l.length + 1) (le_refl _)
        obtain ⟨m, hm⟩ : ∃ m, m = l.countP fun x => decide (objCmp x mid < 0) := ⟨_, rfl⟩
        have hpos : 0 < m := by rw [hm]; exact List.countP_pos_iff.mpr ⟨z, hz, by simpa using hzm⟩
        have hlt : m < l.length := by
          rw [hm]
          refine lt_of_le_of_ne List.countP_le_length fun he => ?_
          rw [List.countP_eq_length] at he
          have := he mid hmid
          simp [objCmp_self] at this
        have hS' : ∀ a ∈ l', S a := fun a ha => hS a (hp.mem_iff.mp ha)
        have hl' := hp.length_eq
        obtain ⟨F1, x, h1⟩ := IH (n - 1) (by omega) (l'.take m) (i + 1) (by rw [List.length_take]; omega)
          (fun a ha => hS' a (List.mem_of_mem_take ha))
        obtain ⟨F2, y, h2⟩ := IH (n - 1) (by omega) (l'.drop m) x.2 (by rw [List.length_drop]; omega)
          (fun a ha => hS' a (List.mem_of_mem_drop ha))
        refine ⟨max (max F1 F2) (l.length + 1) + 1, (x.1 ++ y.1, y.2), fun f hf => ?_⟩
        obtain ⟨f, rfl⟩ : ∃ g, f = g + 1 := ⟨f - 1, by omega⟩
        rw [unfoldS, hget]
        dsimp only
        rw [if_neg hsd, partLoop_mono e (by omega), Run.bind_ok, ← hm, h1 f (by omega), Run.bind_ok, h2 f (by omega),
          Run.bind_ok]

/-- C41, partial: with a fair rand() sort terminates on every list of strings and on every NaN-free list of numbers.
(Full statement: for every stream — refuted above.) -/
theorem C41_fair_terminates_partial (r : Nat → Nat) (hr : FairRand r) (i : Nat) (vs : List Val)
    (hvs : AllStr vs ∨ ∀ v ∈ vs, v.RealNumber) :
    ∃ F res, ∀ f ≥ F, listSort r f i vs = some (.ok res) := by
  have hs : ∃ F res, ∀ f ≥ F, sortC r f i vs = some (.ok res) := by
    rcases hvs with h | h
    · exact sortC_terminates transOn_str hr _ vs i (le_refl _) h
    · exact sortC_terminates transOn_num hr _ vs i (le_refl _) h
  rcases sortType_spec .empty vs with ⟨t', e, h1, h2⟩ | ⟨e, h1, h2⟩
  · by_cases ht : t' = .empty
    · refine ⟨0, (vs, i), fun f _ => ?_⟩
      simp [listSort, e, ht]
    · obtain ⟨F, res, h⟩ := hs
      refine ⟨F, res, fun f hf => ?_⟩
      rw [listSort, e, Run.bind_ok, if_pos ht, h f hf]
  · exfalso
    rcases hvs with h | h
    · exact h1 ⟨by simp, h⟩
    · exact h2 ⟨by simp, fun v hv => (h v hv).1⟩

/-- Case: a fair stream exists. -/
example : ∃ r, FairRand r := by
  refine ⟨fun k => k, fun n j i hj => ⟨i * n + j, ?_, ?_⟩⟩
  · have : i * 1 ≤ i * n := Nat.mul_le_mul_left i (by omega)
    omega
  · rw [Nat.mul_add_mod', Nat.mod_eq_of_lt hj]

end Yasl
