import Verif.Model.Ops
import Mathlib.Order.Basic
import Mathlib.Tactic.Ring
import Mathlib.Data.List.Lex
import Mathlib.Tactic.Positivity
/-! Helper lemmas about values. -/
namespace Yasl

/-- recursive characterisation of the C code -/
theorem strCmp_nil_nil : strCmp [] [] = 0 := by simp [strCmp, memcmp]
theorem strCmp_nil_cons (b : Byte) (bs : List Byte) : strCmp [] (b :: bs) = -1 := by simp [strCmp, memcmp]
theorem strCmp_cons_nil (b : Byte) (bs : List Byte) : strCmp (b :: bs) [] = 1 := by simp [strCmp, memcmp]
theorem strCmp_cons_cons (a b : Byte) (as bs : List Byte) :
    strCmp (a :: as) (b :: bs) = if a < b then -1 else if b < a then 1 else strCmp as bs := by
  simp only [strCmp, List.length_cons, Nat.add_right_cancel_iff, Nat.add_lt_add_iff_right, memcmp]
  split <;> split <;> (try split) <;> (try split) <;> simp_all

theorem strCmp_vals (a b : List Byte) : strCmp a b = -1 ∨ strCmp a b = 0 ∨ strCmp a b = 1 := by
  induction a generalizing b with
  | nil => cases b <;> simp [strCmp_nil_nil, strCmp_nil_cons]
  | cons x a ih =>
    cases b with
    | nil => simp [strCmp_cons_nil]
    | cons y b => rw [strCmp_cons_cons]; split; · simp
                  split; · simp
                  exact ih b

theorem strCmp_eq_zero {a b : List Byte} : strCmp a b = 0 ↔ a = b := by
  induction a generalizing b with
  | nil => cases b <;> simp [strCmp_nil_nil, strCmp_nil_cons]
  | cons x a ih =>
    cases b with
    | nil => simp [strCmp_cons_nil]
    | cons y b =>
      rw [strCmp_cons_cons]
      split
      · rename_i h; simp; rintro rfl; exact absurd h (BitVec.lt_irrefl _)
      · split
        · rename_i h; simp; rintro rfl; exact absurd h (BitVec.lt_irrefl _)
        · rename_i h1 h2
          have : x = y := BitVec.le_antisymm (BitVec.not_lt.1 h2) (BitVec.not_lt.1 h1)
          simp [this, ih]

theorem strCmp_neg {a b : List Byte} : strCmp a b < 0 ↔ List.Lex (· < ·) a b := by
  induction a generalizing b with
  | nil => cases b <;> simp [strCmp_nil_nil, strCmp_nil_cons]
  | cons x a ih =>
    cases b with
    | nil => simp [strCmp_cons_nil]
    | cons y b =>
      rw [strCmp_cons_cons]
      split
      · rename_i h; simp [List.Lex.rel h]
      · split
        · rename_i h1 h2
          simp only [List.cons_lex_cons_iff, h1, false_or]
          simp; rintro rfl; exact absurd h2 (BitVec.lt_irrefl _)
        · rename_i h1 h2
          have : x = y := BitVec.le_antisymm (BitVec.not_lt.1 h2) (BitVec.not_lt.1 h1)
          subst this
          simp [ih, List.cons_lex_cons_iff]

theorem strCmp_swap (a b : List Byte) : strCmp b a = - strCmp a b := by
  induction a generalizing b with
  | nil => cases b <;> simp [strCmp_nil_nil, strCmp_nil_cons, strCmp_cons_nil]
  | cons x a ih =>
    cases b with
    | nil => simp [strCmp_cons_nil, strCmp_nil_cons]
    | cons y b =>
      rw [strCmp_cons_cons, strCmp_cons_cons]
      by_cases h1 : x < y
      · have h2 : ¬ y < x := BitVec.not_lt.2 (BitVec.le_of_lt h1)
        simp [h1, h2]
      · by_cases h2 : y < x
        · simp [h1, h2]
        · simp [h1, h2, ih]

theorem flt_iff (a b : BitVec 64) : flt a b = true ↔ fnan a = false ∧ fnan b = false ∧ fval a < fval b := by
  simp [flt, and_assoc]
theorem fle_iff (a b : BitVec 64) : fle a b = true ↔ fnan a = false ∧ fnan b = false ∧ fval a ≤ fval b := by
  simp [fle, and_assoc]
theorem feq_iff (a b : BitVec 64) : feq a b = true ↔ fnan a = false ∧ fnan b = false ∧ fval a = fval b := by
  simp [feq, and_assoc]

theorem feq_comm (a b : BitVec 64) : feq a b = feq b a := by
  simp only [feq]; cases fnan a <;> cases fnan b <;> simp [Bool.beq_comm]

theorem isEqual_str (a b : List Byte) : isEqual (.str a) (.str b) = decide (a = b) := by
  simp only [isEqual]; rw [Bool.eq_iff_iff]; simp [strCmp_eq_zero]

/-- equality up to the type is symmetric -/
theorem isEqual_comm (a b : Val) : isEqual a b = isEqual b a := by
  cases a <;> cases b <;> first
    | rfl
    | (rw [isEqual_str, isEqual_str]; simp [eq_comm])
    | (simp only [isEqual, Val.isNum, Val.getNum, Bool.and_self, if_true]; first | exact feq_comm _ _ | exact Bool.beq_comm)

/-- a bit pattern split into its fields -/
theorem fields_ofNat {e m : Nat} (he : e < 2 ^ 11) (hm : m < 2 ^ 52) (s : Nat) (hs : s < 2) :
    (BitVec.ofNat 64 (s * 2 ^ 63 + (e * 2 ^ 52 + m))).toNat = s * 2 ^ 63 + (e * 2 ^ 52 + m) := by
  rw [BitVec.toNat_ofNat, Nat.mod_eq_of_lt]; omega

theorem fexp_ofNat {e m : Nat} (he : e < 2 ^ 11) (hm : m < 2 ^ 52) (s : Nat) (hs : s < 2) :
    fexp (BitVec.ofNat 64 (s * 2 ^ 63 + (e * 2 ^ 52 + m))) = e := by
  rw [fexp, fields_ofNat he hm s hs]; omega
theorem fman_ofNat {e m : Nat} (he : e < 2 ^ 11) (hm : m < 2 ^ 52) (s : Nat) (hs : s < 2) :
    fman (BitVec.ofNat 64 (s * 2 ^ 63 + (e * 2 ^ 52 + m))) = m := by
  rw [fman, fields_ofNat he hm s hs]; omega
theorem fneg_ofNat {e m : Nat} (he : e < 2 ^ 11) (hm : m < 2 ^ 52) (s : Nat) (hs : s < 2) :
    fneg (BitVec.ofNat 64 (s * 2 ^ 63 + (e * 2 ^ 52 + m))) = (s == 1) := by
  rw [fneg, fields_ofNat he hm s hs]
  have : (s * 2 ^ 63 + (e * 2 ^ 52 + m)) / 2 ^ 63 = s := by omega
  rw [this]

/-- a natural number up to 2^53 is represented exactly -/
theorem natToFloat_exact (n : Nat) (h0 : n ≠ 0) (h : n ≤ 2 ^ 53) :
    ∃ e m, natToFloatBits n = e * 2 ^ 52 + m ∧ 0 < e ∧ e < 2047 ∧ m < 2 ^ 52 ∧
      (2 ^ 52 + m) * 2 ^ (e - 1) = n * 2 ^ 1074 := by
  by_cases h53 : n = 2 ^ 53
  · subst h53
    refine ⟨1076, 0, by decide +kernel, by decide, by decide, by decide, ?_⟩
    rw [show (1076 : Nat) - 1 = 1075 by rfl, Nat.add_zero, ← pow_add, ← pow_add]
  · have hlog : n.log2 ≤ 52 := by
      have : n.log2 < 53 := (Nat.log2_lt h0).2 (by omega)
      omega
    have hlo : 2 ^ n.log2 ≤ n := Nat.log2_self_le h0
    have hhi : n < 2 ^ (n.log2 + 1) := Nat.lt_log2_self
    generalize hl : n.log2 = l at hlo hhi hlog
    have e52 : 2 ^ l * 2 ^ (52 - l) = 2 ^ 52 := by rw [← pow_add]; congr 1; omega
    have e53 : 2 ^ (l + 1) * 2 ^ (52 - l) = 2 ^ 53 := by rw [← pow_add]; congr 1; omega
    have hge : 2 ^ 52 ≤ n * 2 ^ (52 - l) := by rw [← e52]; exact Nat.mul_le_mul_right _ hlo
    have hlt : n * 2 ^ (52 - l) < 2 ^ 53 := by
      rw [← e53]; exact Nat.mul_lt_mul_of_pos_right hhi (by positivity)
    refine ⟨1023 + l, n * 2 ^ (52 - l) - 2 ^ 52, ?_, by omega, by omega, by omega, ?_⟩
    · simp only [natToFloatBits, h0, if_false, hl, hlog, if_true]
    · rw [Nat.add_sub_cancel' hge, Nat.mul_assoc, ← pow_add]
      congr 2; omega

theorem toInt_natAbs_lt (i : BitVec 64) : i.toInt.natAbs ≤ 2 ^ 63 := by
  have := BitVec.toInt_lt (x := i); have := BitVec.le_toInt (x := i); omega

theorem intToFloat_exact (i : BitVec 64) (h : i.toInt.natAbs ≤ 2 ^ 53) :
    fnan (intToFloat i) = false ∧ fval (intToFloat i) = i.toInt * 2 ^ 1074 := by
  by_cases h0 : i.toInt = 0
  · have : intToFloat i = 0#64 := by simp [intToFloat, h0, natToFloatBits]
    rw [this, h0]; decide +kernel
  · obtain ⟨e, m, hb, he0, he1, hm, hv⟩ := natToFloat_exact i.toInt.natAbs (by omega) h
    by_cases hneg : i.toInt < 0
    · have hi : intToFloat i = BitVec.ofNat 64 (1 * 2 ^ 63 + (e * 2 ^ 52 + m)) := by
        simp only [intToFloat, hneg, if_true, hb]; rfl
      have h1 := fexp_ofNat (by omega : e < 2 ^ 11) hm 1 (by decide)
      have h2 := fman_ofNat (by omega : e < 2 ^ 11) hm 1 (by decide)
      have h3 := fneg_ofNat (by omega : e < 2 ^ 11) hm 1 (by decide)
      rw [← hi] at h1 h2 h3
      constructor
      · simp only [fnan, h1]; simp; omega
      · have hne : e ≠ 0 := by omega
        simp only [fval, h3, beq_self_eq_true, if_true, fmag, h1, h2, hne, if_false]
        rw [hv, Nat.cast_mul, Nat.cast_pow, Nat.cast_ofNat]
        have : (i.toInt.natAbs : Int) = - i.toInt := by omega
        rw [this]; ring
    · have hi : intToFloat i = BitVec.ofNat 64 (0 * 2 ^ 63 + (e * 2 ^ 52 + m)) := by
        simp only [intToFloat, hneg, if_false, hb, Nat.zero_mul, Nat.zero_add]
      have h1 := fexp_ofNat (by omega : e < 2 ^ 11) hm 0 (by decide)
      have h2 := fman_ofNat (by omega : e < 2 ^ 11) hm 0 (by decide)
      have h3 := fneg_ofNat (by omega : e < 2 ^ 11) hm 0 (by decide)
      rw [← hi] at h1 h2 h3
      constructor
      · simp only [fnan, h1]; simp; omega
      · have hne : e ≠ 0 := by omega
        simp only [fval, h3, fmag, h1, h2, hne, if_false]
        rw [hv]
        simp only [show ((0 : Nat) == 1) = false from rfl, Bool.false_eq_true, if_false]
        rw [Nat.cast_mul, Nat.cast_pow, Nat.cast_ofNat]
        have : (i.toInt.natAbs : Int) = i.toInt := by omega
        rw [this]

end Yasl
