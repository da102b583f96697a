import Verif.Proofs.Value
import Mathlib.Tactic.Linarith
/-! # C21–C26: equality, ordering, truthiness and integer arithmetic of primitive values -/
namespace Yasl

/-- A value is a number. -/
def Val.IsNumber (v : Val) : Prop := (∃ i, v = .int i) ∨ ∃ b, v = .float b
/-- A value is the float NaN. -/
def Val.IsNaN (v : Val) : Prop := ∃ b, v = .float b ∧ fnan b = true
/-- The value is one of the types for which `==` is decided without calling a method. -/
def Val.Primitive : Val → Prop
  | .undef | .float _ | .int _ | .bool _ | .str _ | .userptr _ => True
  | _ => False

/-- `a == b` evaluates to `true`. -/
def EqTrue (F : FloatOps) (a b : Val) : Prop := binOp F .eq a b = .val (.bool true)
/-- `a < b` evaluates to `true`. -/
def LtTrue (F : FloatOps) (a b : Val) : Prop := binOp F .lt a b = .val (.bool true)
/-- `a <= b` evaluates to `true`. -/
def LeTrue (F : FloatOps) (a b : Val) : Prop := binOp F .le a b = .val (.bool true)
/-- `a > b` evaluates to `true`. -/
def GtTrue (F : FloatOps) (a b : Val) : Prop := binOp F .gt a b = .val (.bool true)
/-- `a >= b` evaluates to `true`. -/
def GeTrue (F : FloatOps) (a b : Val) : Prop := binOp F .ge a b = .val (.bool true)

/-! ## C21 -/

theorem eqTrue_iff (F : FloatOps) {a b : Val} (ha : a.Primitive) : EqTrue F a b ↔ isEqual a b = true := by
  unfold EqTrue
  cases a <;> simp [Val.Primitive] at ha <;> cases b <;> simp [binOp]

/-- C21: `==` is symmetric. -/
theorem C21_eq_symm (F : FloatOps) (a b : Val) (ha : a.Primitive) (hb : b.Primitive) : EqTrue F a b ↔ EqTrue F b a := by
  rw [eqTrue_iff F ha, eqTrue_iff F hb, isEqual_comm]

/-- a float and an int that are equal -/
example (F : FloatOps) : EqTrue F (.float 0x4008000000000000#64) (.int 3#64) :=
  (C21_eq_symm F (.int 3#64) (.float 0x4008000000000000#64) trivial trivial).1 (by rw [eqTrue_iff F (by simp [Val.Primitive])]; decide +kernel)

/-- C21: `==` is reflexive on every primitive value except NaN; NaN equals nothing. -/
theorem C21_eq_refl (F : FloatOps) (a : Val) (ha : a.Primitive) : EqTrue F a a ↔ ¬ a.IsNaN := by
  rw [eqTrue_iff F ha]
  cases a <;> simp_all [Val.Primitive, isEqual, Val.IsNaN, strCmp_eq_zero, Val.isNum, Val.getNum, feq]

example (F : FloatOps) : EqTrue F (.float 0x8000000000000000#64) (.float 0x8000000000000000#64) ∧ ¬ EqTrue F (.float 0x7FF8000000000001#64) (.float 0x7FF8000000000001#64) :=
  ⟨(C21_eq_refl F (.float _) trivial).2 (by rintro ⟨x, h, h2⟩; cases h; exact absurd h2 (by decide +kernel)), fun h => (C21_eq_refl F (.float _) trivial).1 h ⟨_, rfl, by decide +kernel⟩⟩

theorem C21_nan_unequal (F : FloatOps) (a b : Val) (ha : a.IsNaN) (hb : b.Primitive) :
    binOp F .eq a b = .val (.bool false) ∧ binOp F .eq b a = .val (.bool false) := by
  obtain ⟨x, rfl, hx⟩ := ha
  cases b <;> simp [Val.Primitive] at hb <;> simp [binOp, isEqual, Val.isNum, Val.getNum, feq, hx]

example (F : FloatOps) := C21_nan_unequal F (.float 0xFFF8000000000000#64) (.str [1#8]) ⟨_, rfl, by decide +kernel⟩ trivial

/-- C21: `==` is transitive among values of one type (`a` and `c` of the type of `b`). -/
theorem C21_eq_trans (F : FloatOps) (a b c : Val) (ha : a.Primitive) (hab : a.tag = b.tag) (hbc : b.tag = c.tag)
    (h1 : EqTrue F a b) (h2 : EqTrue F b c) : EqTrue F a c := by
  have hb : b.Primitive := by
    cases a <;> simp only [Val.Primitive] at ha <;> cases b <;> simp [Val.tag] at hab <;> trivial
  rw [eqTrue_iff F ha] at *
  rw [eqTrue_iff F hb] at h2
  cases a <;> cases b <;> simp [Val.tag] at hab <;> cases c <;> simp [Val.tag] at hbc <;>
    simp_all [isEqual, strCmp_eq_zero, Val.isNum, Val.getNum, feq, Val.Primitive]

/-- 0.0, -0.0 and 0.0 -/
example (F : FloatOps) := C21_eq_trans F (.float 0#64) (.float 0x8000000000000000#64) (.float 0#64) trivial rfl rfl
  (by rw [eqTrue_iff F (by simp [Val.Primitive])]; decide +kernel) (by rw [eqTrue_iff F (by simp [Val.Primitive])]; decide +kernel)

/-- C21: values of different types are equal only if both are numbers. -/
theorem C21_eq_cross_type (F : FloatOps) (a b : Val) (ha : a.Primitive) (h : EqTrue F a b) :
    a.tag = b.tag ∨ (a.IsNumber ∧ b.IsNumber) := by
  rw [eqTrue_iff F ha] at h
  cases a <;> simp [Val.Primitive] at ha <;> cases b <;>
    simp_all [isEqual, Val.isNum, Val.tag, Val.IsNumber]

example : Val.Primitive (.str [1#8]) ∧ ¬ Val.IsNaN (.str [1#8]) := by simp [Val.Primitive, Val.IsNaN]

/-! ## C22 -/

/-- C22 is false: with f = 2^53 as a float, `2^53 == f` and `f == 2^53 + 1`, but `2^53 != 2^53 + 1`. -/
theorem C22_mixed_not_transitive (F : FloatOps) :
    ∃ a b c : Val, a.IsNumber ∧ b.IsNumber ∧ c.IsNumber ∧ EqTrue F a b ∧ EqTrue F b c ∧ ¬ EqTrue F a c := by
  refine ⟨.int 9007199254740992#64, .float 0x4340000000000000#64, .int 9007199254740993#64,
    .inl ⟨_, rfl⟩, .inr ⟨_, rfl⟩, .inl ⟨_, rfl⟩, ?_, ?_, ?_⟩
  · rw [eqTrue_iff F (by simp [Val.Primitive])]; decide +kernel
  · rw [eqTrue_iff F (by simp [Val.Primitive])]; decide +kernel
  · rw [eqTrue_iff F (by simp [Val.Primitive])]; decide +kernel

/-- The int operand, if it is one, is at most 2^53 in absolute value. -/
def Val.SmallInt : Val → Prop
  | .int i => i.toInt.natAbs ≤ 2 ^ 53
  | _ => True

theorem num_exact {a b : Val} (ha : a.IsNumber) (hb : b.IsNumber) (sa : a.SmallInt) (sb : b.SmallInt) :
    isEqual a b = feq a.getNum b.getNum := by
  rcases ha with ⟨i, rfl⟩ | ⟨x, rfl⟩ <;> rcases hb with ⟨j, rfl⟩ | ⟨y, rfl⟩ <;> simp [isEqual, Val.isNum, Val.getNum]
  obtain ⟨n1, v1⟩ := intToFloat_exact i sa
  obtain ⟨n2, v2⟩ := intToFloat_exact j sb
  simp only [feq, n1, n2, v1, v2]
  rw [Bool.eq_iff_iff]
  simp only [beq_iff_eq, Bool.not_false, Bool.true_and]
  constructor
  · rintro rfl; rfl
  · intro h
    exact BitVec.eq_of_toInt_eq (Int.eq_of_mul_eq_mul_right (by positivity) h)

/-- C22, restricted: equality of numbers is transitive as long as the ints involved are at most 2^53 in absolute
value.  (Full statement: for all numbers — refuted above.) -/
theorem C22_mixed_transitive_partial (F : FloatOps) (a b c : Val) (ha : a.IsNumber) (hb : b.IsNumber) (hc : c.IsNumber)
    (sa : a.SmallInt) (sb : b.SmallInt) (sc : c.SmallInt) (h1 : EqTrue F a b) (h2 : EqTrue F b c) : EqTrue F a c := by
  have prim : ∀ v : Val, v.IsNumber → v.Primitive := by
    rintro v (⟨i, rfl⟩ | ⟨x, rfl⟩) <;> simp [Val.Primitive]
  rw [eqTrue_iff F (prim _ ha)] at *
  rw [eqTrue_iff F (prim _ hb)] at h2
  rw [num_exact ha hb sa sb] at h1
  rw [num_exact hb hc sb sc] at h2
  rw [num_exact ha hc sa sc]
  simp_all [feq]

example (F : FloatOps) : EqTrue F (.int 3#64) (.float 0x4008000000000000#64) ∧ Val.SmallInt (.int 3#64) := by
  constructor
  · rw [eqTrue_iff F (by simp [Val.Primitive])]; decide +kernel
  · show (3#64).toInt.natAbs ≤ 2 ^ 53; decide

/-! ## C23 -/

/-- C23: the comparison result is 0 exactly for equal contents … -/
theorem C23_cmp_zero (a b : List Byte) : strCmp a b = 0 ↔ a = b := strCmp_eq_zero

/-- … negative exactly when `a` precedes `b` lexicographically by unsigned bytes … -/
theorem C23_cmp_lex (a b : List Byte) : strCmp a b < 0 ↔ List.Lex (fun x y : Byte => x.toNat < y.toNat) a b := strCmp_neg

/-- … and antisymmetric: swapping the operands negates it. -/
theorem C23_cmp_antisymm (a b : List Byte) : strCmp b a = - strCmp a b := strCmp_swap a b

theorem lex_trans {a b c : List Byte} (h1 : strCmp a b < 0) (h2 : strCmp b c < 0) : strCmp a c < 0 := by
  rw [strCmp_neg] at *
  induction h1 generalizing c with
  | nil => cases h2 <;> exact List.Lex.nil
  | cons h ih =>
    cases h2 with
    | cons h2 => exact List.Lex.cons (ih h2)
    | rel h2 => exact List.Lex.rel h2
  | rel h =>
    cases h2 with
    | cons h2 => exact List.Lex.rel h
    | rel h2 => exact List.Lex.rel (BitVec.lt_trans h h2)

/-- C23: `<=` on strings is transitive and total. -/
theorem C23_le_trans (F : FloatOps) (a b c : List Byte) (h1 : LeTrue F (.str a) (.str b)) (h2 : LeTrue F (.str b) (.str c)) :
    LeTrue F (.str a) (.str c) := by
  simp only [LeTrue, binOp, compOp, OpRes.val.injEq, Val.bool.injEq, decide_eq_true_eq] at *
  rcases Int.lt_or_eq_of_le h1 with h1 | h1
  · rcases Int.lt_or_eq_of_le h2 with h2 | h2
    · exact Int.le_of_lt (lex_trans h1 h2)
    · rw [strCmp_eq_zero] at h2; subst h2; omega
  · rw [strCmp_eq_zero] at h1; subst h1; exact h2

/-- "a", "a\xff" and "b" -/
example (F : FloatOps) : LeTrue F (.str [97#8]) (.str [98#8]) := C23_le_trans F [97#8] [97#8, 255#8] [98#8] (by rfl) (by rfl)

theorem C23_le_total (F : FloatOps) (a b : List Byte) : LeTrue F (.str a) (.str b) ∨ LeTrue F (.str b) (.str a) := by
  simp only [LeTrue, binOp, compOp, OpRes.val.injEq, Val.bool.injEq, decide_eq_true_eq]
  have := strCmp_swap a b
  omega

/-- C23: the five operators on strings are decided by lexicographic order and equality of contents. -/
theorem C23_operators (F : FloatOps) (a b : List Byte) :
    (LtTrue F (.str a) (.str b) ↔ List.Lex (fun x y : Byte => x.toNat < y.toNat) a b) ∧
    (GtTrue F (.str a) (.str b) ↔ List.Lex (fun x y : Byte => x.toNat < y.toNat) b a) ∧
    (LeTrue F (.str a) (.str b) ↔ a = b ∨ List.Lex (fun x y : Byte => x.toNat < y.toNat) a b) ∧
    (GeTrue F (.str a) (.str b) ↔ a = b ∨ List.Lex (fun x y : Byte => x.toNat < y.toNat) b a) ∧
    (EqTrue F (.str a) (.str b) ↔ a = b) := by
  have hs := strCmp_swap a b
  have h1 : strCmp a b < 0 ↔ List.Lex (fun x y : Byte => x.toNat < y.toNat) a b := strCmp_neg
  have h2 : strCmp b a < 0 ↔ List.Lex (fun x y : Byte => x.toNat < y.toNat) b a := strCmp_neg
  have h0 : strCmp a b = 0 ↔ a = b := strCmp_eq_zero
  refine ⟨?_, ?_, ?_, ?_, ?_⟩ <;>
    simp only [LtTrue, GtTrue, LeTrue, GeTrue, EqTrue, binOp, compOp, isEqual, OpRes.val.injEq, Val.bool.injEq,
      decide_eq_true_eq, beq_iff_eq] <;> (try rw [← h0]) <;> (try rw [← h1]) <;> (try rw [← h2]) <;> omega

example : strCmp [97#8, 255#8] [97#8] = 1 ∧ strCmp [128#8] [127#8, 1#8] = 1 ∧ strCmp [] [0#8] = -1 := by decide +kernel

/-! ## C24 -/

/-- C24: comparisons of ints agree with the mathematical order. -/
theorem C24_int_order (F : FloatOps) (a b : BitVec 64) :
    (LtTrue F (.int a) (.int b) ↔ a.toInt < b.toInt) ∧ (LeTrue F (.int a) (.int b) ↔ a.toInt ≤ b.toInt) ∧
    (GtTrue F (.int a) (.int b) ↔ a.toInt > b.toInt) ∧ (GeTrue F (.int a) (.int b) ↔ a.toInt ≥ b.toInt) ∧
    (EqTrue F (.int a) (.int b) ↔ a.toInt = b.toInt) := by
  simp [LtTrue, LeTrue, GtTrue, GeTrue, EqTrue, binOp, compOp, isEqual, BitVec.toInt_inj]

/-- C24: comparisons of floats agree with the order of their (exact) values, when neither is NaN. -/
theorem C24_float_order (F : FloatOps) (a b : BitVec 64) (ha : fnan a = false) (hb : fnan b = false) :
    (LtTrue F (.float a) (.float b) ↔ fval a < fval b) ∧ (LeTrue F (.float a) (.float b) ↔ fval a ≤ fval b) ∧
    (GtTrue F (.float a) (.float b) ↔ fval a > fval b) ∧ (GeTrue F (.float a) (.float b) ↔ fval a ≥ fval b) ∧
    (EqTrue F (.float a) (.float b) ↔ fval a = fval b) := by
  simp [LtTrue, LeTrue, GtTrue, GeTrue, EqTrue, binOp, compOp, isEqual, Val.isNum, Val.getNum, flt_iff, fle_iff, feq_iff, ha, hb]

/-- 1.0 and infinity -/
example (F : FloatOps) := C24_float_order F 0x3FF0000000000000#64 0x7FF0000000000000#64 (by decide +kernel) (by decide +kernel)

/-- C24: mixed comparisons are exact for ints up to 2^53. -/
theorem C24_mixed_order (F : FloatOps) (i : BitVec 64) (b : BitVec 64) (hi : i.toInt.natAbs ≤ 2 ^ 53) (hb : fnan b = false) :
    (LtTrue F (.int i) (.float b) ↔ i.toInt * 2 ^ 1074 < fval b) ∧
    (LeTrue F (.int i) (.float b) ↔ i.toInt * 2 ^ 1074 ≤ fval b) ∧
    (GtTrue F (.int i) (.float b) ↔ i.toInt * 2 ^ 1074 > fval b) ∧
    (GeTrue F (.int i) (.float b) ↔ i.toInt * 2 ^ 1074 ≥ fval b) ∧
    (EqTrue F (.int i) (.float b) ↔ i.toInt * 2 ^ 1074 = fval b) := by
  obtain ⟨hn, hv⟩ := intToFloat_exact i hi
  simp only [LtTrue, LeTrue, GtTrue, GeTrue, EqTrue, binOp, compOp, isEqual, Val.isNum, Val.getNum, flt_iff, fle_iff, feq_iff, hn,
    hb, hv, Bool.and_self, if_true, OpRes.val.injEq, Val.bool.injEq, and_self, true_and, gt_iff_lt, ge_iff_le]

/-- -2^53 and -infinity -/
example (F : FloatOps) := C24_mixed_order F (BitVec.ofInt 64 (-2 ^ 53)) 0xFFF0000000000000#64 (by decide +kernel) (by decide +kernel)

/-- C24: for all numbers, `a <= b` iff `a < b` or `a == b`; `a > b` iff `b < a`; `a >= b` iff `b <= a`. -/
theorem C24_coherent (F : FloatOps) (a b : Val) (ha : a.IsNumber) (hb : b.IsNumber) :
    (LeTrue F a b ↔ LtTrue F a b ∨ EqTrue F a b) ∧ (GtTrue F a b ↔ LtTrue F b a) ∧ (GeTrue F a b ↔ LeTrue F b a) := by
  rcases ha with ⟨i, rfl⟩ | ⟨x, rfl⟩ <;> rcases hb with ⟨j, rfl⟩ | ⟨y, rfl⟩ <;>
    simp [LtTrue, LeTrue, GtTrue, GeTrue, EqTrue, binOp, compOp, isEqual, Val.isNum, Val.getNum, flt_iff, fle_iff, feq_iff,
      Int.le_iff_lt_or_eq, BitVec.toInt_inj, and_or_left]

example (F : FloatOps) := C24_coherent F (.int 3#64) (.float 0x7FF8000000000000#64) (.inl ⟨_, rfl⟩) (.inr ⟨_, rfl⟩)

/-- C24: exactly one of `<`, `==`, `>` holds between numbers that are not NaN. -/
theorem C24_trichotomy (F : FloatOps) (a b : Val) (ha : a.IsNumber) (hb : b.IsNumber)
    (na : fnan a.getNum = false) (nb : fnan b.getNum = false) :
    (LtTrue F a b ∧ ¬ EqTrue F a b ∧ ¬ GtTrue F a b) ∨ (¬ LtTrue F a b ∧ EqTrue F a b ∧ ¬ GtTrue F a b) ∨
    (¬ LtTrue F a b ∧ ¬ EqTrue F a b ∧ GtTrue F a b) := by
  rcases ha with ⟨i, rfl⟩ | ⟨x, rfl⟩ <;> rcases hb with ⟨j, rfl⟩ | ⟨y, rfl⟩ <;>
    simp only [Val.getNum] at na nb <;>
    simp only [LtTrue, GtTrue, EqTrue, binOp, compOp, isEqual, Val.isNum, Val.getNum, flt_iff, feq_iff,
      na, nb, Bool.and_self, if_true, true_and, OpRes.val.injEq, Val.bool.injEq, decide_eq_true_eq,
      beq_iff_eq, gt_iff_lt, ← BitVec.toInt_inj] <;> omega

example (F : FloatOps) := C24_trichotomy F (.int 3#64) (.float 0x4008000000000000#64) (.inl ⟨_, rfl⟩) (.inr ⟨_, rfl⟩) (by decide +kernel) (by decide +kernel)

/-- C24: every comparison with NaN is false. -/
theorem C24_nan_false (F : FloatOps) (a b : Val) (ha : a.IsNumber) (hb : b.IsNumber) (h : a.IsNaN ∨ b.IsNaN) :
    binOp F .lt a b = .val (.bool false) ∧ binOp F .le a b = .val (.bool false) ∧ binOp F .gt a b = .val (.bool false) ∧
    binOp F .ge a b = .val (.bool false) ∧ binOp F .eq a b = .val (.bool false) := by
  rcases h with ⟨x, rfl, hx⟩ | ⟨x, rfl, hx⟩
  · rcases hb with ⟨j, rfl⟩ | ⟨y, rfl⟩ <;>
      simp [binOp, compOp, isEqual, Val.isNum, Val.getNum, flt, fle, feq, hx]
  · rcases ha with ⟨j, rfl⟩ | ⟨y, rfl⟩ <;>
      simp [binOp, compOp, isEqual, Val.isNum, Val.getNum, flt, fle, feq, hx]

/-- NaN exists, and so do ordered numbers. -/
example : Val.IsNaN (.float 0x7FF8000000000000#64) := ⟨_, rfl, by decide +kernel⟩
example : fval 0x3FF0000000000000#64 = 2 ^ 1074 ∧ fval 0xBFF0000000000000#64 < 0 ∧
    fval 0x7FEFFFFFFFFFFFFF#64 < fval 0x7FF0000000000000#64 := by decide +kernel

/-! ## C25 -/

/-- C25: exactly undef, false, the empty string and NaN are falsey. -/
theorem C25_falsey_iff (v : Val) :
    v.falsey = true ↔ v = .undef ∨ v = .bool false ∨ v = .str [] ∨ v.IsNaN := by
  cases v <;> simp [Val.falsey, Val.IsNaN, feq]

/-- C25: `!v` is the boolean "v is falsey". -/
theorem C25_not (v : Val) :
    unOp .not v = .val (.bool true) ∧ (v = .undef ∨ v = .bool false ∨ v = .str [] ∨ v.IsNaN) ∨
    unOp .not v = .val (.bool false) ∧ ¬ (v = .undef ∨ v = .bool false ∨ v = .str [] ∨ v.IsNaN) := by
  rw [← C25_falsey_iff]
  simp only [unOp]
  cases v.falsey <;> simp

/-- C25: every int, including 0, is truthy. -/
theorem C25_int_truthy (i : BitVec 64) : (Val.int i).falsey = false := rfl

/-! ## C26 -/

theorem ofIntChecked_fits {x : Int} (h : -2 ^ 63 ≤ x ∧ x < 2 ^ 63) :
    ∃ r : BitVec 64, ofIntChecked x = .val (.int r) ∧ r.toInt = x := by
  refine ⟨BitVec.ofInt 64 x, by rw [ofIntChecked, if_pos h], ?_⟩
  rw [BitVec.toInt_ofInt, Int.bmod_eq_of_le] <;> simp <;> omega

/-- `x` is representable as an int. -/
def FitsInt64 (x : Int) : Prop := -2 ^ 63 ≤ x ∧ x < 2 ^ 63

/-- C26: `+ - *` and unary `-` return the exact result whenever it fits in 64 bits (otherwise: undefined behaviour). -/
theorem C26_add_sub_mul (F : FloatOps) (a b : BitVec 64) :
    (FitsInt64 (a.toInt + b.toInt) → ∃ r, binOp F .add (.int a) (.int b) = .val (.int r) ∧ r.toInt = a.toInt + b.toInt) ∧
    (FitsInt64 (a.toInt - b.toInt) → ∃ r, binOp F .sub (.int a) (.int b) = .val (.int r) ∧ r.toInt = a.toInt - b.toInt) ∧
    (FitsInt64 (a.toInt * b.toInt) → ∃ r, binOp F .mul (.int a) (.int b) = .val (.int r) ∧ r.toInt = a.toInt * b.toInt) ∧
    (FitsInt64 (- a.toInt) → ∃ r, unOp .neg (.int a) = .val (.int r) ∧ r.toInt = - a.toInt) :=
  ⟨ofIntChecked_fits, ofIntChecked_fits, ofIntChecked_fits, ofIntChecked_fits⟩

example (F : FloatOps) := (C26_add_sub_mul F (BitVec.ofInt 64 (-2 ^ 62)) 2#64).2.2.1 (by unfold FitsInt64; decide +kernel)

/-- C26: overflow is undefined behaviour, not wrap-around. -/
theorem C26_overflow_ub (F : FloatOps) (a b : BitVec 64) (h : ¬ FitsInt64 (a.toInt + b.toInt)) :
    binOp F .add (.int a) (.int b) = .ub := by
  simp only [binOp, numBinop, ofIntChecked]; exact if_neg h

example (F : FloatOps) := C26_overflow_ub F 0x7FFFFFFFFFFFFFFF#64 1#64 (by unfold FitsInt64; decide +kernel)

/-- C26: `//` truncates toward zero, `%` is its remainder: whenever `b` is not 0 and the pair is not
(INT64_MIN, -1), both return, `a == (a//b)*b + a%b`, `|a%b| < |b|` and `a%b` has the sign of `a` (or is 0). -/
theorem C26_div_mod (F : FloatOps) (a b : BitVec 64) (hb : b.toInt ≠ 0) (hov : ¬ (a.toInt = -2 ^ 63 ∧ b.toInt = -1)) :
    ∃ q r, binOp F .idiv (.int a) (.int b) = .val (.int q) ∧ binOp F .mod (.int a) (.int b) = .val (.int r) ∧
      a.toInt = q.toInt * b.toInt + r.toInt ∧ r.toInt.natAbs < b.toInt.natAbs ∧
      (0 ≤ a.toInt → 0 ≤ r.toInt) ∧ (a.toInt ≤ 0 → r.toInt ≤ 0) := by
  have hb0 : ¬ (Val.int b = Val.int 0) := by
    intro h; injection h with h; subst h; exact hb rfl
  have ha1 := BitVec.le_toInt (x := a); have ha2 := BitVec.toInt_lt (x := a)
  have hb1 := BitVec.le_toInt (x := b); have hb2 := BitVec.toInt_lt (x := b)
  simp only [Nat.add_one_sub_one] at ha1 ha2 hb1 hb2
  generalize hA : a.toInt = A at *
  generalize hB : b.toInt = B at *
  have hdm : B * A.tdiv B + A.tmod B = A := Int.mul_tdiv_add_tmod A B
  have hmlt : (A.tmod B).natAbs < B.natAbs := by
    rw [Int.natAbs_tmod]; exact Nat.mod_lt _ (by omega)
  have hs1 : 0 ≤ A → 0 ≤ A.tmod B := fun h => Int.tmod_nonneg B h
  have hs2 : A ≤ 0 → A.tmod B ≤ 0 := fun h => by
    have h' := Int.tmod_nonneg B (a := -A) (by omega)
    rw [Int.neg_tmod] at h'; omega
  have hqabs : (A.tdiv B).natAbs = A.natAbs / B.natAbs := Int.natAbs_tdiv A B
  have hdivle : A.natAbs / B.natAbs ≤ A.natAbs := Nat.div_le_self _ _
  have hqf : FitsInt64 (A.tdiv B) := by
    constructor
    · omega
    · by_contra hc
      have h63 : A.tdiv B = 2 ^ 63 := by omega
      have hA' : A.natAbs = 2 ^ 63 := by omega
      have hAn : A = -2 ^ 63 := by omega
      have hB1 : B.natAbs = 1 := by
        by_contra hne
        have : 2 ≤ B.natAbs := by omega
        have : A.natAbs / B.natAbs ≤ A.natAbs / 2 := Nat.div_le_div_left this (by decide)
        omega
      have hBn : B = 1 ∨ B = -1 := by omega
      rcases hBn with rfl | rfl
      · rw [Int.tdiv_one] at h63; omega
      · exact hov ⟨hAn, rfl⟩
  obtain ⟨q, hq, hqi⟩ := ofIntChecked_fits hqf
  obtain ⟨r, hr, hri⟩ := ofIntChecked_fits (x := A.tmod B) (by omega)
  refine ⟨q, r, ?_, ?_, ?_, ?_, ?_, ?_⟩
  · simp only [binOp, hb0, if_false, intBinop, hA, hB, hq]
  · simp only [binOp, hb0, if_false, intBinop, hA, hB, hov, hr]
  · rw [hqi, hri, Int.mul_comm]; exact hdm.symm
  · rw [hri]; exact hmlt
  · rw [hri]; exact hs1
  · rw [hri]; exact hs2

example (F : FloatOps) := C26_div_mod F (BitVec.ofInt 64 (-2 ^ 63)) (BitVec.ofInt 64 (-3)) (by decide +kernel) (by decide +kernel)

/-- C26: division and modulo by zero raise DivisionByZero, whatever the left operand. -/
theorem C26_div_zero (F : FloatOps) (a : Val) :
    binOp F .idiv a (.int 0) = .divZero ∧ binOp F .mod a (.int 0) = .divZero := by
  simp [binOp]

/-- C26: INT64_MIN // -1 is undefined behaviour. -/
theorem C26_min_div_neg_one (F : FloatOps) :
    binOp F .idiv (.int 0x8000000000000000#64) (.int 0xFFFFFFFFFFFFFFFF#64) = .ub ∧
    binOp F .mod (.int 0x8000000000000000#64) (.int 0xFFFFFFFFFFFFFFFF#64) = .ub := by
  constructor <;> rfl

/-- C26: the bitwise operators act bit by bit. -/
theorem C26_bitwise (F : FloatOps) (a b : BitVec 64) :
    ∃ o x n d c : BitVec 64,
      binOp F .bor (.int a) (.int b) = .val (.int o) ∧ binOp F .bxor (.int a) (.int b) = .val (.int x) ∧
      binOp F .band (.int a) (.int b) = .val (.int n) ∧ binOp F .bandnot (.int a) (.int b) = .val (.int d) ∧
      unOp .bnot (.int a) = .val (.int c) ∧
      ∀ k < 64, o.getLsbD k = (a.getLsbD k || b.getLsbD k) ∧ x.getLsbD k = (a.getLsbD k ^^ b.getLsbD k) ∧
        n.getLsbD k = (a.getLsbD k && b.getLsbD k) ∧ d.getLsbD k = (a.getLsbD k && !b.getLsbD k) ∧
        c.getLsbD k = !a.getLsbD k := by
  refine ⟨_, _, _, _, _, rfl, rfl, rfl, rfl, rfl, ?_⟩
  intro k hk
  simp [hk]

/-- C26: `>>` by 0..63 is floor division by a power of two; `<<` by 0..63 of a non-negative int is multiplication when
the result fits. -/
theorem C26_shifts (F : FloatOps) (a b : BitVec 64) (h0 : 0 ≤ b.toInt) (h1 : b.toInt < 64) :
    (∃ r, binOp F .shr (.int a) (.int b) = .val (.int r) ∧ r.toInt = a.toInt / 2 ^ b.toNat) ∧
    (0 ≤ a.toInt → FitsInt64 (a.toInt * 2 ^ b.toNat) →
      ∃ r, binOp F .shl (.int a) (.int b) = .val (.int r) ∧ r.toInt = a.toInt * 2 ^ b.toNat) := by
  constructor
  · have hf : FitsInt64 (a.toInt / 2 ^ b.toNat) := by
      have ha1 := BitVec.le_toInt (x := a); have ha2 := BitVec.toInt_lt (x := a)
      simp only [Nat.add_one_sub_one] at ha1 ha2
      have hp : (0 : Int) < 2 ^ b.toNat := by positivity
      have hp1 : (1 : Int) ≤ 2 ^ b.toNat := hp
      constructor
      · rw [Int.le_ediv_iff_mul_le hp]; nlinarith
      · rw [Int.ediv_lt_iff_lt_mul hp]; nlinarith
    obtain ⟨r, hr, hri⟩ := ofIntChecked_fits hf
    refine ⟨r, ?_, hri⟩
    simp only [binOp, intBinop, intShr, h0, h1, and_self, if_true]
    simp only [ofIntChecked] at hr
    rw [if_pos (show _ ∧ _ from hf)] at hr
    exact hr
  · intro ha hf
    obtain ⟨r, hr, hri⟩ := ofIntChecked_fits hf
    exact ⟨r, by simp only [binOp, intBinop, intShl, h0, h1, ha, and_self, if_true, hr], hri⟩

example (F : FloatOps) := (C26_shifts F 5#64 60#64 (by decide +kernel) (by decide +kernel)).2 (by decide +kernel) (by unfold FitsInt64; decide +kernel)

/-- C26: shift counts outside 0..63 are undefined behaviour. -/
theorem C26_shift_ub (F : FloatOps) (a b : BitVec 64) (h : b.toInt < 0 ∨ 64 ≤ b.toInt) :
    binOp F .shr (.int a) (.int b) = .ub ∧ binOp F .shl (.int a) (.int b) = .ub := by
  have h1 : ¬ (0 ≤ b.toInt ∧ b.toInt < 64) := by omega
  have h2 : ¬ (0 ≤ b.toInt ∧ b.toInt < 64 ∧ 0 ≤ a.toInt) := by omega
  simp only [binOp, intBinop, intShr, intShl, h1, h2, if_false, and_self]

example (F : FloatOps) : binOp F .idiv (.int (-7#64)) (.int 2#64) = .val (.int (-3#64)) ∧
    binOp F .mod (.int (-7#64)) (.int 2#64) = .val (.int (-1#64)) := by constructor <;> rfl

end Yasl
