import Verif.Model.Varint
import Mathlib.Tactic.Ring
/-! # C18 — variable-width integers round-trip -/
namespace Yasl

theorem vint_low_bit (val : BitVec 64) (h : val ≤ 0x7F#64) : val.setWidth 8 &&& 0x80#8 = 0#8 := by
  have h' : val.toNat ≤ 127 := h
  have hv : val.setWidth 8 < 128#8 := by
    simp only [BitVec.lt_def, BitVec.toNat_setWidth]
    have : (128#8).toNat = 128 := rfl
    omega
  revert hv
  generalize val.setWidth 8 = b
  revert b; decide +kernel

theorem vint_high_bit (b : BitVec 8) : ¬ (b ||| 0x80#8) &&& 0x80#8 = 0#8 := by
  revert b; decide +kernel

theorem vint_mask (b : BitVec 8) (h : b < 128#8) : (b ||| 0x80#8) &&& 0x7F#8 = b := by
  revert b; decide +kernel

theorem vint_join (val : BitVec 64) :
    ((val &&& 0x7F#64).setWidth 8).setWidth 64 ||| ((val >>> 7) <<< 7) = val := by
  apply BitVec.eq_of_getLsbD_eq
  intro i hi
  simp only [BitVec.getLsbD_or, BitVec.getLsbD_setWidth, BitVec.getLsbD_and, BitVec.getLsbD_shiftLeft,
    BitVec.getLsbD_ushiftRight]
  by_cases h7 : i < 7
  · have : (0x7F#64).getLsbD i = true := by
      have : i = 0 ∨ i = 1 ∨ i = 2 ∨ i = 3 ∨ i = 4 ∨ i = 5 ∨ i = 6 := by omega
      rcases this with rfl | rfl | rfl | rfl | rfl | rfl | rfl <;> decide
    have h8 : i < 8 := by omega
    simp only [hi, h7, h8, this, decide_true, Bool.true_and, Bool.and_true, Bool.not_true, Bool.false_and, Bool.and_false, Bool.or_false]
  · have h8 : (decide (i < 8) && (0x7F#64).getLsbD i) = false := by
      by_cases h : i < 8
      · have : i = 7 := by omega
        subst this; decide
      · simp [h]
    have e : 7 + (i - 7) = i := by omega
    simp only [hi, h7, e, decide_true, decide_false, Bool.not_false, Bool.true_and]
    cases h1 : val.getLsbD i <;> cases h2 : (0x7F#64).getLsbD i <;> simp_all

/-- C18: decoding the encoding of any `size_t` returns it, whatever bytes follow. -/
theorem C18_vint_roundtrip (val : BitVec 64) (rest : List (BitVec 8)) :
    vintDecode (vintEncode val ++ rest) = some val := by
  fun_induction vintEncode val with
  | case1 val h =>
    simp only [List.cons_append, List.nil_append, vintDecode, vint_low_bit val h, if_true]
    congr 1
    have h' : val.toNat ≤ 127 := h
    apply BitVec.eq_of_toNat_eq
    simp; omega
  | case2 val h ih =>
    simp only [List.cons_append, vintDecode, vint_high_bit, if_false, ih]
    have hb : (val &&& 0x7F#64).setWidth 8 < 128#8 := by
      simp only [BitVec.lt_def, BitVec.toNat_setWidth, BitVec.toNat_and]
      have : val.toNat &&& (0x7F#64).toNat ≤ (0x7F#64).toNat := Nat.and_le_right
      have h2 : (0x7F#64).toNat = 127 := rfl
      have h3 : (128#8).toNat = 128 := rfl
      omega
    rw [vint_mask _ hb]
    show some _ = some _
    rw [vint_join]

/-- C18: skipping advances past exactly the encoding. -/
theorem C18_vint_next (val : BitVec 64) (rest : List (BitVec 8)) :
    vintNext (vintEncode val ++ rest) = some rest := by
  fun_induction vintEncode val with
  | case1 val h => simp [vintNext, vint_low_bit val h]
  | case2 val h ih => simp [vintNext, vint_high_bit, ih]

theorem vint_len_aux (k : Nat) : ∀ val : BitVec 64, val.toNat < 128 ^ (k + 1) → (vintEncode val).length ≤ k + 1 := by
  induction k with
  | zero =>
    intro val h
    have : val ≤ 0x7F#64 := by
      show val.toNat ≤ 127
      simpa using Nat.le_of_lt_succ h
    unfold vintEncode; simp [this]
  | succ k ih =>
    intro val h
    unfold vintEncode
    split
    · simp
    · have := ih (val >>> 7) (by
        simp only [BitVec.toNat_ushiftRight, Nat.shiftRight_eq_div_pow]
        rw [Nat.div_lt_iff_lt_mul (by decide)]
        calc val.toNat < 128 ^ (k + 1 + 1) := h
          _ = 128 ^ (k + 1) * 2 ^ 7 := by ring)
      simp; omega

/-- C18: the encoding is nonempty and takes at most 10 bytes, so it fits the 12-byte buffer of
data-structures/YASL_ByteBuffer.c:36. -/
theorem C18_vint_length (val : BitVec 64) : 1 ≤ (vintEncode val).length ∧ (vintEncode val).length ≤ 10 := by
  constructor
  · unfold vintEncode; split <;> simp
  · exact vint_len_aux 9 val (lt_trans val.isLt (by decide))

/-- C18 (consequence): encodings are prefix-free and injective, so a sequence of encodings decodes uniquely. -/
theorem C18_vint_prefix_free (a b : BitVec 64) (r s : List (BitVec 8))
    (h : vintEncode a ++ r = vintEncode b ++ s) : a = b ∧ r = s := by
  have h1 := C18_vint_roundtrip a r
  have h2 := C18_vint_next a r
  rw [h] at h1 h2
  rw [C18_vint_roundtrip] at h1
  rw [C18_vint_next] at h2
  exact ⟨(Option.some.inj h1).symm, (Option.some.inj h2).symm⟩

/-- a two-byte case: 300 encodes as ac 02 -/
example : vintDecode [0xAC#8, 0x02#8, 0xFF#8] = some 300#64 := by decide +kernel
example : vintDecode (vintEncode (BitVec.allOnes 64) ++ [7#8]) = some (BitVec.allOnes 64) :=
  C18_vint_roundtrip _ _

end Yasl
