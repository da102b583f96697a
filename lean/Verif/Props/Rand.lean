import Verif.Model.Rand
/-!
# C123: `math.rand`
-/
set_option autoImplicit false
namespace Yasl

theorem randShl_ok {r k : Nat} {x : BitVec 64} (h : randShl r k = .ok x) : r * 2 ^ k < 2 ^ 63 ∧ x = BitVec.ofNat 64 r <<< k := by
  unfold randShl at h
  by_cases c : r * 2 ^ k < 2 ^ 63
  · rw [if_pos c] at h; injection h with h; exact ⟨c, h.symm⟩
  · rw [if_neg c] at h; cases h

theorem mathRand_ok {a b c d : Nat} {v : Val} (h : mathRand a b c d = .ok v) :
    b * 2 ^ 16 < 2 ^ 63 ∧ c * 2 ^ 32 < 2 ^ 63 ∧ d * 2 ^ 48 < 2 ^ 63 ∧ v = mathRandWrap a b c d := by
  unfold mathRand at h
  rcases hb : randShl b 16 with x | _ | _ | _ <;> rw [hb] at h <;> try cases h
  rcases hc : randShl c 32 with y | _ | _ | _ <;> rw [hc] at h <;> try cases h
  rcases hd : randShl d 48 with z | _ | _ | _ <;> rw [hd] at h <;> cases h
  obtain ⟨b1, rfl⟩ := randShl_ok hb
  obtain ⟨c1, rfl⟩ := randShl_ok hc
  obtain ⟨d1, rfl⟩ := randShl_ok hd
  exact ⟨b1, c1, d1, rfl⟩

theorem mathRand_defined {a b c d : Nat} (hb : b * 2 ^ 16 < 2 ^ 63) (hc : c * 2 ^ 32 < 2 ^ 63) (hd : d * 2 ^ 48 < 2 ^ 63) :
    mathRand a b c d = .ok (mathRandWrap a b c d) := by
  unfold mathRand randShl
  rw [if_pos hb, if_pos hc, if_pos hd]; rfl

theorem mathRand_hi_zero {r k i : Nat} (h : r * 2 ^ k < 2 ^ 63) (hi : 63 ≤ i) (hk : k ≤ i) : r.testBit (i - k) = false := by
  apply Nat.testBit_lt_two_pow
  have : 2 ^ 63 ≤ 2 ^ i := Nat.pow_le_pow_right (by decide) hi
  have e : 2 ^ i = 2 ^ (i - k) * 2 ^ k := by rw [← Nat.pow_add]; congr 1; omega
  rw [e] at this
  exact Nat.lt_of_mul_lt_mul_right (Nat.lt_of_lt_of_le h this)

/-- C123, counterexample: whatever `rand()` returns, a result that is defined is not negative: the highest of the 64 bits is never used. -/
theorem C123_negative_counterexample (a b c d : Nat) (ha : a < 2 ^ 31) (n : BitVec 64) (h : mathRand a b c d = .ok (.int n)) : 0 ≤ n.toInt := by
  obtain ⟨hb, hc, hd, e⟩ := mathRand_ok h
  unfold mathRandWrap at e
  injection e with e
  have m : n.msb = false := by
    rw [BitVec.msb_eq_getLsbD_last, e]
    have a1 : a.testBit 63 = false := Nat.testBit_lt_two_pow (Nat.lt_trans ha (by decide))
    have b1 := mathRand_hi_zero (i := 63) hb (by decide) (by decide)
    have c1 := mathRand_hi_zero (i := 63) hc (by decide) (by decide)
    have d1 := mathRand_hi_zero (i := 63) hd (by decide) (by decide)
    simp only [BitVec.getLsbD_xor, BitVec.getLsbD_shiftLeft, BitVec.getLsbD_ofNat, a1, b1, c1, d1]
    decide
  rw [BitVec.toInt_eq_msb_cond, m]; simp

/-- The four parts of 16 bits. -/
theorem mathRand_parts (n : BitVec 64) :
    mathRandWrap (n.toNat % 2 ^ 16) (n.toNat / 2 ^ 16 % 2 ^ 16) (n.toNat / 2 ^ 32 % 2 ^ 16) (n.toNat / 2 ^ 48 % 2 ^ 16) = .int n := by
  unfold mathRandWrap
  congr 1
  apply BitVec.eq_of_getLsbD_eq
  intro i hi
  have e : ∀ j, n.toNat.testBit j = n.getLsbD j := fun j => rfl
  simp only [BitVec.getLsbD_xor, BitVec.getLsbD_shiftLeft, BitVec.getLsbD_ofNat, Nat.testBit_mod_two_pow, Nat.testBit_div_two_pow, e]
  by_cases h1 : i < 16
  · have : i < 32 := by omega
    have : i < 48 := by omega
    simp [*]
  by_cases h2 : i < 32
  · have : i < 48 := by omega
    have : i - 16 < 16 := by omega
    have : i - 16 < 64 := by omega
    have : i - 16 + 16 = i := by omega
    have : 16 + (i - 16) = i := by omega
    simp [*]
  by_cases h3 : i < 48
  · have : ¬ i - 16 < 16 := by omega
    have : i - 32 < 16 := by omega
    have : i - 32 < 64 := by omega
    have : 32 + (i - 32) = i := by omega
    have : i - 32 + 32 = i := by omega
    simp [*]
  · have : ¬ i - 16 < 16 := by omega
    have : ¬ i - 32 < 16 := by omega
    have : i - 48 < 16 := by omega
    have : i - 48 < 64 := by omega
    have : 48 + (i - 48) = i := by omega
    have : i - 48 + 48 = i := by omega
    simp [*]

/-- C123, the part that holds: where `RAND_MAX` is at least 65535, every int that is not negative is the result for some returns of `rand()`, and all is defined. -/
theorem C123_rand_covers_partial (randMax : Nat) (hm : 2 ^ 16 - 1 ≤ randMax) (n : BitVec 64) (hn : 0 ≤ n.toInt) :
    ∃ a b c d, a ≤ randMax ∧ b ≤ randMax ∧ c ≤ randMax ∧ d ≤ randMax ∧ mathRand a b c d = .ok (.int n) := by
  refine ⟨_, _, _, _, ?_, ?_, ?_, ?_, (mathRand_defined ?_ ?_ ?_).trans (congrArg _ (mathRand_parts n))⟩
  any_goals omega
  have : n.toNat < 2 ^ 63 := by
    rw [BitVec.toInt_eq_toNat_cond] at hn
    split at hn <;> omega
  omega

/-- C123 for compilers whose shifts drop the high bits: where `RAND_MAX` is at least 65535, every int is the result for some returns of `rand()`. -/
theorem C123_rand_wrap_partial (randMax : Nat) (hm : 2 ^ 16 - 1 ≤ randMax) (n : BitVec 64) :
    ∃ a b c d, a ≤ randMax ∧ b ≤ randMax ∧ c ≤ randMax ∧ d ≤ randMax ∧ mathRandWrap a b c d = .int n := by
  refine ⟨_, _, _, _, ?_, ?_, ?_, ?_, mathRand_parts n⟩
  all_goals omega

/-- C123, counterexample: with the least `RAND_MAX` that C allows, 32767 (which the comment of the function speaks of), the bits 15, 31, 47 and 63 of the result are 0 whatever
`rand()` returns. -/
theorem C123_small_counterexample (a b c d : Nat) (ha : a ≤ 32767) (hb : b ≤ 32767) (hc : c ≤ 32767) (hd : d ≤ 32767) :
    ∃ n : BitVec 64, mathRand a b c d = .ok (.int n) ∧ n.getLsbD 15 = false ∧ n.getLsbD 31 = false ∧ n.getLsbD 47 = false ∧ n.getLsbD 63 = false := by
  refine ⟨_, mathRand_defined (by omega) (by omega) (by omega), ?_⟩
  have z : ∀ {r : Nat} (j : Nat), r ≤ 32767 → 15 ≤ j → r.testBit j = false := fun j h hj =>
    Nat.testBit_lt_two_pow (Nat.lt_of_lt_of_le (Nat.lt_of_le_of_lt h (by decide : 32767 < 2 ^ 15)) (Nat.pow_le_pow_right (by decide) hj))
  simp only [BitVec.getLsbD_xor, BitVec.getLsbD_shiftLeft, BitVec.getLsbD_ofNat]
  simp [z 15 ha, z 31 ha, z 47 ha, z 63 ha, z 15 hb, z 31 hb, z 47 hb, z 15 hc, z 31 hc, z 15 hd]

example : mathRand 1 2 3 4 = .ok (.int 1125912791875585#64) := by decide +kernel
example : mathRand 0 0 0 32768 = .ub := by decide +kernel
example : mathRandWrap 0 0 0 32768 = .int (BitVec.ofInt 64 (-2 ^ 63)) := by decide +kernel

end Yasl
