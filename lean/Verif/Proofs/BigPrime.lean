import Mathlib.NumberTheory.LucasPrimality
import Mathlib.Tactic.NormNum.Prime
import Mathlib.Data.ZMod.Basic
/-! # The primality of 2^64 - 59, by Lucas certificates checked by the kernel -/
set_option autoImplicit false
namespace Yasl

/-- `a ^ n * c % p` by repeated squaring (`k` bits of `n`). -/
def powModAux (p : Nat) : Nat → Nat → Nat → Nat → Nat
  | 0, _, _, c => c % p
  | k + 1, a, n, c => powModAux p k (a * a % p) (n / 2) (if n % 2 = 1 then c * a % p else c)

theorem powModAux_spec (p : Nat) : ∀ k a n c, n < 2 ^ k → powModAux p k a n c = a ^ n * c % p := by
  intro k
  induction k with
  | zero => intro a n c h; have : n = 0 := by omega
            subst this; simp [powModAux]
  | succ k ih =>
    intro a n c h
    rw [powModAux, ih _ _ _ (by omega)]
    have e : a ^ n = (a * a) ^ (n / 2) * a ^ (n % 2) := by
      rw [← pow_two, ← pow_mul, ← pow_add, Nat.div_add_mod]
    rw [e]
    rcases Nat.mod_two_eq_zero_or_one n with h0 | h0 <;> rw [h0]
    · simp only [Nat.zero_ne_one, if_false, pow_zero, mul_one]
      rw [Nat.mul_mod, Nat.pow_mod (a * a % p), Nat.mod_mod, ← Nat.pow_mod, ← Nat.mul_mod]
    · simp only [if_true, pow_one]
      rw [Nat.mul_mod, Nat.pow_mod (a * a % p), Nat.mod_mod, Nat.mod_mod, ← Nat.pow_mod, ← Nat.mul_mod, mul_assoc, mul_comm c a]

theorem pow_eq_one_iff (p a n : Nat) (h : n < 2 ^ 64) : ((a : Nat) : ZMod p) ^ n = 1 ↔ powModAux p 64 a n 1 = 1 % p := by
  rw [powModAux_spec p 64 a n 1 h, mul_one, ← ZMod.natCast_eq_natCast_iff']
  simp

theorem prime_5594472617641 : Nat.Prime 5594472617641 := by
  apply lucas_primality _ ((13 : Nat) : ZMod _)
  · rw [pow_eq_one_iff _ _ _ (by decide)]; decide +kernel
  · intro q hq hd
    have hd' : q ∣ 2 * 2 * 2 * 3 * 5 * 1427 * 2131 * 15331 := hd
    have h : q = 2 ∨ q = 3 ∨ q = 5 ∨ q = 1427 ∨ q = 2131 ∨ q = 15331 := by
      simp only [hq.dvd_mul] at hd'
      have e : ∀ r, Nat.Prime r → (q ∣ r ↔ q = r) := fun r hr => Nat.prime_dvd_prime_iff_eq hq hr
      rw [e 2 (by norm_num), e 3 (by norm_num), e 5 (by norm_num), e 1427 (by norm_num), e 2131 (by norm_num), e 15331 (by norm_num)] at hd'
      omega
    rcases h with rfl | rfl | rfl | rfl | rfl | rfl <;>
      (rw [Ne, pow_eq_one_iff _ _ _ (by decide)]; decide +kernel)

theorem prime_two64_sub_59 : Nat.Prime 18446744073709551557 := by
  apply lucas_primality _ ((2 : Nat) : ZMod _)
  · rw [pow_eq_one_iff _ _ _ (by decide)]; decide +kernel
  · intro q hq hd
    have hd' : q ∣ 2 * 2 * 11 * 137 * 547 * 5594472617641 := hd
    have h : q = 2 ∨ q = 11 ∨ q = 137 ∨ q = 547 ∨ q = 5594472617641 := by
      simp only [hq.dvd_mul] at hd'
      have e : ∀ r, Nat.Prime r → (q ∣ r ↔ q = r) := fun r hr => Nat.prime_dvd_prime_iff_eq hq hr
      rw [e 2 (by norm_num), e 11 (by norm_num), e 137 (by norm_num), e 547 (by norm_num), e _ prime_5594472617641] at hd'
      omega
    rcases h with rfl | rfl | rfl | rfl | rfl <;>
      (rw [Ne, pow_eq_one_iff _ _ _ (by decide)]; decide +kernel)

end Yasl
