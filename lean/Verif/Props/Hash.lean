import Verif.Model.Hash
import Mathlib.Data.Nat.Prime.Basic
import Mathlib.Data.Nat.ModEq
import Mathlib.Data.Fintype.EquivFin
import Mathlib.Tactic.Ring
/-! # C06 — probing reaches every slot -/
namespace Yasl

theorem hashFunction_lt (v : Val) (a m : Nat) (hm : 0 < m) : hashFunction v a m < m := by
  cases v with
  | str s =>
    simp only [hashFunction]
    suffices H : ∀ h0, h0 < m → List.foldl (fun h c => (((h * a) % 2 ^ 64) ^^^ (BitVec.signExtend 64 c).toNat) % m) h0 s < m from H 0 hm
    induction s with
    | nil => simp
    | cons c s ih => intro h0 _; exact ih _ (Nat.mod_lt _ hm)
  | _ => exact Nat.mod_lt _ hm

/-- Every probe is inside the table. -/
theorem C06_probe_in_bounds (v : Val) (n attempt : Nat) (hn : 0 < n) : getHash v n attempt < n := by
  unfold getHash
  split <;> exact Nat.mod_lt _ hn

example : getHash (.int (-5)) 17 3 < 17 := C06_probe_in_bounds _ _ _ (by decide)

/-- closed form of the probe sequence -/
theorem getHash_eq (v : Val) (n : Nat) (hn : n.Prime) (hb : n ≤ 2 ^ 32) :
    ∃ a s, 0 < s ∧ s < n ∧ ∀ j, j < n → getHash v n j = (a + j * s) % n := by
  have hA := hashFunction_lt v PRIME_A n hn.pos
  have hB := hashFunction_lt v PRIME_B n hn.pos
  have h2 := hn.two_le
  refine ⟨hashFunction v PRIME_A n, hashFunction v PRIME_B n + (if hashFunction v PRIME_B n = 0 then 1 else 0), ?_, ?_, ?_⟩
  · split <;> omega
  · split <;> omega
  · intro j hj
    unfold getHash
    split
    · rename_i h; subst h; simp
    · generalize hs : hashFunction v PRIME_B n + (if hashFunction v PRIME_B n = 0 then 1 else 0) = s
      have hsn : s < n := by rw [← hs]; split <;> omega
      have h1 : j * s ≤ (n - 1) * (n - 1) := Nat.mul_le_mul (by omega) (by omega)
      have h3 : (n - 1) * (n - 1) + n ≤ n * n := by
        obtain ⟨k, rfl⟩ : ∃ k, n = k + 1 := ⟨n - 1, by omega⟩
        simp only [Nat.add_sub_cancel]
        calc k * k + (k + 1) ≤ k * k + (2 * k + 1) := by omega
          _ = (k + 1) * (k + 1) := by ring
      have h4 : n * n ≤ 2 ^ 32 * 2 ^ 32 := Nat.mul_le_mul hb hb
      simp only [hs]
      rw [Nat.mod_eq_of_lt (a := _ + _) (by
        have : (2 : Nat) ^ 32 * 2 ^ 32 = 2 ^ 64 := by norm_num
        omega)]

/-- C06: for a table of prime size (the sizes of the hash tables, C17; up to 2^32 slots, beyond which
`attempt * step` wraps around), the first `n` probes of any key are pairwise different. -/
theorem C06_probe_injective (v : Val) (n : Nat) (hn : n.Prime) (hb : n ≤ 2 ^ 32) (i j : Nat) (hi : i < n) (hj : j < n)
    (h : getHash v n i = getHash v n j) : i = j := by
  obtain ⟨a, s, hs0, hsn, he⟩ := getHash_eq v n hn hb
  rw [he i hi, he j hj] at h
  have h1 : i * s ≡ j * s [MOD n] := Nat.ModEq.add_left_cancel' a h
  have hc : n.Coprime s := (Nat.Prime.coprime_iff_not_dvd hn).2 (Nat.not_dvd_of_pos_of_lt hs0 hsn)
  have h2 : i ≡ j [MOD n] := Nat.ModEq.cancel_right_of_coprime hc h1
  exact Nat.ModEq.eq_of_lt_of_lt h2 hi hj

example (i j : Nat) (hi : i < 31) (hj : j < 31) (h : getHash (.str [97]) 31 i = getHash (.str [97]) 31 j) : i = j :=
  C06_probe_injective (.str [97]) 31 (by decide +kernel) (by decide) i j hi hj h

/-- C06: … hence the first `n` probes visit every slot. -/
theorem C06_probe_covers (v : Val) (n : Nat) (hn : n.Prime) (hb : n ≤ 2 ^ 32) (slot : Nat) (hs : slot < n) :
    ∃ j < n, getHash v n j = slot := by
  let f : Fin n → Fin n := fun j => ⟨getHash v n j, C06_probe_in_bounds v n j hn.pos⟩
  have hinj : Function.Injective f := by
    intro i j h
    exact Fin.ext (C06_probe_injective v n hn hb i j i.2 j.2 (congrArg Fin.val h))
  obtain ⟨j, hj⟩ := (Finite.injective_iff_surjective.1 hinj) ⟨slot, hs⟩
  exact ⟨j, j.2, congrArg Fin.val hj⟩

/-- the smallest table, a key with a nontrivial probe sequence -/
example : (List.range 5).map (getHash (.int 1#64) 31) = [6, 11, 16, 21, 26] := by decide +kernel
example : (31 : Nat).Prime ∧ 31 ≤ 2 ^ 32 := by decide +kernel

/-- Primality is needed: with 30 slots (the size `table_clear` sets, see C10) no probe of the key 5 reaches slot 1, even
after 2^58 attempts: it only ever visits the six slots divisible by 5. -/
theorem C06_composite_size_misses (j : Nat) (hj : j < 2 ^ 58) : getHash (.int 5#64) 30 j % 5 = 0 := by
  have hA : hashFunction (.int 5#64) PRIME_A 30 = 25 := by decide +kernel
  have hB : hashFunction (.int 5#64) PRIME_B 30 = 25 := by decide +kernel
  unfold getHash
  rw [hA, hB]
  split
  · rfl
  · simp only [show ¬ (25 = 0) by decide, if_false]
    rw [Nat.mod_eq_of_lt (a := 25 + _) (by omega)]
    omega

end Yasl
