import Verif.Proofs.Prime
/-! # C17 — primality -/
namespace Yasl

/-- What is assumed of the C library call `floor(sqrt((double)x))`: it is at least the integer square root (so no
divisor is missed) and below `x` (so `x` itself is not tried).  IEEE `sqrt` is correctly rounded, so it is within one
of the exact value for 64-bit `x`. -/
structure SqrtOK (sq : Nat → Nat) : Prop where
  lower : ∀ x, Nat.sqrt x ≤ sq x
  upper : ∀ x, 4 ≤ x → sq x < x

/-- C17: `is_prime` decides primality, for every argument. -/
theorem C17_is_prime_correct (sq : Nat → Nat) (h : SqrtOK sq) (x : Nat) :
    isPrimeC sq x = true ↔ Nat.Prime x :=
  isPrimeC_iff h.lower h.upper x

/-- the whole part of the square root will do -/
example (x : Nat) : isPrimeC Nat.sqrt x = true ↔ Nat.Prime x := C17_is_prime_correct Nat.sqrt ⟨fun _ => Nat.le_refl _, fun _ h => Nat.sqrt_lt_self (by omega)⟩ x

/-- C17: `next_prime` terminates on every argument and returns the least prime not below it. -/
theorem C17_next_prime_correct (sq : Nat → Nat) (h : SqrtOK sq) (x : Nat) :
    ∃ r, (∃ f₀, ∀ f ≥ f₀, nextPrimeC sq f x = some r) ∧ Nat.Prime r ∧ x ≤ r ∧ ∀ p, Nat.Prime p → x ≤ p → r ≤ p := by
  obtain ⟨p, hxp, hp⟩ := Nat.exists_infinite_primes x
  have key : ∀ f ≥ p + 1, (nextPrimeC sq f x).isSome := fun f hf =>
    nextPrimeC_isSome h.lower h.upper hp hxp (by omega)
  obtain ⟨r, hr⟩ := Option.isSome_iff_exists.1 (key (p + 1) (le_refl _))
  obtain ⟨a, b, c⟩ := nextPrimeC_some h.lower h.upper hr
  refine ⟨r, ⟨p + 1, fun f hf => ?_⟩, a, b, c⟩
  obtain ⟨r', hr'⟩ := Option.isSome_iff_exists.1 (key f hf)
  obtain ⟨a', b', c'⟩ := nextPrimeC_some h.lower h.upper hr'
  rw [hr', Nat.le_antisymm (c' r a b) (c r' a' b')]

/-- The assumption on `sqrt` is met, e.g. by the exact integer square root … -/
theorem SqrtOK_sqrt : SqrtOK Nat.sqrt :=
  ⟨fun _ => le_refl _, fun x hx => Nat.sqrt_lt_self (by omega)⟩

/-- … and by a square root that overshoots by one. -/
example : SqrtOK (fun x => if x < 9 then Nat.sqrt x else Nat.sqrt x + 1) := by
  refine ⟨fun x => by split <;> omega, fun x hx => ?_⟩
  split
  · exact Nat.sqrt_lt_self (by omega)
  · have h1 : Nat.sqrt x * Nat.sqrt x ≤ x := Nat.sqrt_le x
    have h2 : 3 ≤ Nat.sqrt x := Nat.le_sqrt.2 (by omega)
    nlinarith

example : isPrimeC Nat.sqrt 40009 = true ∧ isPrimeC Nat.sqrt 44521 = false := by decide +kernel
example : nextPrimeC Nat.sqrt 100 30 = some 31 := by decide +kernel

end Yasl
