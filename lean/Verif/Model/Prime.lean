import Mathlib.Data.Nat.Prime.Basic
/-!
# `util/prime.c`

Model of the primality test and of `next_prime`, used to size hash tables and by `math.isprime`.
-/
namespace Yasl

/-- `PRIMES_UNDER_200`, util/prime.c:6. -/
def primesUnder200 : List Nat :=
  [2,3,5,7,11,13,17,19,23,29,31,37,41,43,47,53,59,61,67,71,73,79,83,89,97,101,103,107,109,113,127,131,137,
   139,149,151,157,163,167,173,179,181,191,193,197,199]

/-- First loop of `is_prime`, util/prime.c:12-14: `some r` if the loop returns `r`, `none` if it falls through. -/
def smallPrimeLoop (x : Nat) : List Nat → Option Bool
  | [] => none
  | p :: ps => if x % p = 0 then some (x == p) else smallPrimeLoop x ps

/-- Second loop of `is_prime`, util/prime.c:15-19, from the current value `i` of the loop variable; `b` is the value of
`floor(sqrt((double) x))`, constant through the loop.  (`i` is `int64_t` in C; it cannot overflow for `b < 2^62`.) -/
def trialLoop (x b i : Nat) : Bool :=
  if _h : i ≤ b then
    if x % i = 0 then false else trialLoop x b (i + 2)
  else true
termination_by b + 1 - i

/-- `is_prime`, util/prime.c:9-21.  `sq x` stands for `floor(sqrt((double) x))` from the C library. -/
def isPrimeC (sq : Nat → Nat) (x : Nat) : Bool :=
  if x < 2 then false
  else if x < 4 then true
  else match smallPrimeLoop x primesUnder200 with
    | some r => r
    | none => trialLoop x (sq x) 201

/-- `next_prime`, util/prime.c:23-26, with fuel for the `while` loop. -/
def nextPrimeC (sq : Nat → Nat) : Nat → Nat → Option Nat
  | 0, _ => none
  | f + 1, x => if isPrimeC sq x then some x else nextPrimeC sq f (x + 1)

end Yasl
