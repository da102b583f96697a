import Verif.Model.Math
/-!
# `math.rand`, std/yasl-std-math.c:263-268

`rand()` of the C library is not modelled: its results are parameters, numbers from 0 to `RAND_MAX`, which is at least 32767 and at most the largest `int`.
-/
set_option autoImplicit false
namespace Yasl

/-- `r << k` for a `yasl_int` `r` that is not negative: undefined if the product does not fit (C99 6.5.7), std/yasl-std-math.c:265. -/
def randShl (r : Nat) (k : Nat) : Out (BitVec 64) :=
  if r * 2 ^ k < 2 ^ 63 then .ok (BitVec.ofNat 64 r <<< k) else .ub

/-- `YASL_math_rand`, std/yasl-std-math.c:263-268, where the four calls of `rand()` return `a`, `b`, `c` and `d` (the order of the calls is not specified). -/
def mathRand (a b c d : Nat) : Out Val :=
  (randShl b 16).bind fun b => (randShl c 32).bind fun c => (randShl d 48).bind fun d =>
    .ok (.int (BitVec.ofNat 64 a ^^^ b ^^^ c ^^^ d))

/-- The same where the shifts do not overflow but drop the high bits, as compilers for two's complement machines do, std/yasl-std-math.c:265. -/
def mathRandWrap (a b c d : Nat) : Val :=
  .int (BitVec.ofNat 64 a ^^^ BitVec.ofNat 64 b <<< 16 ^^^ BitVec.ofNat 64 c <<< 32 ^^^ BitVec.ofNat 64 d <<< 48)

end Yasl
