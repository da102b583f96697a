import Verif.Model.Ops
import Verif.Model.Mem
import Verif.Model.Prime
/-!
# `std/yasl-std-math.c`, `interpreter/float_methods.c`

The C library functions `exp`, `log`, `sin`, … are not modelled.
-/
set_option autoImplicit false
namespace Yasl

/-- An argument converted to `yasl_int`: an int, or a float truncated; anything else is a TypeError.
std/yasl-std-math.c:199-209 (and 160-169, 211-221, 232-255). -/
def argToInt : Val → Out (BitVec 64)
  | .int i => .ok i
  | .float b =>
    match floatToInt b with
    | some i => .ok i
    | none => .ub
  | _ => .typeError

/-- C `%` on `int64_t`. -/
def cRem (a b : BitVec 64) : Out (BitVec 64) :=
  if b.toInt = 0 ∨ (a.toInt = -2 ^ 63 ∧ b.toInt = -1) then .ub else .ok (BitVec.ofInt 64 (a.toInt.tmod b.toInt))

/-- The loop of `gcd_helper`, std/yasl-std-math.c:187-193 (entered with `r != 0`). -/
def gcdLoop : Nat → BitVec 64 → BitVec 64 → Run (BitVec 64)
  | 0, _, _ => none
  | f + 1, a, b =>
    Run.bind (some (cRem a b)) fun r => if r ≠ 0 then gcdLoop f b r else some (.ok b)

/-- `gcd_helper`, std/yasl-std-math.c:179-194. -/
def gcdHelper (f : Nat) (a b : BitVec 64) : Run (BitVec 64) :=
  if a.toInt < b.toInt then gcdLoop f b a else gcdLoop f a b

/-- `YASL_math_gcd` on the two arguments in source order, std/yasl-std-math.c:195-228 (the second one is on top). -/
def mathGcd (f : Nat) (x y : Val) : Run Val :=
  Run.bind (some (argToInt y)) fun a => Run.bind (some (argToInt x)) fun b =>
  if ¬ (a.toInt > 0 ∧ b.toInt > 0) then some (.ok .undef)
  else Run.bind (gcdHelper f a b) fun g => some (.ok (.int g))

/-- `YASL_math_lcm`, std/yasl-std-math.c:229-262: `b*a/gcd`, where `b*a` may overflow. -/
def mathLcm (f : Nat) (x y : Val) : Run Val :=
  Run.bind (some (argToInt y)) fun a => Run.bind (some (argToInt x)) fun b =>
  if ¬ (a.toInt > 0 ∧ b.toInt > 0) then some (.ok .undef)
  else Run.bind (gcdHelper f a b) fun g =>
    if b.toInt * a.toInt < 2 ^ 63 then some (.ok (.int (BitVec.ofInt 64 ((b.toInt * a.toInt).tdiv g.toInt)))) else some .ub

/-- `YASL_math_abs`, std/yasl-std-math.c:51-68: `-i` is undefined for INT64_MIN. -/
def mathAbs : Val → Out Val
  | .int i => if i.toInt < 0 then (if i.toInt = -2 ^ 63 then .ub else .ok (.int (-i))) else .ok (.int i)
  | .float b => .ok (.float (if flt b 0 then floatNeg b else b))
  | _ => .typeError

/-- The bit pattern of infinity. -/
def posInf : BitVec 64 := 0x7FF0000000000000#64
/-- The bit pattern of minus infinity. -/
def negInf : BitVec 64 := 0xFFF0000000000000#64
/-- The NaN returned (`YASL_NAN`, std/yasl-std-math.c:22; the sign and payload do not matter). -/
def someNan : BitVec 64 := 0x7FF8000000000000#64

/-- The loop of `YASL_math_max` (`better max top = (top >= max)`) and `YASL_math_min` (`top <= max`) over the arguments in the order
in which they are popped, std/yasl-std-math.c:93-114, 125-146. -/
def extremeLoop (better : BitVec 64 → BitVec 64 → Bool) : List Val → Val → Out Val
  | [], m => .ok m
  | .int i :: vs, m => extremeLoop better vs (if better m.getNum (intToFloat i) then .int i else m)
  | .float b :: vs, m =>
    if !feq b b then .ok (.float someNan) else extremeLoop better vs (if better m.getNum b then .float b else m)
  | _ :: _, _ => .typeError

/-- `YASL_math_max`, std/yasl-std-math.c:84-116, on the arguments in source order. -/
def mathMax (args : List Val) : Out Val := extremeLoop (fun m t => fle m t) args.reverse (.float negInf)
/-- `YASL_math_min`, std/yasl-std-math.c:117-148. -/
def mathMin (args : List Val) : Out Val := extremeLoop (fun m t => fle t m) args.reverse (.float posInf)

/-- `YASL_math_isprime`, std/yasl-std-math.c:165-183: the `yasl_int` is converted to the `size_t` parameter of `is_prime`. -/
def mathIsprime (sq : Nat → Nat) (v : Val) : Out Val :=
  (argToInt v).bind fun n => .ok (.bool (isPrimeC sq n.toNat))

/-- `float_toint`, interpreter/float_methods.c:9-13. -/
def floatToint (b : BitVec 64) : Out Val :=
  match floatToInt b with
  | some i => .ok (.int i)
  | none => .ub

end Yasl
