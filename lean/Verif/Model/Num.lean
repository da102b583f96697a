import Verif.Model.Str
import Verif.Model.Math
/-!
# Numbers and their textual form

`int_tostr` (interpreter/int_methods.c), `float64_to_str` (util/yasl_float.c), `YASL_String_toint`, `YASL_String_tofloat`
(data-structures/YASL_String.c) and the C library functions they call: `snprintf` with `"%" PRId64` and `"%f"` (exact decimal expansion, round
half to even as glibc does), and `strtoll`.  `strtod` is an opaque parameter.
-/
set_option autoImplicit false
namespace Yasl

/-- The decimal digits of a natural number, as `printf` prints them. -/
def decDigits (n : Nat) : List Byte :=
  if n < 10 then [BitVec.ofNat 8 (48 + n)] else decDigits (n / 10) ++ [BitVec.ofNat 8 (48 + n % 10)]
termination_by n
decreasing_by omega

/-- `snprintf("%" PRId64, i)` (C library); `int_tostr`, interpreter/int_methods.c:27-35. -/
def intToStr (i : BitVec 64) : List Byte :=
  if i.toInt < 0 then 45#8 :: decDigits i.toInt.natAbs else decDigits i.toInt.natAbs

/-- C library `isspace` in the "C" locale. -/
def isSpaceC (b : Byte) : Bool := b == 32#8 || (9#8 ≤ b && b ≤ 13#8)

/-- The value of a digit as `strtoll` understands it (letters count from ten), if it is one in this base. -/
def digitVal (base : Nat) (b : Byte) : Option Nat :=
  let v := if 48 ≤ b.toNat ∧ b.toNat ≤ 57 then some (b.toNat - 48)
    else if 97 ≤ b.toNat ∧ b.toNat ≤ 122 then some (b.toNat - 87)
    else if 65 ≤ b.toNat ∧ b.toNat ≤ 90 then some (b.toNat - 55)
    else none
  v.bind fun d => if d < base then some d else none

/-- Read digits as long as there are any: the value read so far and the rest. -/
def readDigits (base : Nat) : List Byte → Nat → Nat × List Byte
  | [], acc => (acc, [])
  | b :: bs, acc =>
    match digitVal base b with
    | some d => readDigits base bs (acc * base + d)
    | none => (acc, b :: bs)

/-- The digits of `strtoll` after whitespace and sign, or `none` if there are none ("no conversion").  For base 16 an optional `0x` is skipped if
a hexadecimal digit follows. -/
def strtollDigits (base : Nat) (bs : List Byte) : Option (Nat × List Byte) :=
  match bs with
  | 48#8 :: x :: d :: rest =>
    if base = 16 ∧ (x = 120#8 ∨ x = 88#8) ∧ (digitVal base d).isSome then some (readDigits base (d :: rest) 0)
    else some (readDigits base (48#8 :: x :: d :: rest) 0)
  | b :: rest => if (digitVal base b).isSome then some (readDigits base (b :: rest) 0) else none
  | [] => none

/-- C library `strtoll(s, &end, base)` on a NUL-terminated string (given without the NUL): the value, clamped to the range of `long long`, and
what is left from `end` on. -/
def strtoll (base : Nat) (s : List Byte) : Int × List Byte :=
  let t := s.dropWhile isSpaceC
  match t with
  | 45#8 :: u =>
    match strtollDigits base u with
    | some (v, rest) => (max (-(v : Int)) (-2 ^ 63), rest)
    | none => (0, s)
  | 43#8 :: u =>
    match strtollDigits base u with
    | some (v, rest) => (min (v : Int) (2 ^ 63 - 1), rest)
    | none => (0, s)
  | t =>
    match strtollDigits base t with
    | some (v, rest) => (min (v : Int) (2 ^ 63 - 1), rest)
    | none => (0, s)

/-- The choice of the base in `parseint64`, data-structures/YASL_String.c:172-180. -/
def parseBase (str : List Byte) : Int × List Byte :=
  match str with
  | 48#8 :: x :: c :: rest =>
    if x = 120#8 ∨ x = 88#8 then strtoll 16 (c :: rest)
    else if x = 98#8 ∨ x = 66#8 then strtoll 2 (c :: rest)
    else strtoll 10 (48#8 :: x :: c :: rest)
  | str => strtoll 10 str

/-- `parseint64`, data-structures/YASL_String.c:170-183, on a NUL-terminated buffer given without the NUL: the result and `*ok`. -/
def parseint64 (str : List Byte) : Int × Bool :=
  if (parseBase str).2.length = 0 then ((parseBase str).1, true) else (0, false)

/-- The contents of a buffer read as a C string: up to the first NUL. -/
def cstr (buf : List Byte) : List Byte := buf.takeWhile (· ≠ 0#8)

/-- `YASL_String_toint`, data-structures/YASL_String.c:218-264, on the contents of the string. -/
def strToInt (chars : List Byte) : Out (BitVec 64) :=
  if chars.length ≤ 2 then .ok (BitVec.ofInt 64 (parseint64 (cstr chars)).1)
  else
    match chars with
    | c0 :: c1 :: rest =>
      (if c0 = 48#8 then isalphaC c1 else .ok false).bind fun al =>
      if al then .ok (BitVec.ofInt 64 (parseint64 (cstr (c0 :: c1 :: rest.filter (· ≠ 95#8)))).1)
      else .ok (BitVec.ofInt 64 (parseint64 (cstr (chars.filter (· ≠ 95#8)))).1)
    | _ => .ub

/-- C library `snprintf("%f", d)` for a finite double: the exact value rounded (half to even) to six decimals. -/
def printF (b : BitVec 64) : List Byte :=
  let n := fmag b * 10 ^ 6
  let q := n / 2 ^ 1074
  let r := n % 2 ^ 1074
  let q' := if 2 * r > 2 ^ 1074 ∨ (2 * r = 2 ^ 1074 ∧ q % 2 = 1) then q + 1 else q
  let fr := decDigits (q' % 10 ^ 6)
  (if fneg b then [45#8] else []) ++ decDigits (q' / 10 ^ 6) ++ [46#8] ++ (List.replicate (6 - fr.length) 48#8 ++ fr)

/-- `while (ptr[size - 1] == '0' && ptr[size - 2] != '.') size--`, util/yasl_float.c:27-29; reads outside of the buffer are `none`. -/
def trimZeros (ptr : List Byte) : Nat → Option Nat
  | 0 => none
  | 1 =>
    match ptr[0]? with
    | none => none
    | some c => if c = 48#8 then none else some 1
  | k + 2 =>
    match ptr[k + 1]? with
    | none => none
    | some c =>
      if c = 48#8 then
        match ptr[k]? with
        | none => none
        | some d => if d ≠ 46#8 then trimZeros ptr (k + 1) else some (k + 2)
      else some (k + 2)

/-- `float64_to_str`, util/yasl_float.c:8-33. -/
def floatToStr (b : BitVec 64) : Out (List Byte) :=
  if fexp b = 2047 then  -- isinf(d) || isnan(d)
    if flt 0 b then .ok [105#8, 110#8, 102#8]
    else if flt b 0 then .ok [45#8, 105#8, 110#8, 102#8]
    else .ok [110#8, 97#8, 110#8]
  else
    let ptr := printF b
    match trimZeros ptr ptr.length with
    | none => .ub
    | some size => .ok (ptr.take size)

/-- The loop and the result of `isvaliddouble`, data-structures/YASL_String.c:103-139; `prev` is `str[i-1]`. -/
def isValidDoubleLoop : List Byte → (prev : Option Byte) → (hasdot hase : Bool) → Option Bool
  | [], _, hasdot, _ => some hasdot
  | c :: cs, prev, hasdot, hase =>
    if 48 ≤ c.toNat ∧ c.toNat ≤ 57 then isValidDoubleLoop cs (some c) hasdot hase
    else if c = 46#8 then (if hase || hasdot then none else isValidDoubleLoop cs (some c) true hase)
    else if c = 101#8 ∨ c = 69#8 then (if hase then none else isValidDoubleLoop cs (some c) hasdot true)
    else if c = 45#8 ∨ c = 43#8 then
      (if prev = some 101#8 ∨ prev = some 69#8 then isValidDoubleLoop cs (some c) hasdot hase else none)
    else none

/-- `isvaliddouble`, data-structures/YASL_String.c:103-139, on a string starting with a digit (the only one it is called with by `tofloat`;
there `parsedouble`'s tests for a sign and for `inf` fail). -/
def isValidDouble (str : List Byte) : Bool :=
  match isValidDoubleLoop str none false false with
  | none => false
  | some hasdot => hasdot && (match str.getLast? with | some c => decide (48 ≤ c.toNat ∧ c.toNat ≤ 57) | none => false)

/-- The copy loop of `YASL_String_tofloat`, YASL_String.c:193-198: underscores not after a dot are dropped; `prev` is `chars[i-1]`. -/
def dropUnderscores : List Byte → Byte → List Byte
  | [], _ => []
  | c :: cs, prev => if c = 95#8 ∧ prev ≠ 46#8 then dropUnderscores cs c else c :: dropUnderscores cs c

/-- `YASL_String_tofloat`, data-structures/YASL_String.c:185-216, on the contents of the string; for the empty string `chars[0]` is read out of
bounds.  `strtod` is the C library function (on a string that it parses completely). -/
def strToFloat (strtod : List Byte → BitVec 64) (chars : List Byte) : Out (BitVec 64) :=
  match chars with
  | [] => .ub
  | c0 :: cs =>
    (isdigitC c0).bind fun d =>
    if d then
      let buffer := cstr (c0 :: dropUnderscores cs c0)
      if isValidDouble buffer then .ok (strtod buffer)
      else
        let r := parseint64 buffer
        if r.2 then .ok (intToFloat (BitVec.ofInt 64 r.1)) else .ok someNan
    else .ok someNan

end Yasl
