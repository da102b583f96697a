/-!
# `interpreter/YASL_Object.{c,h}` — values, equality, comparison, truthiness

Floats are IEEE-754 binary64 bit patterns.  `fval` gives the value of a non-NaN pattern as an integer multiple of
2^-1074 (every finite binary64 number is one; the pattern of infinity falls above all finite values), so that the C
comparisons are integer comparisons.
-/
namespace Yasl

/-- A `char`/`unsigned char`. -/
abbrev Byte := BitVec 8

/-! ## Floats -/

/-- Sign bit of a binary64 pattern (IEEE-754). -/
def fneg (b : BitVec 64) : Bool := b.toNat / 2 ^ 63 == 1
/-- Biased exponent of a binary64 pattern (IEEE-754). -/
def fexp (b : BitVec 64) : Nat := b.toNat / 2 ^ 52 % 2 ^ 11
/-- Mantissa field of a binary64 pattern (IEEE-754). -/
def fman (b : BitVec 64) : Nat := b.toNat % 2 ^ 52
/-- The pattern is a NaN (IEEE-754). -/
def fnan (b : BitVec 64) : Bool := fexp b == 2047 && fman b != 0
/-- Magnitude of a non-NaN pattern in units of 2^-1074 (IEEE-754). -/
def fmag (b : BitVec 64) : Nat := if fexp b = 0 then fman b else (2 ^ 52 + fman b) * 2 ^ (fexp b - 1)
/-- Value of a non-NaN pattern in units of 2^-1074 (IEEE-754). -/
def fval (b : BitVec 64) : Int := if fneg b then - (fmag b : Int) else fmag b

/-- C `==` on doubles. -/
def feq (a b : BitVec 64) : Bool := !fnan a && !fnan b && fval a == fval b
/-- C `<` on doubles. -/
def flt (a b : BitVec 64) : Bool := !fnan a && !fnan b && decide (fval a < fval b)
/-- C `<=` on doubles. -/
def fle (a b : BitVec 64) : Bool := !fnan a && !fnan b && decide (fval a ≤ fval b)

/-- Round a positive natural number to binary64 (nearest, ties to even): exponent and mantissa fields, as the low 63
bits of the pattern.  A carry out of the mantissa increments the exponent field. -/
def natToFloatBits (n : Nat) : Nat :=
  if n = 0 then 0
  else
    let l := n.log2
    if l ≤ 52 then (1023 + l) * 2 ^ 52 + (n * 2 ^ (52 - l) - 2 ^ 52)
    else
      let e := l - 52
      let q := n / 2 ^ e
      let r := n % 2 ^ e
      let q' := if r > 2 ^ (e - 1) ∨ (r = 2 ^ (e - 1) ∧ q % 2 = 1) then q + 1 else q
      (1023 + l) * 2 ^ 52 + (q' - 2 ^ 52)

/-- C conversion `(yasl_float) i` of an `int64_t` (default rounding mode). -/
def intToFloat (i : BitVec 64) : BitVec 64 :=
  if i.toInt < 0 then BitVec.ofNat 64 (2 ^ 63 + natToFloatBits i.toInt.natAbs)
  else BitVec.ofNat 64 (natToFloatBits i.toInt.natAbs)

/-! ## Values -/

/-- Heap-allocated kinds of values (yasl_types.h). -/
inductive RefKind where
  | list | table | fn | closure | cfn | userdata
deriving DecidableEq, Repr

/-- `struct YASL_Object`, interpreter/YASL_Object.h:36-48.  `end_` is the sentinel `Y_END`.  Strings are represented by
their contents (`YASL_String_chars`/`len`); reference values by an address.  The `_W` (weak) types are not modelled. -/
inductive Val where
  | end_
  | undef
  | float (bits : BitVec 64)
  | int (i : BitVec 64)
  | bool (b : Bool)
  | str (s : List Byte)
  | userptr (p : BitVec 64)
  | ref (k : RefKind) (addr : Nat)
deriving DecidableEq, Repr

/-- `v->type` (yasl_types.h:8-27); only equality of tags matters. -/
inductive Tag where
  | end_ | undef | float | int | bool | str | userptr | ref (k : RefKind)
deriving DecidableEq, Repr

/-- `v->type`. interpreter/YASL_Object.h:37 -/
def Val.tag : Val → Tag
  | .end_ => .end_ | .undef => .undef | .float _ => .float | .int _ => .int | .bool _ => .bool | .str _ => .str
  | .userptr _ => .userptr | .ref k _ => .ref k

/-- `obj_isnum`, interpreter/YASL_Object.h:86-88. -/
def Val.isNum : Val → Bool
  | .int _ | .float _ => true
  | _ => false

/-- `obj_getnum`, interpreter/YASL_Object.h:143-145 (meaningful on numbers only). -/
def Val.getNum : Val → BitVec 64
  | .float b => b
  | .int i => intToFloat i
  | _ => 0

/-- `ishashable`, interpreter/YASL_Object.c:83-92. -/
def Val.hashable : Val → Bool
  | .undef | .bool _ | .float _ | .int _ | .str _ | .userptr _ => true
  | _ => false

/-- `isfalsey`, interpreter/YASL_Object.c:94-108. -/
def Val.falsey : Val → Bool
  | .undef => true
  | .bool b => b == false
  | .str s => s.length == 0
  | .float b => !feq b b
  | _ => false

/-- C library `memcmp(a, b, n)` (bytes compared as unsigned), normalised to -1, 0, 1: only the sign is specified. -/
def memcmp : Nat → List Byte → List Byte → Int
  | n + 1, a :: as, b :: bs => if a < b then -1 else if b < a then 1 else memcmp n as bs
  | _, _, _ => 0

/-- `YASL_String_cmp`, data-structures/YASL_String.c:24-36, on the contents of the two strings. -/
def strCmp (left right : List Byte) : Int :=
  if left.length = right.length then memcmp left.length left right
  else if left.length < right.length then
    let tmp := memcmp left.length left right
    if tmp ≠ 0 then tmp else -1
  else
    let tmp := memcmp right.length left right
    if tmp ≠ 0 then tmp else 1

/-- `isequal`, interpreter/YASL_Object.c:110-139 (the shortcut for identical string pointers is subsumed: a string compares
equal to itself). -/
def isEqual : Val → Val → Bool
  | .str a, .str b => strCmp a b == 0
  | .undef, .undef => true
  | .bool a, .bool b => a == b
  | .int a, .int b => a == b
  | .userptr a, .userptr b => a == b
  | a, b => if a.isNum && b.isNum then feq a.getNum b.getNum else false

/-- `isequal_typed`, data-structures/YASL_Table.c:100-102. -/
def isEqualTyped (a b : Val) : Bool := a.tag == b.tag && isEqual a b

end Yasl
