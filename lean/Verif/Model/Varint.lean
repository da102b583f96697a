/-!
# `util/varint.c` — variable width integers
-/
namespace Yasl

/-- `vint_encode`, util/varint.c:3-11.  The bytes written to `buff`, in order; the returned `int` is their number.
`val` is a `size_t`. -/
def vintEncode (val : BitVec 64) : List (BitVec 8) :=
  if h : val ≤ 0x7F#64 then [val.setWidth 8]
  else ((val &&& 0x7F#64).setWidth 8 ||| 0x80#8) :: vintEncode (val >>> 7)
termination_by val.toNat
decreasing_by
  simp only [BitVec.not_le, BitVec.lt_def] at h
  have : (0x7F#64).toNat = 127 := rfl
  simp only [BitVec.toNat_ushiftRight, Nat.shiftRight_eq_div_pow]
  omega

/-- `vint_decode`, util/varint.c:13-19.  Reading past the end of the memory that is there is `none` (undefined
behaviour in C).  The shift of a `size_t` drops high bits. -/
def vintDecode : List (BitVec 8) → Option (BitVec 64)
  | [] => none
  | b :: bs =>
    if b &&& 0x80#8 = 0#8 then some (b.setWidth 64)
    else do
      let r ← vintDecode bs
      return (b &&& 0x7F#8).setWidth 64 ||| (r <<< 7)

/-- `vint_next`, util/varint.c:21-24: the memory from the returned pointer on. -/
def vintNext : List (BitVec 8) → Option (List (BitVec 8))
  | [] => none
  | b :: bs => if b &&& 0x80#8 = 0#8 then some bs else vintNext bs

end Yasl
