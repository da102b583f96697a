import Verif.Model.Varint
/-!
# `data-structures/YASL_ByteBuffer.c`

Memory is explicit: `mem` is the allocated block (`none` = uninitialised byte), and a write outside of the block is the
outcome `none` of the operation (undefined behaviour in C).  `size` and `count` are `Nat`: buffers of 2^63 bytes and
more are not modelled.
-/
namespace Yasl

/-- `struct YASL_ByteBuffer`, data-structures/YASL_ByteBuffer.h. -/
structure ByteBuffer where
  size : Nat
  count : Nat
  mem : List (Option (BitVec 8))
deriving DecidableEq

/-- `realloc` of the block to `n` bytes: a prefix is kept, new bytes are uninitialised (C library). -/
def reallocMem (mem : List (Option (BitVec 8))) (n : Nat) : List (Option (BitVec 8)) :=
  mem.take n ++ List.replicate (n - mem.length) none

/-- `memcpy(mem + at, bytes, len)`: `none` (UB) unless the range is inside the block (C library). -/
def memWrite (mem : List (Option (BitVec 8))) (at_ : Nat) (bytes : List (BitVec 8)) :
    Option (List (Option (BitVec 8))) :=
  if at_ + bytes.length ≤ mem.length then
    some (mem.take at_ ++ bytes.map some ++ mem.drop (at_ + bytes.length))
  else none

/-- `YASL_ByteBuffer_new`, YASL_ByteBuffer.c:9-15. -/
def ByteBuffer.new (size : Nat) : ByteBuffer := { size, count := 0, mem := List.replicate size none }

/-- `YASL_ByteBuffer_extend`, YASL_ByteBuffer.c:22-26. -/
def ByteBuffer.extend (bb : ByteBuffer) (bytes : List (BitVec 8)) : Option ByteBuffer :=
  let bb := if bb.size < bb.count + bytes.length then
      { bb with size := (bb.count + bytes.length) * 2, mem := reallocMem bb.mem ((bb.count + bytes.length) * 2) }
    else bb
  (memWrite bb.mem bb.count bytes).map fun mem => { bb with mem, count := bb.count + bytes.length }

/-- `YASL_ByteBuffer_add_byte`, YASL_ByteBuffer.c:28-31.  Note the growth to `count * 2`. -/
def ByteBuffer.addByte (bb : ByteBuffer) (byte : BitVec 8) : Option ByteBuffer :=
  let bb := if bb.size ≤ bb.count then
      { bb with size := bb.count * 2, mem := reallocMem bb.mem (bb.count * 2) }
    else bb
  (memWrite bb.mem bb.count [byte]).map fun mem => { bb with mem, count := bb.count + 1 }

/-- `YASL_ByteBuffer_add_vint`, YASL_ByteBuffer.c:33-42 (same growth rule as `extend`). -/
def ByteBuffer.addVint (bb : ByteBuffer) (val : BitVec 64) : Option ByteBuffer :=
  let buff := vintEncode val
  let bb := if bb.size < bb.count + buff.length then
      { bb with size := (bb.count + buff.length) * 2, mem := reallocMem bb.mem ((bb.count + buff.length) * 2) }
    else bb
  (memWrite bb.mem bb.count buff).map fun mem => { bb with mem, count := bb.count + buff.length }

/-- The eight bytes of a `yasl_int` or `yasl_float` in memory, little endian (the platform assumed). -/
def bytes8 (v : BitVec 64) : List (BitVec 8) :=
  [v.extractLsb' 0 8, v.extractLsb' 8 8, v.extractLsb' 16 8, v.extractLsb' 24 8,
   v.extractLsb' 32 8, v.extractLsb' 40 8, v.extractLsb' 48 8, v.extractLsb' 56 8]

/-- `YASL_ByteBuffer_add_int` / `add_float`, YASL_ByteBuffer.c:44-56 (identical code, a float is its bit pattern). -/
def ByteBuffer.addInt (bb : ByteBuffer) (value : BitVec 64) : Option ByteBuffer :=
  let bb := if bb.size < bb.count + 8 then
      { bb with size := (bb.count + 8) * 2, mem := reallocMem bb.mem ((bb.count + 8) * 2) }
    else bb
  (memWrite bb.mem bb.count (bytes8 value)).map fun mem => { bb with mem, count := bb.count + 8 }

/-- `YASL_ByteBuffer_rewrite_int_fast`, YASL_ByteBuffer.c:59-62.  The assertion is compiled out in release builds, so
only the bounds of the block matter. -/
def ByteBuffer.rewriteInt (bb : ByteBuffer) (index : Nat) (value : BitVec 64) : Option ByteBuffer :=
  (memWrite bb.mem index (bytes8 value)).map fun mem => { bb with mem }

/-- Reading back an 8-byte integer (`vm_read_int`, interpreter/VM.c, a memcpy of 8 bytes). -/
def readInt8 : List (BitVec 8) → Option (BitVec 64)
  | b0 :: b1 :: b2 :: b3 :: b4 :: b5 :: b6 :: b7 :: _ =>
    some (b0.setWidth 64 ||| (b1.setWidth 64 <<< 8) ||| (b2.setWidth 64 <<< 16) ||| (b3.setWidth 64 <<< 24) |||
      (b4.setWidth 64 <<< 32) ||| (b5.setWidth 64 <<< 40) ||| (b6.setWidth 64 <<< 48) ||| (b7.setWidth 64 <<< 56))
  | _ => none

/-- One buffer operation, as called by the compiler and by string-building methods. -/
inductive BBOp where
  | extend (bytes : List (BitVec 8))
  | addByte (b : BitVec 8)
  | addVint (v : BitVec 64)
  | addInt (v : BitVec 64)
  | rewrite (index : Nat) (v : BitVec 64)

/-- Dispatch of an operation (model glue, no C counterpart). -/
def ByteBuffer.step (bb : ByteBuffer) : BBOp → Option ByteBuffer
  | .extend bs => bb.extend bs
  | .addByte b => bb.addByte b
  | .addVint v => bb.addVint v
  | .addInt v => bb.addInt v
  | .rewrite i v => bb.rewriteInt i v

/-- A history of operations (model glue); `none` if one of them is undefined behaviour. -/
def ByteBuffer.run (bb : ByteBuffer) : List BBOp → Option ByteBuffer
  | [] => some bb
  | op :: ops => (bb.step op).bind fun bb => bb.run ops

end Yasl
