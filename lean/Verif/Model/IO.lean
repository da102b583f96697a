import Verif.Model.Str
/-!
# `echo` and captured output: interpreter/VM.c:1303-1323, util/IO.c
-/
set_option autoImplicit false
namespace Yasl

/-- The loop of `io_str_strip_char`, util/IO.c:29-56 (`SECURE_SCRATCH` is off), from index `i` on, `k` rounds left.  Returns `dest` and `ct`
(`dest_caret` always equals `ct`). -/
def stripLoop (src : YStr) (rem : Byte) : (k : Nat) → (i srcCaret ct : Nat) → Block Byte → Out (Block Byte × Nat)
  | 0, _, _, ct, dest => .ok (dest, ct)
  | k + 1, i, srcCaret, ct, dest =>
    (src.at i).bind fun c =>
    if c = rem then stripLoop src rem k (i + 1) (srcCaret + 1) ct dest
    else (src.at srcCaret).bind fun d => (dest.st ct d).bind fun dest => stripLoop src rem k (i + 1) (srcCaret + 1) (ct + 1) dest

/-- `io_str_strip_char(dest, src, n, rem)`, util/IO.c:29-56. -/
def ioStrStripChar (dest : Block Byte) (src : YStr) (n : Nat) (rem : Byte) : Out (Block Byte × Nat) := stripLoop src rem n 0 0 0 dest

/-- The size of the scratch buffer, interpreter/VM.h:20. -/
def scratchSize : Nat := 1024

/-- `(size_t)(int)len`, interpreter/VM.c:1309. -/
def sizeOfInt (len : Nat) : Nat := ((BitVec.ofNat 64 len).setWidth 32).signExtend 64 |>.toNat

/-- The bytes printed by `"%.*s\n"` for `copied` bytes at `dest`: up to `copied` bytes, stopping at a NUL (C library). -/
def formatEcho (dest : Block Byte) : (copied : Nat) → (i : Nat) → Out (List Byte)
  | 0, _ => .ok [10#8]
  | k + 1, i => (dest.ld i).bind fun c => if c = 0#8 then .ok [10#8] else (formatEcho dest k (i + 1)).bind fun r => .ok (c :: r)

/-- `struct IO` when capturing to a string: the block `string` and `len`, util/IO.h:12-18. -/
structure StrIO where
  string : Block Byte
  len : Nat
deriving DecidableEq, Repr

/-- `NEW_IO`, util/IO.h:6-11: no output yet. -/
def StrIO.init : StrIO := { string := [], len := 0 }

/-- `io_print_string`, util/IO.c:19-28, with the formatted message `msg` (a string without NUL bytes; `vsprintf` writes it and a NUL).  For a
message longer than `INT_MAX` `vsnprintf` fails (returns -1) and the buffer is too small. -/
def StrIO.print (io : StrIO) (msg : List Byte) : Out StrIO :=
  if msg.length ≥ 2 ^ 31 then .ub else
  let len := io.len + msg.length
  (Block.memcpy (Block.realloc io.string (len + 1)) (len - msg.length) (msg ++ [0#8])).bind fun m => .ok { string := m, len }

/-- `vm_ECHO`, interpreter/VM.c:1303-1323, for a value that has been converted to the string `v`. -/
def echo (scratch : Block Byte) (io : StrIO) (v : YStr) : Out StrIO :=
  let strlen := sizeOfInt v.len
  let dest := if strlen > scratchSize then Block.malloc strlen else scratch
  (ioStrStripChar dest v strlen 0#8).bind fun r =>
  (formatEcho r.1 r.2 0).bind fun msg => io.print msg

/-- `YASL_loadprintout`, yasl.c:68-70: pushes the first `len` bytes of `string`. -/
def StrIO.contents (io : StrIO) : Out (List Byte) :=
  let rec go : Nat → Nat → Out (List Byte)
    | 0, _ => .ok []
    | k + 1, i => (io.string.ld i).bind fun c => (go k (i + 1)).bind fun r => .ok (c :: r)
  go io.len 0

end Yasl
