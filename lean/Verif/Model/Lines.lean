import Verif.Model.Varint
import Verif.Model.Mem
/-!
# Line numbers: the line table written by `compiler/compiler.c` and read by `interpreter/VM.c`

The buffer `lines` is the list of bytes appended to it (C19 proves that byte buffers are such logs).
-/
set_option autoImplicit false
namespace Yasl

/-- The part of `struct Compiler` that matters for line numbers: `line`, `lines` and the number of bytes emitted so far,
`code->count + buffer->count`. compiler/compiler.h:46-63 -/
structure LineComp where
  line : Nat
  emitted : Nat
  lines : List Byte
deriving DecidableEq, Repr

/-- `NEW_COMPILER`, compiler/compiler.h:31-32. -/
def LineComp.init : LineComp := { line := 0, emitted := 0, lines := [] }

/-- `while (node->line > compiler->line) { add_vint(lines, count); line++; }` (`k = node->line - line` rounds),
compiler/compiler.c:1403-1406. -/
def LineComp.advance (c : LineComp) : Nat → LineComp
  | 0 => c
  | k + 1 => LineComp.advance { c with lines := c.lines ++ vintEncode (BitVec.ofNat 64 c.emitted), line := c.line + 1 } k

/-- Something the compiler does: `visit` a node on some source line, or emit `n` bytes of code. -/
inductive LineEv where
  | visit (line : Nat)
  | emit (n : Nat)
deriving Repr

/-- `visit`, compiler/compiler.c:1402-1409, and `compiler_add_byte`/`compiler_add_int`, compiler.c:60-80. -/
def LineComp.step (c : LineComp) : LineEv → LineComp
  | .visit l => c.advance (l - c.line)
  | .emit n => { c with emitted := c.emitted + n }

/-- The final entry added by `return_bytes`, compiler/compiler.c:277. -/
def LineComp.finish (c : LineComp) : List Byte := c.lines ++ vintEncode (BitVec.ofNat 64 c.emitted)

/-- The loop of `vm_getcurrline`, interpreter/VM.c:138-148; `mem` is the memory from `tmp` on, `off` is
`pc - code - start`.  Reading past the end of the bytecode is `ub`. -/
def getLineLoop (off : BitVec 64) : Nat → List Byte → Nat → Run Nat
  | 0, _, _ => none
  | f + 1, mem, i =>
    match vintDecode mem with
    | none => some .ub
    | some e =>
      if e < off then
        match vintNext mem with
        | none => some .ub
        | some mem => getLineLoop off f mem (i + 1)
      else some (.ok i)

/-- `vm_getcurrline`, interpreter/VM.c:138-148. -/
def getCurrLine (f : Nat) (lines : List Byte) (off : BitVec 64) : Run Nat := getLineLoop off f lines 0

end Yasl
