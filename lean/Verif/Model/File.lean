import Verif.Model.Mem
import Verif.Model.Require
import Verif.Spec.File
set_option autoImplicit false
/-!
# Files: std/yasl-std-io.c

The C library is modelled by its documented behaviour on a regular file, without I/O errors.  A stream opened for reading and writing may not change from writing to
reading without `fflush`/`fseek`, nor from reading to writing without `fseek` (unless the end was reached): this is undefined behaviour (C11 7.21.5.3), as is any use
of a closed stream.
-/
namespace Yasl

/-- The last operation on a stream, as far as the C standard restricts the next one. -/
inductive LastIO where
  | none_ | input | output
deriving DecidableEq, Repr

/-- `FILE`. -/
structure CFile where
  content : List Byte
  pos : Nat
  canRead : Bool
  canWrite : Bool
  append : Bool
  isOpen : Bool
  last : LastIO
deriving DecidableEq, Repr

/-- C library `fgetc`: `none` is `EOF`. -/
def CFile.fgetc (f : CFile) : Out (Option Byte × CFile) :=
  if f.isOpen = false then .ub else
  if f.canRead = false then .ok (none, f) else
  if f.last = .output then .ub else
  match f.content[f.pos]? with
  | some c => .ok (some c, { f with pos := f.pos + 1, last := .input })
  | none => .ok (none, { f with last := .none_ })

/-- C library `fread(ptr, n, 1, f)`: the bytes stored. -/
def CFile.fread (f : CFile) (n : Nat) : Out (List Byte × CFile) :=
  if f.isOpen = false then .ub else
  if n = 0 then .ok ([], f) else
  if f.canRead = false then .ok ([], f) else
  if f.last = .output then .ub else
  let got := (f.content.drop f.pos).take n
  .ok (got, { f with pos := f.pos + got.length, last := if got.length < n then .none_ else .input })

/-- C library `fwrite(ptr, 1, n, f)`: the number of bytes written. -/
def CFile.fwrite (f : CFile) (bytes : List Byte) : Out (Nat × CFile) :=
  if f.isOpen = false then .ub else
  if bytes.length = 0 then .ok (0, f) else
  if f.canWrite = false then .ok (0, f) else
  if f.canRead = true ∧ f.last = .input then .ub else
  let at_ := if f.append then f.content.length else f.pos
  .ok (bytes.length, { f with content := f.content.take at_ ++ List.replicate (at_ - f.content.length) 0#8 ++ bytes ++ f.content.drop (at_ + bytes.length), pos := at_ + bytes.length, last := .output })

/-- C library `fseek`: whether it succeeds. -/
def CFile.fseek (f : CFile) (offset : Int) (w : Whence) : Out (Bool × CFile) :=
  if f.isOpen = false then .ub else
  let target : Int := offset + (match w with | .set => 0 | .cur => (f.pos : Int) | .fend => (f.content.length : Int))
  if target < 0 ∨ 2 ^ 63 ≤ target then .ok (false, f) else .ok (true, { f with pos := target.toNat, last := .none_ })

/-- C library `ftell`. -/
def CFile.ftell (f : CFile) : Out Nat := if f.isOpen = false then .ub else .ok f.pos

/-- C library `fflush` (POSIX: also for input). -/
def CFile.fflush (f : CFile) : Out (Bool × CFile) :=
  if f.isOpen = false then .ub else .ok (true, { f with last := if f.last = .output then .none_ else f.last })

/-- C library `fclose`. -/
def CFile.fclose (f : CFile) : Out (Bool × CFile) := if f.isOpen = false then .ub else .ok (true, { f with isOpen := false })

/-- An optional string argument. -/
inductive SArg where
  | undef | str (bytes : List Byte) | other
deriving DecidableEq, Repr

/-- An optional integer argument. -/
inductive IArg where
  | undef | int (i : BitVec 64) | other
deriving DecidableEq, Repr

/-- What a method returns. -/
inductive FReply where
  | str (bytes : List Byte) | int (i : Nat) | bool (b : Bool)
deriving DecidableEq, Repr

/-- The first `n` bytes of a block, yasl.c:322-326 (`YASL_pushlstr`); uninitialised bytes are undefined behaviour. -/
def takeBlock (m : Block Byte) : Nat → Nat → Out (List Byte)
  | 0, _ => .ok []
  | k + 1, i => (m.ld i).bind fun c => (takeBlock m k (i + 1)).bind fun r => .ok (c :: r)

/-- The loop that reads a line, std/yasl-std-io.c:156-162: the block `string`, `size` and `i`. -/
def readLineLoop : Nat → CFile → Block Byte → Nat → Nat → Run (CFile × Block Byte × Nat)
  | 0, _, _, _, _ => none
  | k + 1, f, string, size, i =>
    Run.bind (some f.fgetc) fun r =>
    match r.1 with
    | none => some (.ok (r.2, string, i))
    | some c =>
      if c = 10#8 then some (.ok (r.2, string, i)) else
      let sz := if i = size then size * 2 else size
      let string := if i = size then Block.realloc string sz else string
      Run.bind (some (string.st i c)) fun string => readLineLoop k r.2 string sz (i + 1)

/-- `'a'`, `'l'`. -/
def modeAll : Byte := 0x61
/-- See `modeAll`. -/
def modeLine : Byte := 0x6C

/-- The mode of `read`, std/yasl-std-io.c:115-131: the single character. -/
def readMode : SArg → Out Byte
  | .undef => .ok modeLine
  | .str b => (peekCstr b).bind fun tmp => match tmp with
    | [c] => .ok c
    | _ => .valueError
  | .other => .typeError

/-- `YASL_io_read`, std/yasl-std-io.c:114-171 (the file has been checked). -/
def ioRead (fuel : Nat) (f : CFile) (arg : SArg) : Run (CFile × FReply) :=
  Run.bind (some (readMode arg)) fun mode =>
  if mode = modeAll then
    Run.bind (some (f.fseek 0 .fend)) fun r =>
    Run.bind (some r.2.ftell) fun fsize =>
    Run.bind (some (r.2.fseek 0 .set)) fun r =>
    Run.bind (some (r.2.fread fsize)) fun r =>
    Run.bind (some ((Block.malloc fsize : Block Byte).memcpy 0 r.1)) fun string =>
    Run.bind (some (takeBlock string fsize 0)) fun bytes => some (.ok (r.2, .str bytes))
  else if mode = modeLine then
    Run.bind (readLineLoop fuel f (Block.malloc 16) 16 0) fun r =>
    Run.bind (some (takeBlock r.2.1 r.2.2 0)) fun bytes => some (.ok (r.1, .str bytes))
  else some .valueError

/-- `YASL_io_write`, std/yasl-std-io.c:173-190. -/
def ioWrite (f : CFile) : SArg → Out (CFile × FReply)
  | .str b => (peekCstr b).bind fun str => (f.fwrite str).bind fun r => .ok (r.2, .int r.1)
  | _ => .typeError

/-- `YASL_io_flush`, std/yasl-std-io.c:192-199. -/
def ioFlush (f : CFile) : Out (CFile × FReply) := f.fflush.bind fun r => .ok (r.2, .bool r.1)

/-- The origin of a seek, std/yasl-std-io.c:213-231. -/
def seekWhence : SArg → Out Whence
  | .undef => .ok .set
  | .str b => (peekCstr b).bind fun tmp =>
    if tmp = asciiBytes "set" then .ok .set else if tmp = asciiBytes "cur" then .ok .cur else if tmp = asciiBytes "end" then .ok .fend else .valueError
  | .other => .typeError

/-- `YASL_io_seek`, std/yasl-std-io.c:201-238. -/
def ioSeek (f : CFile) (whence : SArg) (offset : IArg) : Out (CFile × FReply) :=
  match offset with
  | .other => .typeError
  | .undef => (seekWhence whence).bind fun w => (f.fseek 0 w).bind fun r => .ok (r.2, .bool r.1)
  | .int i => (seekWhence whence).bind fun w => (f.fseek i.toInt w).bind fun r => .ok (r.2, .bool r.1)

/-- `YASL_io_close`, std/yasl-std-io.c:240-246. -/
def ioClose (f : CFile) : Out (CFile × FReply) := f.fclose.bind fun r => .ok (r.2, .bool r.1)

/-- `close_file`, std/yasl-std-io.c:32-34, run when the last reference to a file from `io.open` is dropped (`ud_del_data`, interpreter/userdata.c:17-23). -/
def ioRelease (f : CFile) : Out CFile := f.fclose.bind fun r => .ok r.2

/-- A method call on a file. -/
inductive FCall where
  | read (mode : SArg)
  | write (arg : SArg)
  | seek (whence : SArg) (offset : IArg)
  | flush
  | close
deriving DecidableEq, Repr

/-- One method call; `fuel` for the loop of `read`. -/
def CFile.call (fuel : Nat) (f : CFile) : FCall → Run (CFile × FReply)
  | .read m => ioRead fuel f m
  | .write a => some (ioWrite f a)
  | .seek w o => some (ioSeek f w o)
  | .flush => some (ioFlush f)
  | .close => some (ioClose f)

/-- A sequence of method calls. -/
def CFile.calls (fuel : Nat) : CFile → List FCall → Run (CFile × List FReply)
  | f, [] => some (.ok (f, []))
  | f, c :: cs => Run.bind (f.call fuel c) fun r => Run.bind (CFile.calls fuel r.1 cs) fun r' => some (.ok (r'.1, r.2 :: r'.2))

/-- The modes given to `fopen`. -/
inductive OpenMode where
  | r | w | a
deriving DecidableEq, Repr

/-- `io.open`'s mode, std/yasl-std-io.c:37-53, 64-102: which `fopen` is called; the Boolean is `+`.  (The check of the file name's type, 56-59, comes between the two
checks of the mode.) -/
def openMode (nameIsStr : Bool) (arg : SArg) : Out (OpenMode × Bool) :=
  (match arg with
    | .undef => Out.ok [0x72#8]
    | .str b => (peekCstr b).bind fun tmp =>
      if tmp.length > 2 ∨ tmp.length < 1 ∨ (tmp.length = 2 ∧ tmp[1]? ≠ some 0x2B#8) then .valueError else .ok tmp
    | .other => .typeError).bind fun mode =>
  if nameIsStr = false then .typeError else
  let plus := mode.length == 2
  if mode.head? = some 0x72#8 then .ok (.r, plus)
  else if mode.head? = some 0x77#8 then .ok (.w, plus)
  else if mode.head? = some 0x61#8 then .ok (.a, plus)
  else .valueError

/-- C library `fopen` of a file with the given content (`none`: it does not exist and, for writing, is created). -/
def fopenFile (content : Option (List Byte)) : OpenMode × Bool → Option CFile
  | (.r, plus) => content.map fun b => { content := b, pos := 0, canRead := true, canWrite := plus, append := false, isOpen := true, last := .none_ }
  | (.w, plus) => some { content := [], pos := 0, canRead := plus, canWrite := true, append := false, isOpen := true, last := .none_ }
  | (.a, plus) => some { content := content.getD [], pos := 0, canRead := plus, canWrite := true, append := true, isOpen := true, last := .none_ }

/-- `YASL_io_open`, std/yasl-std-io.c:36-112: `none` is `undef`. -/
def ioOpen (fs : List Byte → Option (List Byte)) (name : SArg) (mode : SArg) : Out (Option CFile) :=
  match name with
  | .str b => (openMode true mode).bind fun m => (peekCstr b).bind fun n => .ok (fopenFile (fs n) m)
  | _ => (openMode false mode).bind fun _ => .typeError

end Yasl
