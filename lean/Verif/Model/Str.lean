import Verif.Model.List
import Verif.Model.ByteBuffer
/-!
# `data-structures/YASL_String.c`, `interpreter/str_methods.c`, string slices of `interpreter/VM.c`

A string is a view `[start, end)` of a backing block `str`.  Heap strings own their block, off-heap strings are views
of a block owned by someone else (C string literals).  Reads outside of the block are `ub`.  Lengths are natural numbers: no
block has 2^63 bytes.
-/
namespace Yasl

/-- `struct YASL_String`, data-structures/YASL_String.h:10-16 (without the reference count).  `mem` is the block `str` points to. -/
structure YStr where
  mem : List Byte
  start : Nat
  stop : Nat
  onHeap : Bool
deriving DecidableEq, Repr

/-- `YASL_String_len`, YASL_String.c:16-18. -/
def YStr.len (s : YStr) : Nat := s.stop - s.start

/-- The `n` bytes from `YASL_String_chars(s) + i` (`memcmp`, `memcpy`), `ub` outside the block. YASL_String.c:20-22 -/
def YStr.sub (s : YStr) (i n : Nat) : Out (List Byte) :=
  if s.start + i + n ≤ s.mem.length then .ok ((s.mem.drop (s.start + i)).take n) else .ub

/-- `YASL_String_chars(s)[i]`. YASL_String.c:20-22 -/
def YStr.at (s : YStr) (i : Nat) : Out Byte :=
  match s.mem[s.start + i]? with
  | some b => .ok b
  | none => .ub

/-- `YASL_String_new_sized_heap(0, n, mem)`, YASL_String.c:72-80. -/
def YStr.heap (mem : List Byte) : YStr := { mem, start := 0, stop := mem.length, onHeap := true }

/-- `YASL_String_new_sized(n, ptr)`, YASL_String.c:62-70. -/
def YStr.lit (mem : List Byte) : YStr := { mem, start := 0, stop := mem.length, onHeap := false }

/-- `YASL_String_new_substring`, YASL_String.c:44-60; `a`, `b` are absolute positions in the block, as `size_t` values of C
`int64_t` expressions.  If `b < a`, the size `b - a` wraps around to at least 2^63: for a heap string `malloc` fails and the
`memcpy` through NULL is undefined; for an off-heap string the result is a view of 2^63 or more bytes, out of bounds on
first use.  Both are `ub` here. -/
def YStr.substring (s : YStr) (a b : Int) : Out YStr :=
  if a < 0 ∨ b < a then .ub
  else if s.onHeap then
    if b.toNat ≤ s.mem.length then .ok (YStr.heap ((s.mem.drop a.toNat).take (b.toNat - a.toNat))) else .ub
  else .ok { s with start := a.toNat, stop := b.toNat }

/-- `iswhitespace`, YASL_String.c:14. -/
def isWs (c : Byte) : Bool := c == 32 || c == 9 || c == 10 || c == 11 || c == 13

/-- `str___get`, interpreter/str_methods.c:24-47. -/
def strGet (s : YStr) (index : BitVec 64) : Out YStr :=
  if index.toInt < -(s.len : Int) ∨ index.toInt ≥ s.len then .valueError
  else if index.toInt ≥ 0 then s.substring (s.start + index.toInt) (s.start + index.toInt + 1)
  else s.substring (s.start + index.toInt + s.len) (s.start + index.toInt + s.len + 1)

/-- `vm_SLICE_str`, interpreter/VM.c:670-710: the bounds are computed as for lists (`sliceEnd`, `sliceStart`), then used as
absolute positions in the block. -/
def strSlice (s : YStr) (start stop : Val) : Out YStr :=
  (sliceEnd s.len stop).bind fun e =>
  (sliceStart s.len start).bind fun st => s.substring st e

/-- The loop of `str_find_index` (`k` iterations left, index `i`), YASL_String.c:149-152; -1 is `none`. -/
def findLoop (h n : YStr) : Nat → Nat → Out (Option Nat)
  | 0, _ => .ok none
  | k + 1, i =>
    (h.sub i n.len).bind fun a => (n.sub 0 n.len).bind fun b =>
    if a = b then .ok (some i) else findLoop h n k (i + 1)

/-- `str_find_index` / `str_search`, YASL_String.c:141-154, str_methods.c:164-173. -/
def strFind (h n : YStr) : Out (Option Nat) :=
  if h.len < n.len then .ok none else findLoop h n (h.len - n.len + 1) 0

/-- The loop of `YASL_String_count`, YASL_String.c:404-409.  For an empty needle `i += nLen - 1; i++` leaves `i` unchanged
(`size_t` wrap-around).  The counter is an `int64_t`, incremented at most once per byte unless the loop is endless. -/
def countLoop (h n : YStr) : Nat → Nat → Nat → Run Nat
  | 0, _, _ => none
  | f + 1, i, c =>
    if i + n.len ≤ h.len then
      Run.bind (some (n.sub 0 n.len)) fun a => Run.bind (some (h.sub i n.len)) fun b =>
      if a = b then countLoop h n f (i + n.len) (c + 1) else countLoop h n f (i + 1) c
    else some (.ok c)

/-- `YASL_String_count`, YASL_String.c:399-412. -/
def strCount (f : Nat) (h n : YStr) : Run Nat := countLoop h n f 0 0

/-- A byte-buffer operation whose only failure is an out-of-bounds write. -/
def bbOut {α : Type} (x : Option α) : Run α :=
  match x with
  | some a => some (.ok a)
  | none => some .ub

/-- The loop of `YASL_String_replace_fast_default`, YASL_String.c:368-375. -/
def replLoop (s a b : YStr) : Nat → Nat → ByteBuffer → Run ByteBuffer
  | 0, _, _ => none
  | f + 1, i, buff =>
    if i < s.len then
      Run.bind (if a.len ≤ s.len - i then
          Run.bind (some (s.sub i a.len)) fun x => Run.bind (some (a.sub 0 a.len)) fun y => some (.ok (decide (x = y)))
        else some (.ok false)) fun hit =>
      if hit then
        Run.bind (some (b.sub 0 b.len)) fun r =>
        Run.bind (bbOut (buff.extend r)) fun buff => replLoop s a b f (i + a.len) buff
      else
        Run.bind (some (s.at i)) fun c =>
        Run.bind (bbOut (buff.addByte c)) fun buff => replLoop s a b f (i + 1) buff
    else some (.ok buff)

/-- Reading the finished buffer: `buff->bytes[0 .. count)`; `ub` if a byte was never written. YASL_String.c:349-356 -/
def bbString (buff : ByteBuffer) : Out YStr :=
  match (buff.mem.take buff.count).mapM id with
  | some bytes => .ok (YStr.heap bytes)
  | none => .ub

/-- `str_replace_default` with `YASL_String_replace_fast_default`, str_methods.c:127-140, YASL_String.c:361-378. -/
def strReplace (f : Nat) (s a b : YStr) : Run YStr :=
  if a.len < 1 then some .valueError
  else Run.bind (replLoop s a b f 0 (ByteBuffer.new s.len)) fun buff => some (bbString buff)

/-- The loop of `YASL_String_replace_fast`, YASL_String.c:386-394.  `max` is an `int64_t`; `max--` is undefined at INT64_MIN. -/
def replMaxLoop (s a b : YStr) : Nat → Nat → Int → ByteBuffer → Run ByteBuffer
  | 0, _, _, _ => none
  | f + 1, i, max, buff =>
    if i < s.len then
      Run.bind (if a.len ≤ s.len - i then
          Run.bind (some (s.sub i a.len)) fun x => Run.bind (some (a.sub 0 a.len)) fun y => some (.ok (decide (x = y) && decide (max > 0)))
        else some (.ok false)) fun hit =>
      if hit then
        Run.bind (some (b.sub 0 b.len)) fun r =>
        Run.bind (bbOut (buff.extend r)) fun buff =>
        if max = -2 ^ 63 then some .ub else replMaxLoop s a b f (i + a.len) (max - 1) buff
      else
        Run.bind (some (s.at i)) fun c =>
        Run.bind (bbOut (buff.addByte c)) fun buff =>
        if max = -2 ^ 63 then some .ub else replMaxLoop s a b f (i + 1) (max - 1) buff
    else some (.ok buff)

/-- `str_replace` with a limit, str_methods.c:148-161, YASL_String.c:380-397. -/
def strReplaceMax (f : Nat) (s a b : YStr) (max : BitVec 64) : Run YStr :=
  if a.len < 1 then some .valueError
  else Run.bind (replMaxLoop s a b f 0 max.toInt (ByteBuffer.new s.len)) fun buff => some (bbString buff)

/-- `while (end < len && iswhitespace(chars[end]) == w) end++;`, YASL_String.c:419-421, 424-426 (`w` true / false). -/
def skipWs (s : YStr) (w : Bool) : Nat → Nat → Run Nat
  | 0, _ => none
  | f + 1, e =>
    if e < s.len then
      Run.bind (some (s.at e)) fun c => if isWs c = w then skipWs s w f (e + 1) else some (.ok e)
    else some (.ok e)

/-- The loop of `YASL_String_split_default`, YASL_String.c:418-431.  The pieces appended to the list so far are `acc`. -/
def splitWsLoop (s : YStr) : Nat → Nat → List YStr → Run (List YStr)
  | 0, _, _ => none
  | f + 1, e, acc =>
    Run.bind (skipWs s true f e) fun e =>
    if e ≥ s.len then some (.ok acc)
    else
      Run.bind (skipWs s false f e) fun e2 =>
      Run.bind (some (s.substring ((e + s.start : Nat) : Int) ((e2 + s.start : Nat) : Int))) fun p =>
      splitWsLoop s f e2 (acc ++ [p])

/-- `str_split_default`, str_methods.c:182-189, YASL_String.c:414-432 (the list operations are those of `Verif.Model.List`). -/
def strSplitWs (f : Nat) (s : YStr) : Run (List YStr) := splitWsLoop s f 0 []

/-- The loop of `YASL_String_split_fast` with the code after it, YASL_String.c:439-454. -/
def splitLoop (h n : YStr) : Nat → Nat → Nat → List YStr → Run (List YStr)
  | 0, _, _, _ => none
  | f + 1, start, e, acc =>
    if e + n.len ≤ h.len then
      Run.bind (some (h.sub e n.len)) fun a => Run.bind (some (n.sub 0 n.len)) fun b =>
      if a = b then
        Run.bind (some (h.substring ((start + h.start : Nat) : Int) ((e + h.start : Nat) : Int))) fun p =>
        splitLoop h n f (e + n.len) (e + n.len) (acc ++ [p])
      else splitLoop h n f start (e + 1) acc
    else
      Run.bind (some (h.substring ((start + h.start : Nat) : Int) ((e + h.start : Nat) : Int))) fun p => some (.ok (acc ++ [p]))

/-- `str_split`, str_methods.c:198-211, YASL_String.c:434-454. -/
def strSplit (f : Nat) (h n : YStr) : Run (List YStr) :=
  if n.len = 0 then some .valueError else splitLoop h n f 0 0 []

/-- `while (len - start >= 1 && iswhitespace(chars[start])) start++;`, YASL_String.c:460-462, 512-514. -/
def ltrimWsLoop (s : YStr) : Nat → Nat → Run Nat
  | 0, _ => none
  | f + 1, st =>
    if s.len - st ≥ 1 then
      Run.bind (some (s.at st)) fun c => if isWs c then ltrimWsLoop s f (st + 1) else some (.ok st)
    else some (.ok st)

/-- `while (end >= 1 && iswhitespace(chars[end - 1])) end--;`, YASL_String.c:488-490, 517-519. -/
def rtrimWsLoop (s : YStr) : Nat → Out Nat
  | 0 => .ok 0
  | e + 1 => (s.at e).bind fun c => if isWs c then rtrimWsLoop s e else .ok (e + 1)

/-- `while (len - start >= nlen && !memcmp(chars + start, needle, nlen)) start += nlen;`, YASL_String.c:475-478, 530-533.
`start` never exceeds `len`, so the unsigned subtraction is exact. -/
def ltrimLoop (h n : YStr) : Nat → Nat → Run Nat
  | 0, _ => none
  | f + 1, st =>
    if h.len - st ≥ n.len then
      Run.bind (some (h.sub st n.len)) fun a => Run.bind (some (n.sub 0 n.len)) fun b =>
      if a = b then ltrimLoop h n f (st + n.len) else some (.ok st)
    else some (.ok st)

/-- `while (end >= nlen && !memcmp(chars + end - nlen, needle, nlen)) end -= nlen;`, YASL_String.c:500-503, 536-539. -/
def rtrimLoop (h n : YStr) : Nat → Nat → Run Nat
  | 0, _ => none
  | f + 1, e =>
    if e ≥ n.len then
      Run.bind (some (h.sub (e - n.len) n.len)) fun a => Run.bind (some (n.sub 0 n.len)) fun b =>
      if a = b then rtrimLoop h n f (e - n.len) else some (.ok e)
    else some (.ok e)

/-- `YASL_String_new_substring(s->start + a, s->start + b, s)`. -/
def YStr.piece (s : YStr) (a b : Nat) : Out YStr := s.substring ((s.start + a : Nat) : Int) ((s.start + b : Nat) : Int)

/-- `YASL_String_ltrim_default`, YASL_String.c:456-467. -/
def strLtrimWs (f : Nat) (s : YStr) : Run YStr := Run.bind (ltrimWsLoop s f 0) fun st => some (s.piece st s.len)
/-- `YASL_String_rtrim_default`, YASL_String.c:484-493. -/
def strRtrimWs (s : YStr) : Out YStr := (rtrimWsLoop s s.len).bind fun e => s.piece 0 e
/-- `YASL_String_trim_default`, YASL_String.c:508-522. -/
def strTrimWs (f : Nat) (s : YStr) : Run YStr :=
  Run.bind (ltrimWsLoop s f 0) fun st => Run.bind (some (rtrimWsLoop s s.len)) fun e => some (s.piece st e)
/-- `YASL_String_ltrim`, YASL_String.c:469-482. -/
def strLtrim (f : Nat) (h n : YStr) : Run YStr := Run.bind (ltrimLoop h n f 0) fun st => some (h.piece st h.len)
/-- `YASL_String_rtrim`, YASL_String.c:495-506. -/
def strRtrim (f : Nat) (h n : YStr) : Run YStr := Run.bind (rtrimLoop h n f h.len) fun e => some (h.piece 0 e)
/-- `YASL_String_trim`, YASL_String.c:524-542. -/
def strTrim (f : Nat) (h n : YStr) : Run YStr :=
  Run.bind (ltrimLoop h n f 0) fun st => Run.bind (rtrimLoop h n f h.len) fun e => some (h.piece st e)

/-- `UPPER`, YASL_String.c:265 (a negative `char`, i.e. a byte from 0x80 on, is below 0x61). -/
def upperC (c : Byte) : Byte := if 0x61 ≤ c.toInt ∧ c.toInt < 0x7B then c &&& ~~~ 0x20#8 else c
/-- `LOWER`, YASL_String.c:266. -/
def lowerC (c : Byte) : Byte := if 0x41 ≤ c.toInt ∧ c.toInt < 0x5B then c ||| 0x20#8 else c

/-- The loop of `DEFINE_STR_TO_X` (`k` bytes left), YASL_String.c:269-284. -/
def mapLoop (s : YStr) (g : Byte → Byte) : Nat → Nat → Out (List Byte)
  | 0, _ => .ok []
  | k + 1, i => (s.at i).bind fun c => (mapLoop s g k (i + 1)).bind fun r => .ok (g c :: r)

/-- `YASL_String_toupper` / `tolower`, YASL_String.c:286-287. -/
def strToupper (s : YStr) : Out YStr := (mapLoop s upperC s.len 0).bind fun m => .ok (YStr.heap m)
/-- `YASL_String_tolower`, YASL_String.c:287. -/
def strTolower (s : YStr) : Out YStr := (mapLoop s lowerC s.len 0).bind fun m => .ok (YStr.heap m)

/-- `isalpha` (C library, C locale) on a `char`: undefined for negative values other than EOF = -1. -/
def isalphaC (c : Byte) : Out Bool :=
  if 0x80 ≤ c.toNat ∧ c.toNat < 0xFF then .ub
  else .ok (decide ((65 ≤ c.toNat ∧ c.toNat ≤ 90) ∨ (97 ≤ c.toNat ∧ c.toNat ≤ 122)))
/-- `isdigit` (C library). -/
def isdigitC (c : Byte) : Out Bool :=
  if 0x80 ≤ c.toNat ∧ c.toNat < 0xFF then .ub else .ok (decide (48 ≤ c.toNat ∧ c.toNat ≤ 57))
/-- `isalnum` (C library). -/
def isalnumC (c : Byte) : Out Bool :=
  (isalphaC c).bind fun a => (isdigitC c).bind fun d => .ok (a || d)

/-- The loop of `DEFINE_STR_IS_X`, YASL_String.c:290-301. -/
def allLoop (s : YStr) (p : Byte → Out Bool) : Nat → Nat → Out Bool
  | 0, _ => .ok true
  | k + 1, i => (s.at i).bind fun c => (p c).bind fun r => if r then allLoop s p k (i + 1) else .ok false

/-- `YASL_String_isal`, YASL_String.c:303. -/
def strIsal (s : YStr) : Out Bool := allLoop s isalphaC s.len 0
/-- `YASL_String_isnum`, YASL_String.c:304. -/
def strIsnum (s : YStr) : Out Bool := allLoop s isdigitC s.len 0
/-- `YASL_String_isalnum`, YASL_String.c:305. -/
def strIsalnum (s : YStr) : Out Bool := allLoop s isalnumC s.len 0
/-- `YASL_String_isspace`, YASL_String.c:306. -/
def strIsspace (s : YStr) : Out Bool := allLoop s (fun c => .ok (isWs c)) s.len 0

/-- The loop of `startswith`/`endswith` comparing `k` bytes from offset `off` of the haystack, YASL_String.c:315-319, 331-337. -/
def cmpLoop (h n : YStr) (off : Nat) : Nat → Nat → Out Bool
  | 0, _ => .ok true
  | k + 1, i =>
    (h.at (i + off)).bind fun a => (n.at i).bind fun b => if a ≠ b then .ok false else cmpLoop h n off k (i + 1)

/-- `YASL_String_startswith`, YASL_String.c:308-322. -/
def strStartswith (h n : YStr) : Out Bool := if h.len < n.len then .ok false else cmpLoop h n 0 n.len 0
/-- `YASL_String_endswith`, YASL_String.c:324-341. -/
def strEndswith (h n : YStr) : Out Bool := if h.len < n.len then .ok false else cmpLoop h n (h.len - n.len) n.len 0

/-- The loop of `YASL_String_rep_fast`, YASL_String.c:550-552. -/
def repLoop (s : YStr) (size : Nat) : Nat → Nat → Block Byte → Run (Block Byte)
  | 0, _, _ => none
  | f + 1, i, m =>
    if i < size then
      Run.bind (some (s.sub 0 s.len)) fun b => Run.bind (some (m.memcpy i b)) fun m => repLoop s size f (i + s.len) m
    else some (.ok m)

/-- `str_repeat` with `YASL_String_rep_fast`, str_methods.c:271-282, YASL_String.c:545-555: `size = num * len` in `size_t`. -/
def strRep (f : Nat) (s : YStr) (num : BitVec 64) : Run (Block Byte) :=
  if num.toInt < 0 then some .valueError
  else
    let size := num.toNat * s.len % 2 ^ 64
    repLoop s size f 0 (Block.malloc size)

/-- One step of iterating over a string (`O_ITER_1` on a string), interpreter/VM.c:902-913: the position is absolute. -/
def strIterNth (s : YStr) (i : Nat) : Option (Out YStr) :=
  if s.len ≤ i then none else some (s.substring i (i + 1))

end Yasl
