import Verif.Model.Mem
import Verif.Model.Str
set_option autoImplicit false
/-!
# The search for modules: std/yasl-std-require.c:14-49, 111-163

A C string is the list of its bytes before the NUL.  `opens` is `YASL_newstate_num` (`fopen`) or `dlopen`: which file names can be opened.  The names passed to
it are recorded.  (In the C code the parameter called `sep` receives `YASL_PATH_MARK` and `dirmark` receives `YASL_PATH_SEP`; here they are `mark` and `sep`.)
-/
namespace Yasl

/-- C library `strchr(s + start, c)` for `c` other than NUL: the index of the first `c` from `start` on. -/
def strchrFrom (s : List Byte) (start : Nat) (c : Byte) : Option Nat := ((s.drop start).findIdx? (· == c)).map (start + ·)

/-- The C string that starts at the beginning of a block: the bytes before the first NUL; reading past the end is undefined. -/
def cstrOf : Block Byte → Out (List Byte)
  | [] => .ub
  | none :: _ => .ub
  | some c :: m => if c = 0#8 then .ok [] else (cstrOf m).bind fun s => .ok (c :: s)

/-- The file name built for the entry between `start` and `stop` (the C variable `end`), std/yasl-std-require.c:18-23 and 115-120.  `memcpy` with a negative length
(converted to `size_t`) is undefined. -/
def pathBuffer (path name : List Byte) (mark : Byte) (start stop : Nat) : Out (Block Byte) :=
  let buffer : Block Byte := Block.malloc (stop - start + name.length + 1)
  match strchrFrom path start mark with
  | none => .ub
  | some split =>
    (buffer.memcpy 0 ((path.drop start).take (split - start))).bind fun buffer =>
    (buffer.memcpy (split - start) name).bind fun buffer =>
    if stop < split + 1 then .ub else
    (buffer.memcpy (split - start + name.length) ((path.drop (split + 1)).take (stop - split - 1))).bind fun buffer =>
    if stop - start + name.length < 1 then .ub else buffer.st (stop - start + name.length - 1) 0#8

/-- The loop of `open_on_path` (std/yasl-std-require.c:15-34) and of `search_on_path` (112-139, not Windows); fuel: at most one round for each byte of the path. -/
def pathLoop {σ : Type} (opens : List Byte → Option σ) (path name : List Byte) (sep mark : Byte) :
    Nat → Nat → List (List Byte) → Run (List (List Byte) × Option σ)
  | 0, _, _ => none
  | f + 1, start, tried =>
    match strchrFrom path start sep with
    | none => some (.ok (tried ++ [name], opens name))
    | some stop =>
      Run.bind (some (pathBuffer path name mark start stop)) fun buffer =>
      Run.bind (some (cstrOf buffer)) fun file =>
      match opens file with
      | some s => some (.ok (tried ++ [file], some s))
      | none => pathLoop opens path name sep mark f (stop + 1) (tried ++ [file])

/-- `open_on_path`, std/yasl-std-require.c:14-35; `search_on_path`, 111-143. -/
def searchPath {σ : Type} (opens : List Byte → Option σ) (path name : List Byte) (sep mark : Byte) : Run (List (List Byte) × Option σ) :=
  pathLoop opens path name sep mark (path.length + 1) 0 []

/-- `YASL_PATH_SEP`, `YASL_PATH_MARK`, yasl_conf.h:48, 52. -/
def pathSep : Byte := 0x3B
/-- See `pathSep`. -/
def pathMark : Byte := 0x3F

/-- ASCII bytes of a string literal (model glue). -/
def asciiBytes (s : String) : List Byte := s.toList.map fun c => BitVec.ofNat 8 c.toNat

/-- `YASL_DEFAULT_PATH`, yasl_conf.h:58. -/
def defaultPath : List Byte := asciiBytes "/usr/local/lib/yasl/?.yasl;./?.yasl;"
/-- `YASL_DEFAULT_CPATH`, yasl_conf.h:57. -/
def defaultCPath : List Byte := asciiBytes "/usr/local/lib/yasl/lib?.so;/usr/local/lib/yasl/?.so;./lib?.so;./?.so;"

/-- What `require` does until the module is compiled. -/
inductive RequireRes (σ : Type) where
  /-- the module's file: compilation and execution follow -/
  | found (tried : List (List Byte)) (s : σ)
  /-- `YASL_throw_err(S, YASL_ERROR)` after "could not open package" -/
  | notFound (tried : List (List Byte))
  /-- `YASL_throw_err(S, YASL_TYPE_ERROR)` -/
  | typeError
  | ub
deriving DecidableEq

/-- The C string made of a string value, yasl.c:580-590: the bytes, then a NUL; C functions see the bytes before the first NUL. -/
def peekCstr (bytes : List Byte) : Out (List Byte) := cstrOf (bytes.map some ++ [some 0#8])

/-- `YASL_require`, std/yasl-std-require.c:37-51, and `YASL_require_c`, 145-179 (not Windows); `none` for a value that is not a string. -/
def requireLookup {σ : Type} (opens : List Byte → Option σ) (path : List Byte) (arg : Option (List Byte)) : Option (RequireRes σ) :=
  match arg with
  | none => some .typeError
  | some bytes => match peekCstr bytes with
    | .ok name => match searchPath opens path name pathSep pathMark with
      | none => none
      | some (.ok (tried, some s)) => some (.found tried s)
      | some (.ok (tried, none)) => some (.notFound tried)
      | some _ => some .ub
    | _ => some .ub

end Yasl
