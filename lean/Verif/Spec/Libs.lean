import Verif.Model.Value
set_option autoImplicit false
/-!
# What the standard libraries are

A reference: the names, and for functions the C function that is called and how many arguments it gets (−1: as many as are given).
-/
namespace Yasl

/-- What is found under a name. -/
inductive LibEntry where
  | fn (cname : String) (args : Int)
  | num (x : BitVec 64)
  /-- an open file of the C library -/
  | file (stream : String)
deriving DecidableEq

/-- The methods of sets. -/
def setMethods : List (String × LibEntry) := [
  ("__band", .fn "YASL_collections_set___band" 2), ("__bandnot", .fn "YASL_collections_set___bandnot" 2), ("__bor", .fn "YASL_collections_set___bor" 2),
  ("__bxor", .fn "YASL_collections_set___bxor" 2), ("__eq", .fn "YASL_collections_set___eq" 2), ("__ge", .fn "YASL_collections_set___ge" 2),
  ("__get", .fn "YASL_collections_set___get" 2), ("__gt", .fn "YASL_collections_set___gt" 2), ("__le", .fn "YASL_collections_set___le" 2),
  ("__len", .fn "YASL_collections_set___len" 1), ("__lt", .fn "YASL_collections_set___lt" 2), ("add", .fn "YASL_collections_set_add" 2),
  ("clear", .fn "YASL_collections_set_clear" 1), ("copy", .fn "YASL_collections_set_copy" 1), ("remove", .fn "YASL_collections_set_remove" 2),
  ("tolist", .fn "YASL_collections_set_tolist" 1), ("tostr", .fn "YASL_collections_set_tostr" 1)]

/-- The methods of files. -/
def fileMethods : List (String × LibEntry) := [
  ("close", .fn "YASL_io_close" 1), ("flush", .fn "YASL_io_flush" 1), ("read", .fn "YASL_io_read" 2), ("seek", .fn "YASL_io_seek" 3), ("write", .fn "YASL_io_write" 2)]

/-- `collections` -/
def collectionsLib : List (String × LibEntry) := [
  ("list", .fn "YASL_collections_list_new" (-1)), ("set", .fn "YASL_collections_set_new" (-1)), ("table", .fn "YASL_collections_table_new" (-1))]

/-- `io` -/
def ioLib : List (String × LibEntry) := [("open", .fn "YASL_io_open" 2), ("stderr", .file "stderr"), ("stdin", .file "stdin"), ("stdout", .file "stdout")]

/-- `math`; `nan` is the NaN of the compiler. -/
def mathLib (nan : BitVec 64) : List (String × LibEntry) := [
  ("abs", .fn "YASL_math_abs" 1), ("acos", .fn "YASL_math_acos" 1), ("asin", .fn "YASL_math_asin" 1), ("atan", .fn "YASL_math_atan" 1), ("ceil", .fn "YASL_math_ceil" 1),
  ("cos", .fn "YASL_math_cos" 1), ("deg", .fn "YASL_math_deg" 1), ("exp", .fn "YASL_math_exp" 1), ("floor", .fn "YASL_math_floor" 1), ("gcd", .fn "YASL_math_gcd" 2),
  ("inf", .num 0x7FF0000000000000), ("isprime", .fn "YASL_math_isprime" 1), ("lcm", .fn "YASL_math_lcm" 2), ("log", .fn "YASL_math_log" 1),
  ("max", .fn "YASL_math_max" (-1)), ("min", .fn "YASL_math_min" (-1)), ("nan", .num nan), ("pi", .num 0x400921FB54442D18), ("rad", .fn "YASL_math_rad" 1),
  ("rand", .fn "YASL_math_rand" 1), ("sin", .fn "YASL_math_sin" 1), ("sqrt", .fn "YASL_math_sqrt" 1), ("tan", .fn "YASL_math_tan" 1)]

/-- `mt` -/
def mtLib : List (String × LibEntry) := [("get", .fn "YASL_mt_getmt" 1), ("set", .fn "YASL_mt_setmt" 2)]

/-- The global names which are tables. -/
def libTables (nan : BitVec 64) : List (String × List (String × LibEntry)) := [("collections", collectionsLib), ("io", ioLib), ("math", mathLib nan), ("mt", mtLib)]

/-- The global names which are functions. -/
def libFns : List (String × LibEntry) := [("__require_c__", .fn "YASL_require_c" 1), ("require", .fn "YASL_require" 1)]

/-- The names of metatables. -/
def libMetas : List (String × List (String × LibEntry)) := [("collections.set", setMethods), ("io.file", fileMethods)]

/-- All global names of the libraries. -/
def libNames : List String := ["collections", "io", "math", "require", "__require_c__", "mt"]

end Yasl
