import Verif.Model.Table
import Verif.Model.Compile
set_option autoImplicit false
/-!
# The table of literals: compiler/compiler.c:725-773

Here `compiler->strings` is the hash table it is in the C code (in `Verif.Model.Compile` it is an association list).
-/
namespace Yasl

/-- `struct Compiler`'s `strings` and `header` (without the three numbers at its start), compiler/compiler.h:36-63. -/
structure Consts where
  strings : Table
  header : List Byte
deriving DecidableEq

/-- `NEW_COMPILER`'s table of literals, compiler/compiler.h:17-34. -/
def Consts.new : Consts := { strings := Table.new, header := [] }

/-- `compiler_intern_string`, `compiler_intern_float`, `compiler_intern_int`, compiler/compiler.c:725-773.  The index is `count` before the
insertion, or the value found.  Fuel is for the loops of the table. -/
def Consts.intern (f : Nat) (c : Consts) (v : Val) : Option (BitVec 64 × Consts) := do
  let value ← c.strings.search f v
  if value.tag = .end_ then
    let index := BitVec.ofNat 64 c.strings.count
    let (t, _) ← c.strings.insert f v (.int index)
    some (index, { strings := t, header := c.header ++ headerEntry v })
  else some (value.payload, c)

/-- The literals of a program, one after the other (model glue). -/
def Consts.internAll (f : Nat) : Consts → List Val → Option (List (BitVec 64) × Consts)
  | c, [] => some ([], c)
  | c, v :: vs => do
    let (i, c) ← c.intern f v
    let (is, c) ← Consts.internAll f c vs
    some (i :: is, c)

end Yasl
