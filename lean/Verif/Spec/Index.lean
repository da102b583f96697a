import Verif.Model.Value
set_option autoImplicit false
/-! # Specification for C68: the names a table answers with a method -/
namespace Yasl

/-- The names of the methods of tables, as a user knows them from the documentation. -/
def tableMethodsSpec : List String :=
  ["__len", "remove", "keys", "values", "copy", "tostr", "__get", "__set", "__bor", "__eq", "clear"]

/-- A string of ASCII characters as a key of a table. -/
def nameKey (s : String) : Val := .str (s.toList.map fun c => BitVec.ofNat 8 c.toNat)

/-- The key is not the name of a method of tables. -/
def NotMethod (k : Val) : Prop := ∀ s ∈ tableMethodsSpec, k ≠ nameKey s

end Yasl
