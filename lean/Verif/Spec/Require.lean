import Verif.Model.Value
set_option autoImplicit false
/-!
# Where `require` looks, in words

A search path is a list of entries, each ended by `;` (text after the last `;` is no entry).  In an entry the first `?` stands for the name.
The candidates are the entries in order, then the name itself; the first one that can be opened is used.
-/
namespace Yasl

/-- The entries of a search path: what comes before each `sep`. -/
def entriesOf (sep : Byte) : List Byte → List (List Byte)
  | [] => []
  | c :: p =>
    if c = sep then [] :: entriesOf sep p
    else match entriesOf sep p with
      | [] => []
      | e :: es => (c :: e) :: es

/-- An entry with its first `mark` replaced by the name. -/
def fillIn (mark : Byte) (name : List Byte) : List Byte → List Byte
  | [] => []
  | c :: e => if c = mark then name ++ e else c :: fillIn mark name e

/-- The file names to try, in order. -/
def candidates (sep mark : Byte) (path name : List Byte) : List (List Byte) := (entriesOf sep path).map (fillIn mark name) ++ [name]

/-- Try the candidates in order up to the first that opens: those tried, and the result. -/
def tryInOrder {σ : Type} (opens : List Byte → Option σ) : List (List Byte) → List (List Byte) × Option σ
  | [] => ([], none)
  | c :: cs => match opens c with
    | some s => ([c], some s)
    | none => (c :: (tryInOrder opens cs).1, (tryInOrder opens cs).2)

end Yasl
