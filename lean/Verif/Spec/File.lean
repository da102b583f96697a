import Verif.Model.Value
set_option autoImplicit false
/-!
# Files, in words

A file is its bytes and a position.  Reading a line gives the bytes up to the next line feed (which is skipped) or up to the end.  Reading all gives every byte and
moves to the end.  Writing replaces bytes from the position on (at the end in append mode).
-/
namespace Yasl

/-- The content of a file and the position of the handle. -/
structure FSpec where
  content : List Byte
  pos : Nat
deriving DecidableEq, Repr

/-- The bytes up to the next line feed. -/
def FSpec.line (s : FSpec) : List Byte := (s.content.drop s.pos).takeWhile (· != 10#8)

/-- After reading a line: past the line feed, or at the end if there is none (a position past the end stays). -/
def FSpec.afterLine (s : FSpec) : FSpec :=
  { s with pos := if 10#8 ∈ s.content.drop s.pos then s.pos + s.line.length + 1 else max s.pos s.content.length }

/-- A text split at its line feeds (a text that ends with one has an empty last line). -/
def linesOf : List Byte → List (List Byte)
  | [] => [[]]
  | c :: s =>
    if c = 10#8 then [] :: linesOf s
    else match linesOf s with
      | [] => [[c]]
      | l :: ls => (c :: l) :: ls

/-- Bytes written at a position; a gap after the end is filled with zeros. -/
def overwrite (content : List Byte) (pos : Nat) (bytes : List Byte) : List Byte :=
  content.take pos ++ List.replicate (pos - content.length) 0#8 ++ bytes ++ content.drop (pos + bytes.length)

/-- A write. -/
def FSpec.write (append : Bool) (bytes : List Byte) (s : FSpec) : FSpec :=
  let at_ := if append then s.content.length else s.pos
  if bytes = [] then s else { content := overwrite s.content at_ bytes, pos := at_ + bytes.length }

/-- The origin of a seek. -/
inductive Whence where
  | set | cur | fend
deriving DecidableEq, Repr

/-- A seek: `none` if the target is before the beginning (or not a `long`). -/
def FSpec.seek (w : Whence) (offset : Int) (s : FSpec) : Option FSpec :=
  let base : Int := match w with | .set => 0 | .cur => s.pos | .fend => s.content.length
  if 0 ≤ base + offset ∧ base + offset < 2 ^ 63 then some { s with pos := (base + offset).toNat } else none

end Yasl
