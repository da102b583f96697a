import Verif.Spec.Grammar
set_option autoImplicit false
/-!
# The items of a text

How a text is split into the items of the grammar: `gettok` after `gettok`, and inside of a string with interpolation the embedded expression is read as usual until
the character `}`, where the string goes on.
-/
namespace Yasl

/-- What the current token of the lexer is for the grammar. -/
def Lex.item (l : Lex) : TextItem :=
  match l.type with
  | .id => .word .id l.value
  | .int => .word .int l.value
  | .float => .word .float l.value
  | .bool => .word .bool l.value
  | .str => .str l.value l.interp
  | .semi => .sep .semi (l.c == some (ch '\n'))
  | .for_ => .sep .for_ (l.c == some (ch '\n'))
  | t => .op t

/-- Two states of the lexer that differ at most in the line and the message. -/
def SameScan (l m : Lex) : Prop := l.rest = m.rest ∧ l.c = m.c ∧ l.type = m.type ∧ l.value = m.value ∧ l.interp = m.interp

/-- `Reads l is l'`: from `l` on, with the current token the first, the items are `is`, and then the lexer is in `l'`. -/
inductive Reads : Lex → List TextItem → Lex → Prop where
  | done {l l' : Lex} : SameScan l l' → Reads l [] l'
  | tok {l l' : Lex} {is : List TextItem} : l.type ≠ .unknown → Reads (gettok l) is l' → Reads l (l.item :: is) l'
  | enter {l l' : Lex} {is : List TextItem} : Reads { l with interp := false } is l' → Reads l (.enter :: is) l'
  | resume {l l' : Lex} {is : List TextItem} : l.c = some (ch '}') → l.type ≠ .unknown → Reads (eatInterpBody { l with interp := true } l.rest) is l' →
      Reads l (.resume l.type :: is) l'

/-- The items of a source text. -/
def TextItems (src : List Byte) (is : List TextItem) : Prop := ∃ l, Reads (gettok (Lex.new src)) is l ∧ l.type = .eof

end Yasl
