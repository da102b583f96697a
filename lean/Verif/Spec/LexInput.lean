import Verif.Model.LexInput
set_option autoImplicit false
/-! # Specification for C110: a text is read the same from a file and from memory -/
namespace Yasl

/-- What the parser can see of the lexer: the kind of the token, its text with its length, the line, whether it is inside of a string with holes, the message if there
was one, and the current character. -/
structure LexView where
  kind : Tok
  text : List Byte
  line : Nat
  inString : Bool
  message : Option LexErr
  current : Byte
deriving DecidableEq, Repr

/-- The view of the lexer as it is written. -/
def CLex.view (t : CLex) : LexView := ⟨t.type, t.value, t.line, t.interp, t.err, t.c⟩

/-- Names, numbers and booleans are texts that end with a byte 0. -/
def endsWithZero : Tok → Bool
  | .id | .int | .float | .bool => true
  | _ => false

/-- The view of the lexer of `Verif/Model/Lexer.lean`, about which C78–C84 speak and with which the parser's model works. At the end of the input the current
character is 255. -/
def Lex.view (l : Lex) : LexView := ⟨l.type, if endsWithZero l.type then l.value ++ [0] else l.value, l.line, l.interp, l.err, l.c.getD 255⟩

/-- What the parser's model (`nextTok`, `peekTok`, `parseString`) does with that lexer. -/
def Lex.call (l : Lex) : LexCall → Lex
  | .token => gettok l
  | .look => { gettok l with rest := l.rest, type := l.type, value := l.value }
  | .resume => if l.c = some (ch '}') then eatInterpBody { l with interp := true } l.rest else l
  | .part => { l with interp := false }

/-- A sequence of calls. -/
def Lex.calls (l : Lex) (ks : List LexCall) : Lex := ks.foldl Lex.call l

/-- The line ends that the looks ahead of a sequence of calls go over. -/
def Lex.looked : Lex → List LexCall → Nat
  | _, [] => 0
  | l, k :: ks => (if k = .look then l.rest.count (ch '\n') - (gettok l).rest.count (ch '\n') else 0) + Lex.looked (l.call k) ks

end Yasl
