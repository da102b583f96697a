import Verif.Model.Lexer
set_option autoImplicit false
/-!
# Specification for C78–C84: the written form of YASL

Written from the language's description; of the model only the names of the tokens (`Tok`), `ch` (the byte of a character) and `word` (the bytes of a text)
are used.
-/
namespace Yasl

/-- The operators and their tokens (compiler/tokentype.x). -/
def operatorSpellings : List (String × Tok) :=
  [(";", .semi), ("(", .lpar), (")", .rpar), ("[", .lsqb), ("]", .rsqb), ("{", .lbrc), ("}", .rbrc), (".", .dot), ("...", .tdot), (",", .comma),
   ("^", .caret), ("^=", .caretEq), ("+", .plus), ("+=", .plusEq), ("-", .minus), ("-=", .minusEq), ("!", .bang), ("!=", .bangEq), ("!==", .bangDeq),
   ("!~", .bangTilde), ("~", .tilde), ("~=", .tildeEq), ("*", .star), ("*=", .starEq), ("**", .dstar), ("**=", .dstarEq), ("/", .slash), ("/=", .slashEq),
   ("//", .dslash), ("//=", .dslashEq), ("%", .mod), ("%=", .modEq), ("<", .lt), ("<=", .ltEq), ("<<", .dlt), ("<<=", .dltEq), (">", .gt), (">=", .gtEq),
   (">>", .dgt), (">>=", .dgtEq), ("=", .eq), ("==", .deq), ("===", .teq), ("=~", .eqTilde), ("&", .amp), ("&=", .ampEq), ("&&", .damp), ("&&=", .dampEq),
   ("&^", .ampCaret), ("&^=", .ampCaretEq), ("|", .bar), ("|=", .barEq), ("||", .dbar), ("||=", .dbarEq), ("?", .qmark), ("??", .dqmark), ("??=", .dqmarkEq),
   (":", .colon), (":=", .colonEq), ("->", .rightArr), ("<-", .leftArr)]

/-- The keywords and their tokens. -/
def keywordSpellings : List (String × Tok) :=
  [("undef", .undef), ("if", .if_), ("elseif", .elseif), ("else", .else_), ("while", .while_), ("break", .break_), ("continue", .cont), ("for", .for_),
   ("const", .const), ("fn", .fn), ("let", .let_), ("return", .ret), ("export", .export_), ("echo", .echo), ("len", .len), ("assert", .ass),
   ("match", .match_)]

/-- The words kept for later versions of the language. -/
def reservedSpellings : List String :=
  ["header", "global", "enum", "struct", "pragma", "yield", "do", "ifdef", "elseifdef", "use", "no", "pure", "consteval", "constexpr", "constfold", "extern",
   "in", "typename"]

/-- `0` … `9`. -/
def DecDigit (b : Byte) : Prop := 48 ≤ b.toNat ∧ b.toNat ≤ 57
/-- `0` … `9`, `a` … `f`, `A` … `F`. -/
def HexDigit (b : Byte) : Prop := DecDigit b ∨ (65 ≤ b.toNat ∧ b.toNat ≤ 70) ∨ (97 ≤ b.toNat ∧ b.toNat ≤ 102)
/-- `0`, `1`. -/
def BinDigit (b : Byte) : Prop := b = ch '0' ∨ b = ch '1'
/-- A letter. -/
def Letter (b : Byte) : Prop := (65 ≤ b.toNat ∧ b.toNat ≤ 90) ∨ (97 ≤ b.toNat ∧ b.toNat ≤ 122)
/-- What an identifier begins with. -/
def IdentStart (b : Byte) : Prop := Letter b ∨ b = ch '_' ∨ b = ch '$'
/-- What an identifier goes on with. -/
def IdentPart (b : Byte) : Prop := IdentStart b ∨ DecDigit b

/-- A word with the form of an identifier. -/
def IdentWord : List Byte → Prop
  | [] => False
  | b :: bs => IdentStart b ∧ ∀ x ∈ bs, IdentPart x

/-- The first byte of a text, if there is one, does not have the property. -/
def NotNext (p : Byte → Prop) (r : List Byte) : Prop := ∀ b t, r = b :: t → ¬ p b

/-- Layout: spaces, tabs, line ends, comments from `#` to the end of the line, and comments between `/*` and the next `*/`. -/
inductive Blank : List Byte → Prop where
  | nil : Blank []
  | space {w : List Byte} : Blank w → Blank (ch ' ' :: w)
  | tab {w : List Byte} : Blank w → Blank (ch '\t' :: w)
  | newline {w : List Byte} : Blank w → Blank (ch '\n' :: w)
  | line {c w : List Byte} : (∀ b ∈ c, b ≠ ch '\n') → Blank w → Blank (ch '#' :: c ++ ch '\n' :: w)
  | block {c w : List Byte} : ¬ [ch '*', ch '/'] <:+: c ++ [ch '*'] → Blank w → Blank (ch '/' :: ch '*' :: c ++ ch '*' :: ch '/' :: w)

/-- The tokens after which a statement may end. -/
def EndsStatement (t : Tok) : Prop :=
  t ∈ [Tok.id, .str, .int, .float, .break_, .cont, .rpar, .rsqb, .rbrc, .undef, .bool]

/-- The escapes of one character and the bytes they stand for. -/
def escapeTable : List (Char × Nat) :=
  [('a', 7), ('b', 8), ('f', 12), ('n', 10), ('r', 13), ('t', 9), ('v', 11), ('0', 0), ('\'', 39), ('"', 34), ('#', 35), ('\\', 92)]

/-- The value of a hexadecimal digit. -/
def hexDigitVal (b : Byte) : Nat := if b.toNat ≤ 57 then b.toNat - 48 else if b.toNat ≤ 70 then b.toNat - 55 else b.toNat - 87

/-- `Escaped q text v`: between quotes the text stands for the bytes `v`. Bytes other than a backslash, a line end and those in `q` stand for themselves. -/
inductive Escaped (q : Byte → Prop) : List Byte → List Byte → Prop where
  | nil : Escaped q [] []
  | plain {b : Byte} {t v : List Byte} : ¬ q b → b ≠ ch '\\' → b ≠ ch '\n' → Escaped q t v → Escaped q (b :: t) (b :: v)
  | simple {c : Char} {n : Nat} {t v : List Byte} : (c, n) ∈ escapeTable → Escaped q t v → Escaped q (ch '\\' :: ch c :: t) (BitVec.ofNat 8 n :: v)
  | hex {a b : Byte} {t v : List Byte} : HexDigit a → HexDigit b → Escaped q t v →
      Escaped q (ch '\\' :: ch 'x' :: a :: b :: t) (BitVec.ofNat 8 (16 * hexDigitVal a + hexDigitVal b) :: v)

/-- `Digits ok text ds`: the text is a digit, then digits and underscores; `ds` are the digits. -/
def Digits (ok : Byte → Prop) (text ds : List Byte) : Prop :=
  ∃ d t, text = d :: t ∧ ok d ∧ (∀ b ∈ t, ok b ∨ b = ch '_') ∧ ds = d :: t.filter (fun b => b != ch '_')

/-- The number that digits denote, most significant first. -/
def numeralValue (base : Nat) (ds : List Byte) : Nat := ds.foldl (fun n d => base * n + hexDigitVal d) 0

/-- What a token is for the parser: kind, text, line. -/
def Lex.seen (l : Lex) : Tok × List Byte × Nat := (l.type, l.value, l.line)

/-- The lexer after `n` tokens. -/
def lexNth (src : List Byte) : Nat → Lex
  | 0 => Lex.new src
  | n + 1 => gettok (lexNth src n)

end Yasl
