import Verif.Model.Value
set_option autoImplicit false
/-!
# The lexer: compiler/lexer.c, for a source text in memory (`lexinput_new_bb`, compiler/lexinput.c:74-130)

`lex->c` and the unread input are one list here, the list of bytes from the current character on; the empty list stands for the end of the input
(`lxeof`). `lex_getchar` is `List.tail`, and `lxseek` to a saved position takes the list of that time. `isalpha` etc. of bytes above 127 is false, as in
glibc (C leaves it undefined, `char` being signed).
-/
namespace Yasl

/-- `enum Token`, compiler/tokentype.x. -/
inductive Tok where
  | unknown
  | eof | semi | undef | float | int | bool | str | if_ | elseif | else_ | while_ | break_ | cont | for_ | id | const | fn | let_ | ret | export_ | echo | len
  | ass | match_ | lpar | rpar | lsqb | rsqb | lbrc | rbrc | dot | tdot | comma | caret | caretEq | plus | plusEq | minus | minusEq | bang | bangEq | bangDeq
  | bangTilde | tilde | tildeEq | star | starEq | dstar | dstarEq | slash | slashEq | dslash | dslashEq | mod | modEq | lt | ltEq | dlt | dltEq | gt | gtEq
  | dgt | dgtEq | eq | deq | teq | eqTilde | amp | ampEq | damp | dampEq | ampCaret | ampCaretEq | bar | barEq | dbar | dbarEq | qmark | dqmark | dqmarkEq
  | colon | colonEq | rightArr | leftArr
deriving DecidableEq, Repr

/-- The byte of an ASCII character (model glue). -/
abbrev ch (c : Char) : Byte := BitVec.ofNat 8 c.toNat

/-- The messages of the lexer. -/
inductive LexErr where
  | unclosedComment | badInt | badEscape | badHexEscape | unclosedString | unknownChar | reserved
deriving DecidableEq, Repr

/-- `struct Lexer`, compiler/lexer.h:57-68: `rest` is the input after the current character `c` (`none`: end of the input); `err` is the last message. -/
structure Lex where
  rest : List Byte
  c : Option Byte
  type : Tok
  value : List Byte
  line : Nat
  interp : Bool
  err : Option LexErr
deriving DecidableEq

/-- `NEW_LEXER`, compiler/lexer.h:15-26. -/
def Lex.new (src : List Byte) : Lex := ⟨src, some 0, .unknown, [], 1, false, none⟩

/-- `isdigit`. -/
def isDigit (b : Byte) : Bool := 48 ≤ b.toNat && b.toNat ≤ 57
/-- `isxdigit`. -/
def isXDigit (b : Byte) : Bool := isDigit b || (65 ≤ b.toNat && b.toNat ≤ 70) || (97 ≤ b.toNat && b.toNat ≤ 102)
/-- `isbdigit`, lexer.c:17-19. -/
def isBDigit (b : Byte) : Bool := b == ch '0' || b == ch '1'
/-- `isalpha`. -/
def isAlphaB (b : Byte) : Bool := (65 ≤ b.toNat && b.toNat ≤ 90) || (97 ≤ b.toNat && b.toNat ≤ 122)
/-- `iswhitespace`, lexer.c:25-27. -/
def isBlankB (b : Byte) : Bool := b == ch ' ' || b == ch '\n' || b == ch '\t'
/-- `isyaslidstart`, lexer.c:38. -/
def isIdStart (b : Byte) : Bool := isAlphaB b || b == ch '_' || b == ch '$'
/-- `isyaslid`, lexer.c:39. -/
def isIdChar (b : Byte) : Bool := isAlphaB b || isDigit b || b == ch '_' || b == ch '$'
/-- `tolower`. -/
def lowerB (b : Byte) : Byte := if 65 ≤ b.toNat ∧ b.toNat ≤ 90 then b + 32 else b

/-- `ispotentialend`, lexer.h:9-12. -/
def Tok.potentialEnd : Tok → Bool
  | .id | .str | .int | .float | .break_ | .cont | .rpar | .rsqb | .rbrc | .undef | .bool => true
  | _ => false

/-- `lex_error`, lexer.c:41-46, with the current character and the unread input. -/
def Lex.error (l : Lex) (e : LexErr) (cs : List Byte) : Lex :=
  { l with type := .unknown, value := [], err := some e, c := cs.head?, rest := cs.tail }

/-- `lex_eatwhitespace`, lexer.c:66-78: the first result is the returned value; `pe` is `ispotentialend`. -/
def eatWs (pe : Bool) : List Byte → Nat → Bool × List Byte × Nat
  | [], line => (false, [], line)
  | b :: cs, line =>
    if isBlankB b then
      if b = ch '\n' then if pe then (true, b :: cs, line + 1) else eatWs pe cs (line + 1)
      else eatWs pe cs line
    else (false, b :: cs, line)

/-- `lex_eatinlinecomments`, lexer.c:80-83. -/
def eatInline : List Byte → List Byte
  | [] => []
  | b :: cs => if b = ch '#' then cs.dropWhile (· != ch '\n') else b :: cs

/-- The loop over a block comment, lexer.c:100-107, from the two bytes `c1`, `c2` on; `none` inside if the input ends; `addsemi` and the line. -/
def eatBlock : List Byte → Nat → Bool → Option (List Byte) × Nat × Bool
  | c1 :: c2 :: cs, line, semi =>
    if c1 = ch '*' ∧ c2 = ch '/' then (some cs, line, semi)
    else eatBlock (c2 :: cs) (if c1 = ch '\n' then line + 1 else line) (semi || c1 == ch '\n' || c2 == ch '\n')
  | _, line, semi => (none, line, semi)

/-- What `lex_eatcommentsandwhitespace` ends with: the token `;` with the current character and the unread input, the token `/` at the end of the input,
the message about the comment, or none of these. -/
inductive Layout where
  | semi (c : Byte) (rest : List Byte) (line : Nat)
  | slash (line : Nat)
  | error (line : Nat)
  | none (cs : List Byte) (line : Nat)
deriving DecidableEq

/-- The body of the loop of `lex_eatcommentsandwhitespace`, lexer.c:86-126: left with a result (`return`, `break`, or at the end of the input), or another
round from the given current character on. -/
def layoutRound (pe : Bool) (cs : List Byte) (line : Nat) : Layout ⊕ (List Byte × Nat) :=
  match eatWs pe cs line with
  | (true, cs, line) => .inl (.semi (ch '\n') cs.tail line)
  | (false, cs, line) => match eatInline cs with
    | [] => .inl (.none [] line)
    | b :: cs =>
      if b = ch '/' then match cs with
        | [] => .inl (.slash line)
        | b2 :: cs =>
          if b2 = ch '*' then match eatBlock cs line false with
            | (some cs, line, semi) => if semi && pe then .inl (.semi (ch ' ') cs line) else .inr (ch ' ' :: cs, line)
            | (none, line, _) => .inl (.error line)
          else .inl (.none (b :: b2 :: cs) line)
      else .inr (b :: cs, line)

/-- `lex_eatcommentsandwhitespace`, lexer.c:85-128.  The first argument bounds the rounds of the loop; when it is used up the result is as at the end
(theorem `eatLayout_enough`: it is not used up in `gettok`). -/
def eatLayout (pe : Bool) : Nat → List Byte → Nat → Layout
  | 0, cs, line => .none cs line
  | _ + 1, [], line => .none [] line
  | f + 1, b :: cs, line =>
    if isBlankB b || b == ch '#' || b == ch '/' then
      match layoutRound pe (b :: cs) line with
      | .inl r => r
      | .inr (cs, line) => eatLayout pe f cs line
    else .none (b :: cs) line

/-- `YASLToken_ThreeChars`, lexer.c:513-536: the cases of the switch. -/
def threeChars : List (Char × Char × Char × Tok) :=
  [('.', '.', '.', .tdot), ('<', '<', '=', .dltEq), ('>', '>', '=', .dgtEq), ('=', '=', '=', .teq), ('!', '=', '=', .bangDeq), ('*', '*', '=', .dstarEq),
   ('/', '/', '=', .dslashEq), ('&', '&', '=', .dampEq), ('&', '^', '=', .ampCaretEq), ('|', '|', '=', .dbarEq), ('?', '?', '=', .dqmarkEq)]

/-- `YASLToken_TwoChars`, lexer.c:538-586. -/
def twoChars : List (Char × Char × Tok) :=
  [(':', '=', .colonEq), ('^', '=', .caretEq), ('+', '=', .plusEq), ('-', '=', .minusEq), ('-', '>', .rightArr), ('=', '=', .deq), ('=', '~', .eqTilde),
   ('!', '=', .bangEq), ('!', '~', .bangTilde), ('~', '=', .tildeEq), ('*', '=', .starEq), ('*', '*', .dstar), ('/', '=', .slashEq), ('/', '/', .dslash),
   ('%', '=', .modEq), ('<', '=', .ltEq), ('<', '<', .dlt), ('<', '-', .leftArr), ('>', '=', .gtEq), ('>', '>', .dgt), ('&', '=', .ampEq), ('&', '&', .damp),
   ('&', '^', .ampCaret), ('|', '=', .barEq), ('|', '|', .dbar), ('?', '?', .dqmark)]

/-- `YASLToken_OneChar`, lexer.c:588-616. -/
def oneChar : List (Char × Tok) :=
  [(';', .semi), ('(', .lpar), (')', .rpar), ('[', .lsqb), (']', .rsqb), ('{', .lbrc), ('}', .rbrc), ('.', .dot), (',', .comma), ('^', .caret), ('+', .plus),
   ('-', .minus), ('!', .bang), ('~', .tilde), ('*', .star), ('/', .slash), ('%', .mod), ('<', .lt), ('>', .gt), ('=', .eq), ('&', .amp), ('|', .bar),
   ('?', .qmark), (':', .colon)]

/-- The switches (model glue). -/
def tok3 (a b c : Byte) : Option Tok := (threeChars.find? fun p => ch p.1 == a && ch p.2.1 == b && ch p.2.2.1 == c).map fun p => p.2.2.2
def tok2 (a b : Byte) : Option Tok := (twoChars.find? fun p => ch p.1 == a && ch p.2.1 == b).map fun p => p.2.2
def tok1 (a : Byte) : Option Tok := (oneChar.find? fun p => ch p.1 == a).map fun p => p.2

/-- `lex_eatop`, lexer.c:130-172, from the current character on: the token and the input after it. -/
def eatOp : List Byte → Option (Tok × List Byte)
  | [] => none
  | [a] => (tok1 a).map fun t => (t, [])
  | [a, b] => match tok2 a b with
    | some t => some (t, [])
    | none => (tok1 a).map fun t => (t, [b])
  | a :: b :: c :: cs => match tok3 a b c with
    | some t => some (t, cs)
    | none => match tok2 a b with
      | some t => some (t, c :: cs)
      | none => (tok1 a).map fun t => (t, b :: c :: cs)

/-- `lex_eatnumber_fill`, lexer.c:174-186, after the first character: the digits up to a character that is neither a digit nor `_`. -/
def fillTail (ok : Byte → Bool) : List Byte → List Byte × List Byte
  | [] => ([], [])
  | b :: cs =>
    if b = ch '_' then fillTail ok cs
    else if ok b then (b :: (fillTail ok cs).1, (fillTail ok cs).2) else ([], b :: cs)

/-- `lex_eatnumber_fill`, lexer.c:174-186: the current character is taken in any case (at the end of the input, `(char) -1`). -/
def numFill (ok : Byte → Bool) : List Byte → List Byte × List Byte
  | [] => ([255], [])
  | b :: cs => (b :: (fillTail ok cs).1, (fillTail ok cs).2)

/-- `while (lex->c == NUM_SEPERATOR) lex_getchar(lex);` lexer.c:197, 240. -/
def skipSep : List Byte → List Byte := List.dropWhile (· == ch '_')

/-- `lex_eatint`, lexer.c:188-216: `none` if it returns `false`; the inner `none` is the message. -/
def eatInt (sep : Byte) (ok : Byte → Bool) : List Byte → Option (Option (List Byte) × List Byte)
  | a :: b :: cs =>
    if a = ch '0' ∧ lowerB b = sep then match skipSep cs with
      | [] => some (none, [])
      | d :: ds => if ok d then let r := numFill ok (d :: ds); some (some (ch '0' :: sep :: r.1), r.2) else some (none, d :: ds)
    else none
  | _ => none

/-- `lex_eatfloat`, lexer.c:218-248, after the digits `ds`, from the current character on: `none` if it returns `false`; otherwise the token (`T_INT` if no
digit follows the dot), its value, the current character and the unread input. -/
def eatFloat (ds : List Byte) : List Byte → Option (Tok × List Byte × Option Byte × List Byte)
  | [] => none
  | b :: cs =>
    if b = ch '.' then match cs with
      | [] => some (.int, ds, some (ch '.'), [ch '.'])
      | d :: cs =>
        if isDigit d then
          let fr := numFill isDigit (d :: cs)
          match fr.2 with
          | [] => some (.float, ds ++ ch '.' :: fr.1, none, [])
          | e :: r =>
            if lowerB e = ch 'e' then
              let ex := numFill isDigit (skipSep r)
              some (.float, ds ++ ch '.' :: fr.1 ++ ch 'e' :: ex.1, ex.2.head?, ex.2)
            else some (.float, ds ++ ch '.' :: fr.1, some e, e :: r)
        else some (.int, ds, some d, ch '.' :: d :: cs)
    else none

/-- `lex_eatnumber`, lexer.c:250-273. -/
def eatNumber (l : Lex) (cs : List Byte) : Option Lex :=
  match cs with
  | [] => none
  | b :: _ =>
    if isDigit b then
      match eatInt (ch 'x') isXDigit cs with
      | some (some v, r) => some { l with type := .int, value := v, c := r.head?, rest := r }
      | some (none, r) => some (l.error .badInt r)
      | none => match eatInt (ch 'b') isBDigit cs with
        | some (some v, r) => some { l with type := .int, value := v, c := r.head?, rest := r }
        | some (none, r) => some (l.error .badInt r)
        | none =>
          let r := numFill isDigit cs
          match eatFloat r.1 r.2 with
          | some (t, v, c, rest) => some { l with type := t, value := v, c := c, rest := rest }
          | none => some { l with type := .int, value := r.1, c := r.2.head?, rest := r.2 }
    else none

/-- The words that are refused, lexer.c:650-728. -/
def reservedWords : List String :=
  ["header", "global", "enum", "struct", "pragma", "yield", "do", "ifdef", "elseifdef", "use", "no", "pure", "consteval", "constexpr", "constfold", "extern",
   "in", "typename"]

/-- The keywords, lexer.c:730-746. -/
def keywords : List (String × Tok) :=
  [("break", .break_), ("const", .const), ("continue", .cont), ("else", .else_), ("elseif", .elseif), ("export", .export_), ("fn", .fn), ("for", .for_),
   ("if", .if_), ("echo", .echo), ("let", .let_), ("return", .ret), ("undef", .undef), ("while", .while_), ("len", .len), ("assert", .ass), ("match", .match_)]

/-- The bytes of a word (model glue). -/
def word (s : String) : List Byte := s.toList.map ch

/-- `YASLKeywords`, lexer.c:628-749; `cs` is the current character and the unread input. -/
def lexKeyword (l : Lex) (w cs : List Byte) : Lex :=
  if reservedWords.any (fun r => word r == w) then l.error .reserved cs
  else match keywords.find? (fun k => word k.1 == w) with
    | some k => { l with type := k.2, value := [], c := cs.head?, rest := cs }
    | none =>
      if w = word "true" ∨ w = word "false" then { l with type := .bool, value := w, c := cs.head?, rest := cs }
      else { l with type := .id, value := w, c := cs.head?, rest := cs }

/-- `lex_eatid`, `lex_eatid_fill`, lexer.c:275-305: no keywords after `.` and `->`. When a word is refused the position is after the word as well. -/
def eatId (l : Lex) (cs : List Byte) : Option Lex :=
  match cs with
  | [] => none
  | b :: bs =>
    if isIdStart b then
      let w := b :: bs.takeWhile isIdChar
      let r := bs.dropWhile isIdChar
      if l.type = .dot ∨ l.type = .rightArr then some { l with type := .id, value := w, c := r.head?, rest := r }
      else some (let k := lexKeyword l w r; { k with c := r.head?, rest := r })
    else none

/-- The value of a hexadecimal digit (model glue). -/
def hexVal (b : Byte) : Nat := if isDigit b then b.toNat - 48 else if 97 ≤ b.toNat then b.toNat - 87 else b.toNat - 55

/-- `strtol(buffer, &end, 16)` with two bytes in the buffer: the value if `end == buffer + 2`, lexer.c:343-353.  White space and a sign are allowed. -/
def strtol2 (a b : Byte) : Option Byte :=
  if isXDigit b then
    if isXDigit a then some (BitVec.ofNat 8 (16 * hexVal a + hexVal b))
    else if a = ch ' ' ∨ (9 ≤ a.toNat ∧ a.toNat ≤ 13) ∨ a = ch '+' then some (BitVec.ofNat 8 (hexVal b))
    else if a = ch '-' then some (- BitVec.ofNat 8 (hexVal b))
    else none
  else none

/-- The escapes of one character, lexer.c:311-341. -/
def simpleEscapes : List (Char × Byte) :=
  [('a', 7), ('b', 8), ('f', 12), ('n', 10), ('r', 13), ('t', 9), ('v', 11), ('0', 0), ('\'', ch '\''), ('"', ch '"'), ('#', ch '#'), ('\\', ch '\\')]

/-- `while (lex->c != '\n' && lex->c != delim && !lxeof(lex->file)) lex_getchar(lex);` lexer.c:360. -/
def skipBadString (delim : Byte) : List Byte → List Byte := List.dropWhile fun b => b != ch '\n' && b != delim

/-- The loop over the characters of a string, lexer.c:427-437 and 378-388 with `handle_escapes` and `lex_eatstring_nextchar` 307-375; `stop` says where the
string ends.  The result is the message, or the bytes and the byte it stopped at; and the current character with the unread input (after the byte it stopped
at, in the second case). -/
def strBody (stop : Byte → Bool) (delim : Byte) : List Byte → List Byte → (LexErr ⊕ (List Byte × Byte)) × List Byte
  | [], _ => (.inl .unclosedString, [])
  | b :: cs, acc =>
    if stop b then (.inr (acc, b), cs)
    else if b = ch '\n' then (.inl .unclosedString, b :: cs)
    else if b = ch '\\' then match cs with
      | [] => (.inl .badEscape, [])
      | e :: cs => match simpleEscapes.find? fun p => ch p.1 == e with
        | some p => strBody stop delim cs (acc ++ [p.2])
        | none =>
          if e = ch 'x' then match cs with
            | h1 :: h2 :: cs => match strtol2 h1 h2 with
              | some v => strBody stop delim cs (acc ++ [v])
              | none => (.inl .badHexEscape, skipBadString delim (h2 :: cs))
            | _ => (.inl .badHexEscape, [])
          else (.inl .badEscape, skipBadString delim (e :: cs))
    else strBody stop delim cs (acc ++ [b])

/-- `lex_eatstring`, lexer.c:421-449, after the quote. -/
def eatString (l : Lex) (cs : List Byte) : Lex :=
  match strBody (· == ch '\'') (ch '\'') cs [] with
  | (.inl e, r) => l.error e r
  | (.inr (v, b), r) => { l with type := .str, value := v, c := some b, rest := r }

/-- `lex_eatinterpstringbody`, lexer.c:399-410, with `lex_eatinterpstring_fill` 377-397. -/
def eatInterpBody (l : Lex) (cs : List Byte) : Lex :=
  match strBody (fun b => b == ch '"' || b == ch '#') (ch '"') cs [] with
  | (.inl .unclosedString, []) => { l with interp := false }.error .unclosedString []
  | (.inl e, r) => l.error e r
  | (.inr (v, b), r) => { l with type := .str, value := v, c := some b, rest := r, interp := b == ch '#' }

/-- `lex_eatrawstring`, lexer.c:451-473, after the quote. -/
def eatRaw (l : Lex) (cs : List Byte) : Lex :=
  let v := cs.takeWhile (· != ch '`')
  let line := l.line + v.count (ch '\n')
  match cs.dropWhile (· != ch '`') with
  | [] => { l with line := line }.error .unclosedString []
  | b :: r => { l with type := .str, value := v, c := some b, rest := r, line := line }

/-- `gettok` after white space and comments, lexer.c:484-511 (from "EOF" on). -/
def lexTok (l : Lex) (cs : List Byte) : Lex :=
  match cs with
  | [] => { l with type := .eof, value := [], c := none, rest := [] }
  | b :: bs =>
    match eatNumber l cs with
    | some r => r
    | none => match eatId l cs with
      | some r => r
      | none =>
        if b = ch '\'' then eatString l bs
        else if b = ch '`' then eatRaw l bs
        else if b = ch '"' then eatInterpBody l bs
        else match eatOp cs with
          | some (t, r) => { l with type := t, value := [], c := some b, rest := r }
          | none => l.error .unknownChar cs

/-- `gettok`, lexer.c:476-511. -/
def gettok (l : Lex) : Lex :=
  match eatLayout l.type.potentialEnd (l.rest.length + 1) l.rest l.line with
  | .semi c r line => { l with type := .semi, value := [], c := some c, rest := r, line := line }
  | .slash line => { l with type := .slash, value := [], c := none, rest := [], line := line }
  | .error line => { ({ l with line := line } : Lex).error .unclosedComment [] with c := some (ch ' ') }
  | .none cs line => lexTok { l with line := line } cs

/-- The value of digits in a base (model glue). -/
def digitsVal (base : Nat) (ds : List Byte) : Nat := ds.foldl (fun n d => base * n + hexVal d) 0

/-- `strtoll` of a text of digits: clamped to `LLONG_MAX`. -/
def litStrtoll (base : Nat) (ds : List Byte) : BitVec 64 := BitVec.ofNat 64 (min (digitsVal base ds) (2 ^ 63 - 1))

/-- `get_int`, compiler/parser.c:1072-1081, of the value of an int token. -/
def getInt (v : List Byte) : BitVec 64 :=
  match v with
  | _ :: b :: ds => if b = ch 'x' then litStrtoll 16 ds else if b = ch 'b' then litStrtoll 2 ds else litStrtoll 10 v
  | _ => litStrtoll 10 v

end Yasl
