import Verif.Model.Lexer
set_option autoImplicit false
/-!
# The lexer as it is written: compiler/lexinput.c and the functions of compiler/lexer.c

`Verif/Model/Lexer.lean` treats the current character and the unread input as one list.  Here the same functions are written as in C: with a position in the text,
a mark for the end of the input, `lxgetc`, `lxtell`, `lxseek`, `lxeof`, the character `lex->c` (which at the end of the input is `(char) -1`, a byte like any other),
and the buffer of the value with the byte 0 at its end.  Loops are `partial_fixpoint`: `none` is the value of a loop that does not end.

Simplified: positions are numbers without a bound (C: `int`), so texts of 2 GiB and more are not covered; a file is one that can be sought in and whose reads do not
fail, opened at its beginning; `lxseek` with `SEEK_END` is left out (nothing calls it); `val_len` and `val_cap` are the length of the list.
-/
namespace Yasl

/-- Which functions `struct LEXINPUT` has: those for a file or those for a buffer, lexinput.c:65-75, 119-131. -/
inductive InKind where
  | file | mem
deriving DecidableEq, Repr

/-- `struct LEXINPUT`, lexinput.c:7-17, with what it reads: the bytes of the buffer or of the file; the position in it; `iseof`, or the end-of-file indicator. -/
structure Input where
  kind : InKind
  text : List Byte
  pos : Nat
  mark : Bool
deriving DecidableEq, Repr

/-- `lexinput_new_file`, `lexinput_new_bb`, lexinput.c:65-75, 119-131. -/
def Input.open_ (k : InKind) (text : List Byte) : Input := ⟨k, text, 0, false⟩

/-- `lxgetc`: `lexinput_bb_getc`, lexinput.c:80-86; `fgetc`, lexinput.c:43-45, which also fails when the indicator is set. `none` is -1. -/
def Input.getc (i : Input) : Option Byte × Input :=
  match i.kind with
  | .mem => match i.text[i.pos]? with
    | none => (none, { i with mark := true })
    | some b => (some b, { i with pos := i.pos + 1 })
  | .file =>
    if i.mark then (none, i)
    else match i.text[i.pos]? with
      | none => (none, { i with mark := true })
      | some b => (some b, { i with pos := i.pos + 1 })

/-- `lxtell`, lexinput.c:47-49, 88-90. -/
def Input.tell (i : Input) : Nat := i.pos

/-- `lxseek` with `SEEK_SET`: `lexinput_bb_seek`, lexinput.c:92-102; `fseek`, lexinput.c:51-53, which clears the indicator. -/
def Input.seek (i : Input) (w : Nat) : Input :=
  match i.kind with
  | .mem => { i with pos := w, mark := if w < i.text.length then false else i.mark }
  | .file => { i with pos := w, mark := false }

/-- `lxseek(file, -1, SEEK_CUR)`, the same functions. -/
def Input.back (i : Input) : Input := i.seek (i.pos - 1)

/-- `lxeof`: `lexinput_bb_eof`, lexinput.c:104-109; `feof`, lexinput.c:55-57. -/
def Input.eof (i : Input) : Bool :=
  match i.kind with
  | .mem => if i.text.length ≤ i.pos then i.mark else false
  | .file => i.mark

/-- `struct Lexer`, lexer.h:57-68. `value` are the first `val_len` bytes of the buffer (`[]`: `NULL`); `interp` is `mode == L_INTERP`; `err` is the last message. -/
structure CLex where
  inp : Input
  c : Byte
  type : Tok
  value : List Byte
  line : Nat
  interp : Bool
  err : Option LexErr
deriving DecidableEq

/-- `NEW_LEXER`, lexer.h:15-26. -/
def CLex.new (i : Input) : CLex := ⟨i, 0, .unknown, [], 1, false, none⟩

/-- `lxeof(lex->file)` (model glue). -/
def CLex.eof (t : CLex) : Bool := t.inp.eof

/-- `lex_getchar`, lexer.c:48-50: `(char) -1` is 255. -/
def CLex.getchar (t : CLex) : CLex := { t with inp := t.inp.getc.2, c := t.inp.getc.1.getD 255 }

/-- `lxseek(lex->file, w, SEEK_SET)` (model glue). -/
def CLex.seek (t : CLex) (w : Nat) : CLex := { t with inp := t.inp.seek w }

/-- `lex_val_append`, lexer.c:58-64. -/
def CLex.append (t : CLex) (b : Byte) : CLex := { t with value := t.value ++ [b] }

/-- `lex_error`, lexer.c:41-46, after the message. -/
def CLex.error (t : CLex) (e : LexErr) : CLex := { t with type := .unknown, value := [], err := some e }

/-- `lex_eatwhitespace`, lexer.c:66-78. -/
def CLex.eatWs (t : CLex) : Option (Bool × CLex) :=
  if !t.eof && isBlankB t.c then
    if t.c = ch '\n' then
      let t : CLex := { t with line := t.line + 1 }
      if t.type.potentialEnd then some (true, { t with type := .semi }) else CLex.eatWs t.getchar
    else CLex.eatWs t.getchar
  else some (false, t)
partial_fixpoint

/-- The loop of `lex_eatinlinecomments`, lexer.c:81. -/
def CLex.inlineLoop (t : CLex) : Option CLex :=
  if t.eof then some t else if t.getchar.c ≠ ch '\n' then CLex.inlineLoop t.getchar else some t.getchar
partial_fixpoint

/-- `lex_eatinlinecomments`, lexer.c:80-83. -/
def CLex.eatInline (t : CLex) : Option CLex := if t.c = ch '#' then t.inlineLoop else some t

/-- The loop over a block comment, lexer.c:100-107; `none` for a character is -1.  The second result is `addsemi`. -/
def CLex.blockLoop (t : CLex) (c1 c2 : Option Byte) (semi : Bool) : Option (CLex × Bool) :=
  if !t.eof && (c1 != some (ch '*') || c2 != some (ch '/')) then
    let semi := semi || c1 == some (ch '\n') || c2 == some (ch '\n')
    let t : CLex := if c1 = some (ch '\n') then { t with line := t.line + 1 } else t
    CLex.blockLoop { t with inp := t.inp.getc.2 } c2 t.inp.getc.1 semi
  else some (t, semi)
partial_fixpoint

/-- `lex_eatcommentsandwhitespace`, lexer.c:85-128. -/
def CLex.eatLayout (t : CLex) : Option (Bool × CLex) :=
  if !t.eof && (isBlankB t.c || t.c == ch '#' || t.c == ch '/') then do
    let r ← t.eatWs
    if r.1 then pure (true, r.2) else do
      let t ← r.2.eatInline
      if t.c = ch '/' then
        let cur := t.inp.tell
        let t := t.getchar
        if t.c = ch '*' then do
          let t : CLex := { t with c := ch ' ' }
          let c1 := t.inp.getc
          let c2 := c1.2.getc
          let s ← CLex.blockLoop { t with inp := c2.2 } c1.1 c2.1 false
          if s.1.eof then pure (true, s.1.error .unclosedComment)
          else if s.2 && s.1.type.potentialEnd then pure (true, { s.1 with type := .semi })
          else CLex.eatLayout s.1
        else if t.eof then pure (true, { t with type := .slash })
        else pure (false, { t.seek cur with c := ch '/' })
      else CLex.eatLayout t
  else some (false, t)
partial_fixpoint

/-- `lex_eatop` from the label `one` on, lexer.c:165-172. -/
def CLex.opOne (t : CLex) (c1 : Byte) : Bool × CLex :=
  match tok1 c1 with
  | some k => (true, { t with type := k, value := [] })
  | none => (false, t)

/-- `lex_eatop` from the label `two` on, lexer.c:156-163. -/
def CLex.opTwo (t : CLex) (c1 c2 : Byte) (cur1 : Nat) : Bool × CLex :=
  match tok2 c1 c2 with
  | some k => (true, { t with type := k, value := [] })
  | none => (t.seek cur1).opOne c1

/-- `lex_eatop`, lexer.c:130-172. -/
def CLex.eatOp (t : CLex) : Bool × CLex :=
  let c1 := t.c
  let cur1 := t.inp.tell
  let c2 := t.inp.getc.1.getD 255
  let t : CLex := { t with inp := t.inp.getc.2 }
  if t.eof then t.opOne c1
  else
    let cur2 := t.inp.tell
    let c3 := t.inp.getc.1.getD 255
    let t : CLex := { t with inp := t.inp.getc.2 }
    if t.eof then t.opTwo c1 c2 cur1
    else match tok3 c1 c2 c3 with
      | some k => (true, { t with type := k, value := [] })
      | none => (t.seek cur2).opTwo c1 c2 cur1

/-- `while (lex->c == NUM_SEPERATOR) { cur = lxtell(lex->file); lex_getchar(lex); }`, lexer.c:180-183; and without `cur`, lexer.c:197, 240. -/
def CLex.sepLoop (t : CLex) (cur : Nat) : Option (Nat × CLex) :=
  if t.c = ch '_' then CLex.sepLoop t.getchar t.inp.tell else some (cur, t)
partial_fixpoint

/-- `lex_eatnumber_fill`, lexer.c:174-186: `cur` and the lexer. -/
def CLex.numFill (ok : Byte → Bool) (t : CLex) : Option (Nat × CLex) := do
  let t := t.append t.c
  let r ← t.getchar.sepLoop t.inp.tell
  if !r.2.eof && ok r.2.c then CLex.numFill ok r.2 else pure r
partial_fixpoint

/-- `lex_eatint`, lexer.c:188-216. -/
def CLex.eatInt (sep : Byte) (ok : Byte → Bool) (t : CLex) : Option (Bool × CLex) :=
  let pos := t.inp.tell
  let c := t.c
  let fails : CLex → Option (Bool × CLex) := fun t => some (false, { t with value := [], c := c, inp := t.inp.seek pos })
  if t.c = ch '0' then
    let t := t.getchar.append (ch '0')
    if lowerB t.c = sep then do
      let r ← (t.getchar.append sep).sepLoop 0
      let t := r.2
      if !ok t.c then pure (true, t.error .badInt)
      else do
        let r ← t.numFill ok
        let t : CLex := { r.2.append 0 with type := .int }
        pure (true, if !t.eof then t.seek r.1 else t)
    else fails t
  else fails t

/-- `lex_eatfloat`, lexer.c:218-248. -/
def CLex.eatFloat (t : CLex) : Option (Bool × CLex) :=
  if t.c = ch '.' then
    let cur := t.inp.tell
    let t := t.getchar
    if t.eof then pure (true, { t.seek (cur - 1) with c := ch '.' })
    else if !isDigit t.c then pure (true, t.seek (cur - 1))
    else do
      let t := CLex.append { t with value := t.value.dropLast } (ch '.')
      let r ← t.numFill isDigit
      let t := r.2
      let t ← if lowerB t.c = ch 'e' then do
          let r ← (t.getchar.append (ch 'e')).sepLoop 0
          let r ← r.2.numFill isDigit
          pure r.2
        else pure t
      let t := t.append 0
      pure (true, { (if !t.eof then { t with inp := t.inp.back } else t) with type := .float })
  else pure (false, t)

/-- `lex_eatnumber`, lexer.c:250-273. -/
def CLex.eatNumber (t : CLex) : Option (Bool × CLex) :=
  if isDigit t.c then do
    let r ← CLex.eatInt (ch 'x') isXDigit { t with value := [] }
    if r.1 then pure (true, r.2) else do
      let r ← CLex.eatInt (ch 'b') isBDigit r.2
      if r.1 then pure (true, r.2) else do
        let f ← r.2.numFill isDigit
        let t : CLex := CLex.append { f.2 with type := .int } 0
        let r ← t.eatFloat
        if r.1 then pure (true, r.2) else
          let t := r.2
          pure (true, if !t.eof then t.seek f.1 else t)
  else pure (false, t)

/-- The loop of `lex_eatid_fill`, lexer.c:277-281: `cur` and the lexer. -/
def CLex.idLoop (t : CLex) : Option (Nat × CLex) :=
  let t := t.append t.c
  let cur := t.inp.tell
  let t := t.getchar
  if !t.eof && isIdChar t.c then CLex.idLoop t else some (cur, t)
partial_fixpoint

/-- The text up to the first byte 0: what `strcmp` compares (model glue). -/
def cText (v : List Byte) : List Byte := v.takeWhile (· != 0)

/-- `YASLKeywords`, lexer.c:628-749, with `matches_keyword` and `set_keyword` 618-626. -/
def CLex.keyword (t : CLex) : CLex :=
  if reservedWords.any (fun r => word r == cText t.value) then t.error .reserved
  else match keywords.find? (fun k => word k.1 == cText t.value) with
    | some k => { t with type := k.2, value := [] }
    | none => if cText t.value = word "true" ∨ cText t.value = word "false" then { t with type := .bool } else t

/-- `lex_eatid`, lexer.c:284-305, with `lex_eatid_fill` 275-283. -/
def CLex.eatId (t : CLex) : Option (Bool × CLex) :=
  if isIdStart t.c then do
    let r ← CLex.idLoop { t with value := [] }
    let t := if !r.2.eof then r.2.seek r.1 else r.2
    let t := t.append 0
    if t.type = .dot ∨ t.type = .rightArr then pure (true, { t with type := .id })
    else pure (true, CLex.keyword { t with type := .id })
  else pure (false, t)

/-- `while (lex->c != '\n' && lex->c != delim && !lxeof(lex->file)) lex_getchar(lex);` lexer.c:360. -/
def CLex.skipBad (delim : Byte) (t : CLex) : Option CLex :=
  if t.c ≠ ch '\n' ∧ t.c ≠ delim ∧ t.eof = false then CLex.skipBad delim t.getchar else some t
partial_fixpoint

/-- `handle_escapes`, lexer.c:307-363. -/
def CLex.escape (delim : Byte) (t : CLex) : Option (Bool × CLex) :=
  match simpleEscapes.find? (fun p => ch p.1 == t.c) with
  | some p => some (false, t.append p.2)
  | none =>
    if t.c = ch 'x' then
      let t1 := t.getchar
      let t2 := t1.getchar
      match strtol2 t1.c t2.c with
      | some v => some (false, t2.append v)
      | none => do
        let t ← t2.skipBad delim
        pure (true, t.error .badHexEscape)
    else do
      let t ← t.skipBad delim
      pure (true, t.error .badEscape)

/-- `lex_eatstring_nextchar`, lexer.c:365-375. -/
def CLex.nextchar (delim : Byte) (t : CLex) : Option (Bool × CLex) :=
  if t.c = ch '\\' then t.getchar.escape delim else some (false, t.append t.c)

/-- The loops of `lex_eatstring`, lexer.c:427-437, and `lex_eatinterpstring_fill`, lexer.c:378-388, which differ in the bytes they stop at and in the delimiter: the
first result is `true` if they return. -/
def CLex.strLoop (stop : Byte → Bool) (delim : Byte) (t : CLex) : Option (Bool × CLex) :=
  if !stop t.c && !t.eof then
    if t.c = ch '\n' then some (true, t.error .unclosedString)
    else do
      let r ← t.nextchar delim
      if r.1 then pure (true, r.2) else CLex.strLoop stop delim r.2.getchar
  else some (false, t)
partial_fixpoint

/-- `lex_eatinterpstringbody`, lexer.c:399-410, with `lex_eatinterpstring_fill` 377-397. -/
def CLex.interpBody (t : CLex) : Option CLex := do
  let r ← CLex.strLoop (fun b => b == ch '"' || b == ch '#') (ch '"') { t with value := [], type := .str }
  if r.1 then pure r.2 else
    let t : CLex := { r.2 with interp := r.2.c == ch '#' }
    pure (if t.eof then t.error .unclosedString else t)

/-- `lex_eatstring`, lexer.c:421-449, for a quote. -/
def CLex.eatString (t : CLex) : Option CLex := do
  let r ← CLex.strLoop (· == ch '\'') (ch '\'') (CLex.getchar { t with value := [], type := .str })
  if r.1 then pure r.2 else pure (if r.2.eof then r.2.error .unclosedString else r.2)

/-- The loop of `lex_eatrawstring`, lexer.c:457-461. -/
def CLex.rawLoop (t : CLex) : Option CLex :=
  if t.c ≠ ch '`' ∧ t.eof = false then
    CLex.rawLoop (CLex.getchar (CLex.append { t with line := if t.c = ch '\n' then t.line + 1 else t.line } t.c))
  else some t
partial_fixpoint

/-- `lex_eatrawstring`, lexer.c:451-473, for a quote. -/
def CLex.eatRaw (t : CLex) : Option CLex := do
  let t ← CLex.rawLoop (CLex.getchar { t with value := [], type := .str })
  pure (if t.eof then t.error .unclosedString else t)

/-- `gettok` after white space and comments, lexer.c:484-511, with `lex_eatinterpstring` 412-419. -/
def CLex.token (t : CLex) : Option CLex :=
  if t.eof then some { t with type := .eof, value := [] }
  else do
    let r ← t.eatNumber
    if r.1 then pure r.2 else do
      let r ← r.2.eatId
      let t := r.2
      if r.1 then pure t
      else if t.c = ch '\'' then t.eatString
      else if t.c = ch '`' then t.eatRaw
      else if t.c = ch '"' then t.getchar.interpBody
      else
        let r := t.eatOp
        pure (if r.1 then r.2 else r.2.error .unknownChar)

/-- `gettok`, lexer.c:476-511. -/
def CLex.gettok (t : CLex) : Option CLex := do
  let r ← (CLex.getchar { t with value := [] }).eatLayout
  if r.1 then pure r.2 else r.2.token

/-- The loop of `handle_error`, parser.c:133-135. -/
def CLex.skipLine (t : CLex) : Option CLex :=
  if t.c ≠ ch '\n' ∧ t.eof = false then CLex.skipLine t.getchar else some t
partial_fixpoint

/-- What the parser does with the lexer. -/
inductive LexCall where
  /-- `gettok` -/
  | token
  /-- `isfndecl`, `isconstfndecl`, `ismultiassign` -/
  | look
  /-- the end of a part of a string in `parse_string`, if the current character is `}` -/
  | resume
  /-- the beginning of a part of a string in `parse_string` -/
  | part
deriving DecidableEq, Repr

/-- The calls: `gettok`; the position kept, the next token, and the position back (parser.c:208-247; `value` and `type` are those of the current token again);
`if (parser->lex.c == '}') parser->lex.c = lxgetc(parser->lex.file);` and `lex_eatinterpstringbody`, parser.c:1109-1117 (`parser->lex.c` is an `int` and without the
cast to `char` here, but is compared with characters below 128 only, and appended as a `char`); `parser->lex.mode = L_NORMAL`, parser.c:1107. -/
def CLex.call (t : CLex) : LexCall → Option CLex
  | .token => t.gettok
  | .look => do
    let t2 ← t.gettok
    pure { t2.seek t.inp.tell with type := t.type, value := t.value }
  | .resume => if t.c = ch '}' then (CLex.getchar { t with interp := true }).interpBody else some t
  | .part => some { t with interp := false }

/-- A sequence of calls (model glue). -/
def CLex.calls (t : CLex) : List LexCall → Option CLex
  | [] => some t
  | k :: ks => do
    let t ← t.call k
    t.calls ks

end Yasl
