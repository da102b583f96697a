import Verif.Model.Node
set_option autoImplicit false
/-!
# The parser: compiler/parser.c

One definition for each function and each loop of compiler/parser.c, mutually recursive as in C (`partial_fixpoint`: `none` is the value of a call that does not
return).  `strtod` and `fold` (compiler/middleend.c, called by `parse_expr`) are parameters.  Messages, line numbers of nodes, the freeing of memory and the limit
of the C stack are not modelled.
-/
namespace Yasl

/-- `struct Parser`, compiler/parser.h:25-31: the lexer, and whether `status` is not `YASL_SUCCESS`. -/
structure PSt where
  lex : Lex
  status : Bool
deriving DecidableEq

/-- Why a call does not return to its caller: `handle_error` (`longjmp`); an access outside of an array; a loop that never ends. -/
inductive Stop where
  | error | ub | hang
deriving DecidableEq, Repr

/-- The outcome of a call. -/
inductive ParseRes (α : Type) where
  | ok (a : α) (s : PSt)
  | stop (w : Stop)

/-- A function of the parser. -/
def P (α : Type) := PSt → Option (ParseRes α)

/-- One call after another. -/
def P.bind {α β : Type} (m : P α) (f : α → P β) : P β := fun s => match m s with
  | none => none
  | some (.stop w) => some (.stop w)
  | some (.ok a s) => f a s

instance : Monad P where
  pure a := fun s => some (.ok a s)
  bind := P.bind

instance {α : Type} : Lean.Order.CCPO (P α) := inferInstanceAs (Lean.Order.CCPO (PSt → Option (ParseRes α)))

instance : Lean.Order.MonoBind P where
  bind_mono_left := by
    intro α β a b f h s
    show Lean.Order.PartialOrder.rel (P.bind a f s) (P.bind b f s)
    have h1 : a s = none ∨ a s = b s := by
      have h2 := h s
      generalize a s = x at h2
      generalize b s = y at h2
      cases h2 with
      | bot => exact .inl rfl
      | refl => exact .inr rfl
    unfold P.bind
    rcases h1 with h1 | h1
    · rw [h1]; exact .bot
    · rw [h1]; exact .refl
  bind_mono_right := by
    intro α β a f g h s
    show Lean.Order.PartialOrder.rel (P.bind a f s) (P.bind a g s)
    unfold P.bind
    cases a s with
    | none => exact .refl
    | some r => cases r with
      | stop w => exact .refl
      | ok x s' => exact h x s'

/-- `curtok`, parser.c:118-120. -/
def curtok : P Tok := fun s => some (.ok s.lex.type s)
/-- `parser->lex` (model glue). -/
def getLex : P Lex := fun s => some (.ok s.lex s)
/-- Assignment to `parser->lex` (model glue). -/
def setLex (l : Lex) : P Unit := fun s => some (.ok () { s with lex := l })
/-- `parser->status` (model glue). -/
def getStatus : P Bool := fun s => some (.ok s.status s)
/-- Assignment to `parser->status` (model glue). -/
def setStatus (b : Bool) : P Unit := fun s => some (.ok () { s with status := b })
/-- `handle_error`, parser.c:127-138. -/
def handleError {α : Type} : P α := fun _ => some (.stop .error)
/-- An access outside of an array. -/
def parseUb {α : Type} : P α := fun _ => some (.stop .ub)
/-- A loop without end. -/
def parseHang {α : Type} : P α := fun _ => some (.stop .hang)
/-- `gettok(&parser->lex)`. -/
def nextTok : P Unit := fun s => some (.ok () { s with lex := gettok s.lex })

/-- The loop of `eattok`, parser.c:149-152. -/
def skipToSemi : P Unit := do
  let t ← curtok
  if t = .semi ∨ t = .eof then pure () else do
    nextTok
    skipToSemi
partial_fixpoint

/-- `eattok`, parser.c:140-158; its result is `token` or `T_UNKNOWN`, and it is used only where it is `token`.  (`lex.status` is set together with `lex.err`.) -/
def eattok (t : Tok) : P Unit := do
  let c ← curtok
  if c ≠ t then do
    if c = .unknown then do
      let l ← getLex
      setStatus l.err.isSome
    else setStatus true
    skipToSemi
  else nextTok

/-- `eatname`, parser.c:160-166. -/
def eatname : P Name := do
  let l ← getLex
  eattok .id
  let st ← getStatus
  if st then handleError else pure l.value

/-- `matcheattok`, parser.c:168-174. -/
def matcheattok (t : Tok) : P Bool := do
  let c ← curtok
  if c = t then do
    eattok t
    pure true
  else pure false

/-- `isfndecl`, `isconstfndecl`, `ismultiassign`, parser.c:208-247: the type of the token after the current one; position, type and value of the current token are
restored, the other fields of the lexer are not. -/
def peekTok : P Tok := do
  let l ← getLex
  eattok l.type
  let t ← curtok
  let l2 ← getLex
  setLex { l2 with rest := l.rest, type := l.type, value := l.value }
  pure t

/-- `while (parser->lex.c == '\n') eattok(parser, T_SEMI);`, e.g. parser.c:1137. -/
def eatNewlines : P Unit := do
  let l ← getLex
  if l.c = some (ch '\n') then do
    eattok .semi
    eatNewlines
  else pure ()
partial_fixpoint

/-- `tok_isaugmented`, parser.c:106-116. -/
def Tok.isAugmented : Tok → Bool
  | .caretEq | .starEq | .slashEq | .dslashEq | .modEq | .plusEq | .minusEq | .dgtEq | .dltEq | .dbarEq | .dampEq | .tildeEq | .ampEq | .ampCaretEq | .dstarEq
  | .barEq | .dqmarkEq => true
  | _ => false

/-- `enum Token` in the order of compiler/tokentype.x. -/
def tokEnum : List Tok :=
  [.eof, .semi, .undef, .float, .int, .bool, .str, .if_, .elseif, .else_, .while_, .break_, .cont, .for_, .id, .const, .fn, .let_, .ret, .export_, .echo, .len, .ass,
   .match_, .lpar, .rpar, .lsqb, .rsqb, .lbrc, .rbrc, .dot, .tdot, .comma, .caret, .caretEq, .plus, .plusEq, .minus, .minusEq, .bang, .bangEq, .bangDeq, .bangTilde,
   .tilde, .tildeEq, .star, .starEq, .dstar, .dstarEq, .slash, .slashEq, .dslash, .dslashEq, .mod, .modEq, .lt, .ltEq, .dlt, .dltEq, .gt, .gtEq, .dgt, .dgtEq, .eq,
   .deq, .teq, .eqTilde, .amp, .ampEq, .damp, .dampEq, .ampCaret, .ampCaretEq, .bar, .barEq, .dbar, .dbarEq, .qmark, .dqmark, .dqmarkEq, .colon, .colonEq,
   .rightArr, .leftArr]

/-- `(enum Token)(t - 1)`, parser.c:803. -/
def Tok.pred (t : Tok) : Tok := tokEnum.getD (tokEnum.idxOf t - 1) .unknown

/-- The operators of each `BINOP_R` and `BINOP_L`, parser.c:861-872, from `parse_undef_or` (0) to `parse_multiply` (11). -/
def binLevel : List (Bool × List Tok) :=
  [(true, [.dqmark]), (true, [.dbar]), (true, [.damp]), (false, [.deq, .bangEq, .teq, .bangDeq]), (false, [.lt, .ltEq, .gt, .gtEq]), (true, [.tilde]),
   (false, [.bar]), (false, [.caret]), (false, [.amp, .ampCaret]), (false, [.dgt, .dlt]), (false, [.plus, .minus]), (false, [.star, .dslash, .slash, .mod])]

/-- The operators of a level, and whether it is one of `BINOP_R` (model glue). -/
def binToks (k : Nat) : List Tok := (binLevel.getD k (true, [])).2
def binRight (k : Nat) : Bool := (binLevel.getD k (true, [])).1

/-- The names of types in patterns, parser.c:583-595. -/
def patTypeNames : List (String × PType) :=
  [("bool", .bool), ("int", .int), ("float", .float), ("str", .str), ("list", .list), ("table", .table)]

/-- What is not modelled: `strtod`, parser.c:1060; `fold`, compiler/middleend.c:368-425, as a function on the tree (`none`: undefined behaviour,
see `Verif.Model.Fold`). -/
structure ParseCfg where
  strtod : List Byte → BitVec 64
  fold : Node → Option Node

/-- `parse_id`, parser.c:1031-1037. -/
def parseId : P Node := do
  let x ← eatname
  pure (.var x)

/-- `parse_float`, parser.c:1064-1070. -/
def parseFloat (cfg : ParseCfg) : P (BitVec 64) := do
  let l ← getLex
  eattok .float
  pure (cfg.strtod l.value)

/-- `parse_integer`, parser.c:1083-1089. -/
def parseInteger : P (BitVec 64) := do
  let l ← getLex
  eattok .int
  pure (getInt l.value)

/-- `parse_boolean`, parser.c:1091-1097. -/
def parseBoolean : P Bool := do
  let l ← getLex
  eattok .bool
  pure (l.value == word "true")

/-- `parse_function_params`, parser.c:316-332: the loop. -/
def parseParams (acc : List Node) : P (List Node) := do
  let t ← curtok
  if t = .id then do
    let x ← eatname
    let more ← matcheattok .comma
    if more then parseParams (acc ++ [.let_ x none]) else pure (acc ++ [.let_ x none])
  else if t = .const then do
    eattok .const
    let x ← eatname
    let more ← matcheattok .comma
    if more then parseParams (acc ++ [.const_ x none]) else pure (acc ++ [.const_ x none])
  else pure acc
partial_fixpoint

/-- `parse_primitivepattern`, parser.c:537-613. A string with interpolation: `while (parser->lex.c != '"') lex_getchar(&parser->lex);` does not end if there is no
`"` any more; otherwise a message. -/
def parsePrimitivePattern (cfg : ParseCfg) : P PatNode := do
  let t ← curtok
  match t with
  | .int => do
    let i ← parseInteger
    pure (.int i)
  | .float => do
    let f ← parseFloat cfg
    pure (.float f)
  | .bool => do
    let b ← parseBoolean
    pure (.bool b)
  | .minus => do
    eattok .minus
    let t ← curtok
    if t = .int then do
      let i ← parseInteger
      pure (.int (-i))
    else if t = .float then do
      let f ← parseFloat cfg
      pure (.float (f ^^^ (1#64 <<< 63)))
    else handleError
  | .str => do
    let l ← getLex
    if l.interp then
      if l.c = some (ch '"') ∨ ch '"' ∈ l.rest then handleError else parseHang
    else do
      eattok .str
      pure (.str l.value)
  | .dot => do
    eattok .dot
    let x ← eatname
    pure (.str x)
  | .id => do
    let x ← eatname
    match patTypeNames.find? (fun p => word p.1 == x) with
    | some p => pure (.type p.2)
    | none => handleError
  | _ => handleError

mutual
/-- `parse_patternsingle`, parser.c:615-699. -/
def parsePatternSingle (cfg : ParseCfg) : P PatNode := do
  let t ← curtok
  match t with
  | .star => do
    eattok .star
    pure .any
  | .undef => do
    eattok .undef
    pure .undef
  | .let_ => do
    eattok .let_
    let x ← eatname
    pure (.let_ x)
  | .const => do
    eattok .const
    let x ← eatname
    pure (.const_ x)
  | .lbrc => do
    eattok .lbrc
    let dots ← matcheattok .tdot
    if dots then do
      eattok .rbrc
      pure (.table true [])
    else do
      let t ← curtok
      if t ≠ .rbrc then do
        let k ← parsePrimitivePattern cfg
        eattok .colon
        let p ← parsePattern cfg
        eatNewlines
        let r ← parseTablePats cfg [k, p]
        eatNewlines
        eattok .rbrc
        pure (.table r.1 r.2)
      else do
        eattok .rbrc
        pure (.table false [])
  | .lsqb => do
    eattok .lsqb
    let dots ← matcheattok .tdot
    if dots then do
      eattok .rsqb
      pure (.ls true [])
    else do
      let t ← curtok
      if t ≠ .rsqb then do
        let p ← parsePattern cfg
        eatNewlines
        let r ← parseListPats cfg [p]
        eatNewlines
        eattok .rsqb
        pure (.ls r.1 r.2)
      else do
        eattok .rsqb
        pure (.ls false [])
  | .lpar => do
    eattok .lpar
    let p ← parsePattern cfg
    eattok .rpar
    pure p
  | _ => parsePrimitivePattern cfg
partial_fixpoint
/-- The loop for table patterns, parser.c:653-662: whether `...` was found, and the children. -/
def parseTablePats (cfg : ParseCfg) (acc : List PatNode) : P (Bool × List PatNode) := do
  let more ← matcheattok .comma
  if more then do
    let dots ← matcheattok .tdot
    if dots then pure (true, acc)
    else do
      let k ← parsePrimitivePattern cfg
      eattok .colon
      let p ← parsePattern cfg
      parseTablePats cfg (acc ++ [k, p])
  else pure (false, acc)
partial_fixpoint
/-- The loop for list patterns, parser.c:679-686. -/
def parseListPats (cfg : ParseCfg) (acc : List PatNode) : P (Bool × List PatNode) := do
  let more ← matcheattok .comma
  if more then do
    let dots ← matcheattok .tdot
    if dots then pure (true, acc)
    else do
      let p ← parsePattern cfg
      parseListPats cfg (acc ++ [p])
  else pure (false, acc)
partial_fixpoint
/-- `parse_alt` and `parse_pattern`, parser.c:701-714. -/
def parsePattern (cfg : ParseCfg) : P PatNode := do
  let p ← parsePatternSingle cfg
  let more ← matcheattok .bar
  if more then do
    let q ← parsePattern cfg
    pure (.alt p q)
  else pure p
partial_fixpoint
end

/-- The end of `parse_var_pack`, parser.c:438-447, after the loop, with the children `es` (`j` is their number): `undef` for what is missing, or the last one is told how
many values it has to leave. -/
def packEnd (expected : Nat) (es : List Node) : List Node :=
  match es.getLast? with
  | some e =>
    if e.varExpands then es.dropLast ++ [.variadic e ((expected : Int) - es.length + 1)]
    else es ++ List.replicate (expected - es.length) .undef
  | none => es

mutual
/-- `parse_program`, parser.c:249-302. -/
def parseProgram (cfg : ParseCfg) : P Node := do
  let t ← curtok
  match t with
  | .echo => do
    eattok .echo
    let e ← parseExpr cfg
    pure (.echo e)
  | .fn => do
    let t ← peekTok
    if t = .id then parseFn cfg else parseExpr cfg
  | .ret => parseReturn cfg
  | .export_ => do
    eattok .export_
    let e ← parseExpr cfg
    pure (.export_ e)
  | .const => do
    let t ← peekTok
    if t = .fn then parseConstFn cfg else parseDecl cfg
  | .let_ => parseDecl cfg
  | .id => do
    let t ← peekTok
    if t = .comma then parseDecl cfg else parseAssignOrExpr cfg
  | .for_ => parseFor cfg
  | .while_ => parseWhile cfg
  | .break_ => do
    eattok .break_
    pure .brk
  | .cont => do
    eattok .cont
    pure .cont
  | .match_ => parseMatch cfg
  | .if_ => parseIf cfg
  | .elseif => handleError
  | .else_ => handleError
  | .ass => do
    eattok .ass
    let e ← parseExpr cfg
    pure (.assert e)
  | .unknown => do
    let l ← getLex
    setStatus l.err.isSome
    pure .null
  | _ => parseAssignOrExpr cfg
partial_fixpoint
/-- `parse_assign_or_exprstmt`, parser.c:185-206. -/
def parseAssignOrExpr (cfg : ParseCfg) : P Node := do
  let e ← parseExpr cfg
  let t ← curtok
  if t = .eq ∨ t.isAugmented = true then parseAssign cfg e
  else match e with
    | .get c k => if t = .comma then parseDeclHelper cfg [.set c k none] 0 else pure (.exprStmt e)
    | e => pure (.exprStmt e)
partial_fixpoint
/-- `parse_body`, parser.c:304-314. -/
def parseBody (cfg : ParseCfg) : P (List Node) := do
  eattok .lbrc
  let ss ← parseStmts cfg []
  eattok .rbrc
  pure ss
partial_fixpoint
/-- The loop of `parse_body`, parser.c:308-311. -/
def parseStmts (cfg : ParseCfg) (acc : List Node) : P (List Node) := do
  let t ← curtok
  if t ≠ .rbrc ∧ t ≠ .eof then do
    let n ← parseProgram cfg
    eattok .semi
    parseStmts cfg (acc ++ [n])
  else pure acc
partial_fixpoint
/-- `parse_return`, parser.c:334-352. -/
def parseReturn (cfg : ParseCfg) : P Node := do
  eattok .ret
  let e ← parseExpr cfg
  let t ← curtok
  if t = .comma then do
    let es ← parseCommaExprs cfg [e]
    pure (.multiRet (spreadLast es (-1)))
  else pure (.ret (.variadic e (-1)))
partial_fixpoint
/-- `while (matcheattok(parser, T_COMMA))` with an expression each, parser.c:341-344, 1206-1209. -/
def parseCommaExprs (cfg : ParseCfg) (acc : List Node) : P (List Node) := do
  let more ← matcheattok .comma
  if more then do
    let e ← parseExpr cfg
    parseCommaExprs cfg (acc ++ [e])
  else pure acc
partial_fixpoint
/-- `parse_fn`, parser.c:354-387. -/
def parseFn (cfg : ParseCfg) : P Node := do
  eattok .fn
  let x ← eatname
  let dot ← matcheattok .dot
  if dot then do
    let m ← eatname
    eattok .lpar
    let ps ← parseParams []
    eattok .rpar
    let ss ← parseBody cfg
    pure (.set (.var x) (.str m) (some (.fn ps ss none)))
  else do
    eattok .lpar
    let ps ← parseParams []
    eattok .rpar
    let ss ← parseBody cfg
    pure (.let_ x (some (.fn ps ss (some x))))
partial_fixpoint
/-- `parse_const_fn`, parser.c:388-405. -/
def parseConstFn (cfg : ParseCfg) : P Node := do
  eattok .const
  eattok .fn
  let x ← eatname
  eattok .lpar
  let ps ← parseParams []
  eattok .rpar
  let ss ← parseBody cfg
  pure (.const_ x (some (.fn ps ss (some x))))
partial_fixpoint
/-- `parse_let_const_or_var`, parser.c:407-428. -/
def parseLVal (cfg : ParseCfg) : P Node := do
  let t ← curtok
  if t = .let_ then do
    eattok .let_
    let x ← eatname
    pure (.let_ x none)
  else if t = .const then do
    eattok .const
    let x ← eatname
    pure (.const_ x none)
  else do
    let n ← parseCall cfg
    match n with
    | .var x => pure (.assign x none)
    | .get c k => pure (.set c k none)
    | _ => handleError
partial_fixpoint
/-- `parse_var_pack`, parser.c:430-448, with the loop from the `do` on; `acc` are the children so far. -/
def parseVarPack (cfg : ParseCfg) (expected : Nat) (acc : List Node) : P (List Node) := do
  let e ← parseExpr cfg
  if acc.length < expected then do
    let more ← matcheattok .comma
    if more then parseVarPack cfg expected (acc ++ [e]) else pure (packEnd expected (acc ++ [e]))
  else pure (packEnd expected (acc ++ [e]))
partial_fixpoint
/-- `parse_decl_helper`, parser.c:450-462: the loop. -/
def parseDeclHelper (cfg : ParseCfg) (lvals : List Node) (i : Nat) : P Node := do
  let more ← matcheattok .comma
  if more then do
    let n ← parseLVal cfg
    parseDeclHelper cfg (lvals ++ [n]) (i + 1)
  else do
    eattok .eq
    let rs ← parseVarPack cfg i []
    pure (.decl lvals rs)
partial_fixpoint
/-- `parse_decl`, parser.c:464-474. -/
def parseDecl (cfg : ParseCfg) : P Node := do
  let n ← parseLVal cfg
  parseDeclHelper cfg [n] 1
partial_fixpoint
/-- `parse_iterate`, parser.c:486-493. -/
def parseIterate (cfg : ParseCfg) : P Node := do
  let x ← eatname
  eattok .leftArr
  let e ← parseExpr cfg
  pure (.letIter x e)
partial_fixpoint
/-- `parse_for`, parser.c:503-524, with `parse_let` 476-484 and `parse_let_iterate_or_let` 495-501. -/
def parseFor (cfg : ParseCfg) : P Node := do
  eattok .for_
  let t ← curtok
  if t = .let_ then do
    eattok .let_
    let x ← eatname
    eattok .eq
    let e ← parseExpr cfg
    eattok .semi
    let c ← parseExpr cfg
    eattok .semi
    let post ← parseAssignOrExpr cfg
    let ss ← parseBody cfg
    pure (.block [.let_ x (some e), .while_ c (.block ss) (some (.exprStmt post))])
  else do
    let it ← parseIterate cfg
    let ss ← parseBody cfg
    pure (.forIter it (.block ss))
partial_fixpoint
/-- `parse_while`, parser.c:526-533. -/
def parseWhile (cfg : ParseCfg) : P Node := do
  eattok .while_
  let c ← parseExpr cfg
  let ss ← parseBody cfg
  pure (.while_ c (.block ss) none)
partial_fixpoint
/-- `parse_match`, parser.c:716-738. -/
def parseMatch (cfg : ParseCfg) : P Node := do
  eattok .match_
  let e ← parseExpr cfg
  eattok .lbrc
  let n ← parseClauses cfg e [] [] []
  eattok .rbrc
  pure n
partial_fixpoint
/-- The loop of `parse_match`, parser.c:726-735. -/
def parseClauses (cfg : ParseCfg) (e : Node) (ps : List PatNode) (gs : List (Option Node)) (bs : List (List Node)) : P Node := do
  let t ← curtok
  if t ≠ .rbrc ∧ t ≠ .eof then do
    let p ← parsePattern cfg
    let guard ← matcheattok .if_
    if guard then do
      let g ← parseExpr cfg
      let b ← parseBody cfg
      eattok .semi
      parseClauses cfg e (ps ++ [p]) (gs ++ [some g]) (bs ++ [b])
    else do
      let b ← parseBody cfg
      eattok .semi
      parseClauses cfg e (ps ++ [p]) (gs ++ [none]) (bs ++ [b])
  else pure (.match_ e ps gs bs)
partial_fixpoint
/-- `parse_if`, parser.c:740-767. -/
def parseIf (cfg : ParseCfg) : P Node := do
  let t ← curtok
  if t = .if_ ∨ t = .elseif then do
    eattok t
    let c ← parseExpr cfg
    let ss ← parseBody cfg
    let t ← curtok
    if t = .elseif then do
      let e ← parseIf cfg
      pure (.if_ c (.block ss) (some e))
    else if t = .else_ then do
      eattok .else_
      let es ← parseBody cfg
      pure (.if_ c (.block ss) (some (.block es)))
    else pure (.if_ c (.block ss) none)
  else handleError
partial_fixpoint
/-- `parse_expr`, parser.c:775-780. -/
def parseExpr (cfg : ParseCfg) : P Node := do
  let e ← parseTernary cfg
  match cfg.fold e with
  | some e => pure e
  | none => parseUb
partial_fixpoint
/-- `parse_assign`, parser.c:782-822. -/
def parseAssign (cfg : ParseCfg) (cur : Node) : P Node := do
  let eq ← matcheattok .eq
  if eq then match cur with
    | .var x => do
      let e ← parseExpr cfg
      pure (.assign x (some e))
    | .get c k => do
      let e ← parseExpr cfg
      pure (.set c k (some e))
    | _ => handleError
  else do
    let t ← curtok
    if t.isAugmented = true then do
      eattok t
      match cur with
      | .var x => do
        let e ← parseExpr cfg
        pure (.assign x (some (.bin t.pred cur e)))
      | .get c k => do
        let e ← parseExpr cfg
        pure (.set c k (some (.bin t.pred cur e)))
      | _ => handleError
    else pure cur
partial_fixpoint
/-- `parse_ternary`, parser.c:824-834. -/
def parseTernary (cfg : ParseCfg) : P Node := do
  let c ← parseBin cfg 0
  let q ← matcheattok .qmark
  if q then do
    let a ← parseTernary cfg
    eattok .colon
    let b ← parseTernary cfg
    pure (.tri c a b)
  else pure c
partial_fixpoint
/-- `BINOP_R`, `BINOP_L`, parser.c:837-872: `parse_undef_or` is 0, ..., `parse_multiply` is 11, then `parse_unary`. -/
def parseBin (cfg : ParseCfg) (k : Nat) : P Node :=
  if k < 12 then do
    let e ← parseBin cfg (k + 1)
    if binRight k then do
      let t ← curtok
      if t ∈ binToks k then do
        eattok t
        let r ← parseBin cfg k
        pure (.bin t e r)
      else pure e
    else parseBinLoop cfg k e
  else parseUnary cfg
partial_fixpoint
/-- The loop of `BINOP_L`, parser.c:854-857. -/
def parseBinLoop (cfg : ParseCfg) (k : Nat) (e : Node) : P Node := do
  let t ← curtok
  if t ∈ binToks k then do
    eattok t
    let r ← parseBin cfg (k + 1)
    parseBinLoop cfg k (.bin t e r)
  else pure e
partial_fixpoint
/-- `parse_unary`, parser.c:874-884. -/
def parseUnary (cfg : ParseCfg) : P Node := do
  let t ← curtok
  if t = .plus ∨ t = .minus ∨ t = .bang ∨ t = .caret ∨ t = .len then do
    eattok t
    let e ← parseUnary cfg
    pure (.un t e)
  else parsePower cfg
partial_fixpoint
/-- `parse_power`, parser.c:886-894. -/
def parsePower (cfg : ParseCfg) : P Node := do
  let e ← parseCall cfg
  let q ← matcheattok .dstar
  if q then do
    let r ← parseUnary cfg
    pure (.bin .dstar e r)
  else pure e
partial_fixpoint
/-- `parse_call`, parser.c:896-969. -/
def parseCall (cfg : ParseCfg) : P Node := do
  let e ← parseConstant cfg
  parseCallLoop cfg e
partial_fixpoint
/-- The loop of `parse_call`, parser.c:898-967.  `a.(f(k, v))` builds a `N_SET`; `children[0]` and `children[1]` may not exist. -/
def parseCallLoop (cfg : ParseCfg) (cur : Node) : P Node := do
  let t ← curtok
  match t with
  | .rightArr => do
    eattok .rightArr
    let r ← parseConstant cfg
    match r with
    | .var m => do
      eattok .lpar
      let es ← parseArgs cfg []
      eattok .rpar
      parseCallLoop cfg (.mcall cur m (spreadLast es (-1)))
    | _ => handleError
  | .dot => do
    eattok .dot
    let r ← parseConstant cfg
    match r with
    | .call _ (k :: v :: _) => parseCallLoop cfg (.set cur k (some v))
    | .call _ _ => parseUb
    | .var m => parseCallLoop cfg (.get cur (.str m))
    | _ => handleError
  | .lsqb => do
    eattok .lsqb
    let colon ← matcheattok .colon
    if colon then do
      let t ← curtok
      if t = .rsqb then do
        eattok .rsqb
        parseCallLoop cfg (.slice cur .undef .undef)
      else do
        let e ← parseExpr cfg
        eattok .rsqb
        parseCallLoop cfg (.slice cur .undef e)
    else do
      let e ← parseExpr cfg
      let colon ← matcheattok .colon
      if colon then do
        let t ← curtok
        if t = .rsqb then do
          eattok .rsqb
          parseCallLoop cfg (.slice cur e .undef)
        else do
          let e2 ← parseExpr cfg
          eattok .rsqb
          parseCallLoop cfg (.slice cur e e2)
      else do
        eattok .rsqb
        parseCallLoop cfg (.get cur e)
  | .lpar => do
    eattok .lpar
    let es ← parseArgs cfg []
    eattok .rpar
    parseCallLoop cfg (.call cur (spreadLast es (-1)))
  | _ => pure cur
partial_fixpoint
/-- The loop over arguments, parser.c:911-915, 953-957. -/
def parseArgs (cfg : ParseCfg) (acc : List Node) : P (List Node) := do
  let t ← curtok
  if t = .rpar ∨ t = .eof then pure acc else do
    let e ← parseExpr cfg
    let t ← curtok
    if t = .comma then do
      eattok .comma
      parseArgs cfg (acc ++ [e])
    else pure (acc ++ [e])
partial_fixpoint
/-- `parse_constant`, parser.c:971-1029, with `parse_undef` 1039-1044. -/
def parseConstant (cfg : ParseCfg) : P Node := do
  let t ← curtok
  match t with
  | .dot => do
    eattok .dot
    let x ← eatname
    pure (.str x)
  | .id => parseId
  | .lpar => do
    eattok .lpar
    let e ← parseExpr cfg
    eattok .rpar
    pure e
  | .lsqb => parseList cfg
  | .lbrc => parseTable cfg
  | .str => do
    let l ← getLex
    parseString cfg (.str l.value)
  | .int => do
    let i ← parseInteger
    pure (.int i)
  | .float => do
    let f ← parseFloat cfg
    pure (.float f)
  | .bool => do
    let b ← parseBoolean
    pure (.bool b)
  | .undef => do
    eattok .undef
    pure .undef
  | .fn => parseLambda cfg
  | _ => handleError
partial_fixpoint
/-- `parse_lambda`, parser.c:1046-1057. -/
def parseLambda (cfg : ParseCfg) : P Node := do
  eattok .fn
  eattok .lpar
  let ps ← parseParams []
  eattok .rpar
  let ss ← parseBody cfg
  pure (.fn ps ss none)
partial_fixpoint
/-- `parse_string`, parser.c:1099-1128, with the loop; `cur` is the node so far.  `parser->lex.c == '}'` is asked of the character, not of the token. -/
def parseString (cfg : ParseCfg) (cur : Node) : P Node := do
  let l ← getLex
  if l.interp then do
    eattok .str
    eattok .lbrc
    let l ← getLex
    setLex { l with interp := false }
    let e ← parseExpr cfg
    let l ← getLex
    if l.c = some (ch '}') then do
      let l := eatInterpBody { l with interp := true } l.rest
      setLex l
      if l.err.isSome then handleError
      else parseString cfg (.bin .tilde (.bin .tilde cur e) (.str l.value))
    else handleError
  else do
    eattok .str
    pure cur
partial_fixpoint
/-- `parse_table`, parser.c:1131-1171. -/
def parseTable (cfg : ParseCfg) : P Node := do
  eattok .lbrc
  let empty ← matcheattok .rbrc
  if empty then pure (.table [])
  else do
    let k ← parseExpr cfg
    eattok .colon
    let v ← parseExpr cfg
    eatNewlines
    let comp ← matcheattok .for_
    if comp then do
      let it ← parseIterate cfg
      let cond ← parseCompCond cfg
      eatNewlines
      eattok .rbrc
      pure (.tableComp [k, v] it cond)
    else do
      let kvs ← parsePairs cfg [k, v]
      eatNewlines
      eattok .rbrc
      pure (.table kvs)
partial_fixpoint
/-- `if (matcheattok(parser, T_IF)) cond = parse_expr(parser);`, parser.c:1152-1155, 1193-1196. -/
def parseCompCond (cfg : ParseCfg) : P (Option Node) := do
  let c ← matcheattok .if_
  if c then do
    let e ← parseExpr cfg
    pure (some e)
  else pure none
partial_fixpoint
/-- The loop of `parse_table`, parser.c:1162-1166. -/
def parsePairs (cfg : ParseCfg) (acc : List Node) : P (List Node) := do
  let more ← matcheattok .comma
  if more then do
    let k ← parseExpr cfg
    eattok .colon
    let v ← parseExpr cfg
    parsePairs cfg (acc ++ [k, v])
  else pure acc
partial_fixpoint
/-- `parse_list`, parser.c:1175-1212. -/
def parseList (cfg : ParseCfg) : P Node := do
  eattok .lsqb
  let empty ← matcheattok .rsqb
  if empty then pure (.list [])
  else do
    let e ← parseExpr cfg
    eatNewlines
    let comp ← matcheattok .for_
    if comp then do
      let it ← parseIterate cfg
      let cond ← parseCompCond cfg
      eatNewlines
      eattok .rsqb
      pure (.listComp e it cond)
    else do
      let es ← parseCommaExprs cfg [e]
      eatNewlines
      eattok .rsqb
      pure (.list es)
partial_fixpoint
end

/-- `parse`, parser.c:176-181, and the loop of `compile`, compiler/compiler.c:316-331, without `visit`: the statements that are compiled one after the other. `none`
inside: `compile` returns `NULL` (parser's status is set).  `longjmp` to `parse` with `status` set has the same effect. -/
def parseAll (cfg : ParseCfg) (acc : List Node) : P (Option (List Node)) := do
  let t ← curtok
  if t ≠ .eof then do
    let n ← parseProgram cfg
    let st ← getStatus
    if st then pure none
    else do
      eattok .semi
      let st ← getStatus
      if st then pure none else parseAll cfg (acc ++ [n])
  else pure (some acc)
partial_fixpoint

/-- What becomes of a source text: it is accepted with the given statements; it is rejected with a message; or an access outside of an array, or no end. -/
inductive Parsed where
  | accepted (ss : List Node)
  | rejected
  | ub
  | hang

/-- `compile`, compiler/compiler.c:312-335, without `visit`, for a source text. -/
def parseSource (cfg : ParseCfg) (src : List Byte) : Option Parsed :=
  match parseAll cfg [] ⟨gettok (Lex.new src), false⟩ with
  | none => none
  | some (.ok (some ss) _) => some (.accepted ss)
  | some (.ok none _) => some .rejected
  | some (.stop .error) => some .rejected
  | some (.stop .ub) => some .ub
  | some (.stop .hang) => some .hang

end Yasl
