import Verif.Model.Node
set_option autoImplicit false
/-!
# The grammar of the language

What a user may write, as a grammar over the tokens of the text (`TextItem`), and the tree each phrase stands for.  Written without reference to the parser.
Binary operators are given by a table of levels (`operatorLevels`): a higher level binds tighter.
-/
namespace Yasl

/-- What is read from a text: a word or numeral (identifier, int, float, bool) with its spelling; a piece of string, with whether an interpolation `#` follows;
`;` or `for`, with whether an end of line was read there; any other token.  Inside of a string with interpolation: the start of an embedded expression,
and the continuation of the string (where the current token was of the given type; it should be `}`). -/
inductive TextItem where
  | word (t : Tok) (v : List Byte)
  | str (v : List Byte) (more : Bool)
  | sep (t : Tok) (nl : Bool)
  | op (t : Tok)
  | enter
  | resume (t : Tok)
deriving DecidableEq

/-- Associativity. -/
inductive Assoc where
  | left | right
deriving DecidableEq

/-- The binary operators from the loosest to the tightest level (`**` is tighter than the unary operators on its left and looser on its right). -/
def operatorLevels : List (Assoc × List Tok) :=
  [(.right, [.dqmark]),
   (.right, [.dbar]),
   (.right, [.damp]),
   (.left, [.deq, .bangEq, .teq, .bangDeq]),
   (.left, [.lt, .ltEq, .gt, .gtEq]),
   (.right, [.tilde]),
   (.left, [.bar]),
   (.left, [.caret]),
   (.left, [.amp, .ampCaret]),
   (.left, [.dgt, .dlt]),
   (.left, [.plus, .minus]),
   (.left, [.star, .dslash, .slash, .mod])]

/-- `t` is an operator of level `k` with the given associativity. -/
def OpAt (k : Nat) (a : Assoc) (t : Tok) : Prop := ∃ ts, operatorLevels[k]? = some (a, ts) ∧ t ∈ ts

/-- The unary operators. -/
def unaryOps : List Tok := [.plus, .minus, .bang, .caret, .len]

/-- The augmented assignments, with the operator they stand for. -/
def augmentedOps : List (Tok × Tok) :=
  [(.plusEq, .plus), (.minusEq, .minus), (.starEq, .star), (.slashEq, .slash), (.dslashEq, .dslash), (.modEq, .mod), (.dstarEq, .dstar), (.tildeEq, .tilde),
   (.caretEq, .caret), (.barEq, .bar), (.ampEq, .amp), (.ampCaretEq, .ampCaret), (.dgtEq, .dgt), (.dltEq, .dlt), (.dbarEq, .dbar), (.dampEq, .damp),
   (.dqmarkEq, .dqmark)]

/-- A call in the last place stands for all the values it returns (`n = -1`: as many as there are; otherwise exactly `n`). -/
def lastSpread (n : Int) : List Node → List Node
  | [] => []
  | [.call f as] => [.variadic (.call f as) n]
  | [.mcall o m as] => [.variadic (.mcall o m as) n]
  | [e] => [e]
  | e :: e' :: es => e :: lastSpread n (e' :: es)

/-- The right side of an assignment to `n` places: a call in the last place gives what is missing, otherwise `undef` does. -/
def padTo (n : Nat) (es : List Node) : List Node :=
  if (match es.getLast? with | some (.call _ _) => true | some (.mcall _ _ _) => true | _ => false)
  then lastSpread ((n : Int) + 1 - es.length) es
  else es ++ List.replicate (n - es.length) .undef

/-- A string with embedded expressions: the concatenation of its pieces, from the left. -/
def interpolated (v : List Byte) (ps : List (Node × List Byte)) : Node :=
  ps.foldl (fun n p => .bin .tilde (.bin .tilde n p.1) (.str p.2)) (.str v)

/-- Ends of lines (allowed before a closing bracket and after the first element). -/
def Newlines (ts : List TextItem) : Prop := ∀ i ∈ ts, i = .sep .semi true

/-- The categories of patterns. -/
inductive PCat where
  | key | single | pat | pairs | pats

/-- What a pattern phrase stands for. -/
def PCat.Res : PCat → Type
  | .key | .single | .pat => PatNode
  | .pairs | .pats => Bool × List PatNode

/-- Patterns. `flt` gives the value of the spelling of a float. -/
inductive PGram (flt : List Byte → BitVec 64) : (c : PCat) → List TextItem → c.Res → Prop where
  | int {v : List Byte} : PGram flt .key [.word .int v] (PatNode.int (getInt v))
  | float {v : List Byte} : PGram flt .key [.word .float v] (PatNode.float (flt v))
  | bool {v : List Byte} : PGram flt .key [.word .bool v] (PatNode.bool (v == word "true"))
  | negInt {v : List Byte} : PGram flt .key [.op .minus, .word .int v] (PatNode.int (-getInt v))
  | negFloat {v : List Byte} : PGram flt .key [.op .minus, .word .float v] (PatNode.float (flt v ^^^ (1#64 <<< 63)))
  | str {v : List Byte} : PGram flt .key [.str v false] (PatNode.str v)
  | dot {v : List Byte} : PGram flt .key [.op .dot, .word .id v] (PatNode.str v)
  | tbool : PGram flt .key [.word .id (word "bool")] (PatNode.type .bool)
  | tint : PGram flt .key [.word .id (word "int")] (PatNode.type .int)
  | tfloat : PGram flt .key [.word .id (word "float")] (PatNode.type .float)
  | tstr : PGram flt .key [.word .id (word "str")] (PatNode.type .str)
  | tlist : PGram flt .key [.word .id (word "list")] (PatNode.type .list)
  | ttable : PGram flt .key [.word .id (word "table")] (PatNode.type .table)
  | key {ts : List TextItem} {p : PatNode} : PGram flt .key ts p → PGram flt .single ts p
  | any : PGram flt .single [.op .star] PatNode.any
  | undef : PGram flt .single [.op .undef] PatNode.undef
  | let_ {x : Name} : PGram flt .single [.op .let_, .word .id x] (PatNode.let_ x)
  | const_ {x : Name} : PGram flt .single [.op .const, .word .id x] (PatNode.const_ x)
  | tableEmpty : PGram flt .single [.op .lbrc, .op .rbrc] (PatNode.table false [])
  | tableRest : PGram flt .single [.op .lbrc, .op .tdot, .op .rbrc] (PatNode.table true [])
  | table {tk tp n1 tr n2 : List TextItem} {k p : PatNode} {rest : Bool} {ps : List PatNode} : PGram flt .key tk k → PGram flt .pat tp p → Newlines n1 →
      PGram flt .pairs tr (rest, ps) → Newlines n2 →
      PGram flt .single (.op .lbrc :: (tk ++ .op .colon :: (tp ++ (n1 ++ (tr ++ (n2 ++ [.op .rbrc])))))) (PatNode.table rest (k :: p :: ps))
  | listEmpty : PGram flt .single [.op .lsqb, .op .rsqb] (PatNode.ls false [])
  | listRest : PGram flt .single [.op .lsqb, .op .tdot, .op .rsqb] (PatNode.ls true [])
  | list {tp n1 tr n2 : List TextItem} {p : PatNode} {rest : Bool} {ps : List PatNode} : PGram flt .pat tp p → Newlines n1 → PGram flt .pats tr (rest, ps) →
      Newlines n2 → PGram flt .single (.op .lsqb :: (tp ++ (n1 ++ (tr ++ (n2 ++ [.op .rsqb]))))) (PatNode.ls rest (p :: ps))
  | paren {ts : List TextItem} {p : PatNode} : PGram flt .pat ts p → PGram flt .single (.op .lpar :: (ts ++ [.op .rpar])) p
  | one {ts : List TextItem} {p : PatNode} : PGram flt .single ts p → PGram flt .pat ts p
  | alt {ts us : List TextItem} {p q : PatNode} : PGram flt .single ts p → PGram flt .pat us q → PGram flt .pat (ts ++ .op .bar :: us) (PatNode.alt p q)
  | pairsEnd : PGram flt .pairs [] (false, [])
  | pairsRest : PGram flt .pairs [.op .comma, .op .tdot] (true, [])
  | pairs {tk tp tr : List TextItem} {k p : PatNode} {rest : Bool} {ps : List PatNode} : PGram flt .key tk k → PGram flt .pat tp p → PGram flt .pairs tr (rest, ps) →
      PGram flt .pairs (.op .comma :: (tk ++ .op .colon :: (tp ++ tr))) (rest, k :: p :: ps)
  | patsEnd : PGram flt .pats [] (false, [])
  | patsRest : PGram flt .pats [.op .comma, .op .tdot] (true, [])
  | pats {tp tr : List TextItem} {p : PatNode} {rest : Bool} {ps : List PatNode} : PGram flt .pat tp p → PGram flt .pats tr (rest, ps) →
      PGram flt .pats (.op .comma :: (tp ++ tr)) (rest, p :: ps)

/-- Parameters of a function. -/
inductive Params : List TextItem → List Node → Prop where
  | nil : Params [] []
  | let_ {x : Name} : Params [.word .id x] [.let_ x none]
  | const_ {x : Name} : Params [.op .const, .word .id x] [.const_ x none]
  | letMore {x : Name} {ts : List TextItem} {ps : List Node} : Params ts ps → Params (.word .id x :: .op .comma :: ts) (.let_ x none :: ps)
  | constMore {x : Name} {ts : List TextItem} {ps : List Node} : Params ts ps → Params (.op .const :: .word .id x :: .op .comma :: ts) (.const_ x none :: ps)

/-- The categories of phrases: expressions, `? :`, binary operators from level `k` on, unary operators, `**`, calls and indexing, the rest of the expressions;
strings; arguments; more elements after a comma; key-value pairs after a comma; `x <- e`; `if e` or nothing; statements; assignment or expression;
places; more places; what follows `if`; the clauses of a `match`; `{ ... }`; statements each with its `;`. -/
inductive Cat where
  | expr | tern | bin (k : Nat) | unary | power | post | atom | string | args | more | pairs | iter | cond
  | stmt | simple | lval | lvals | ifRest | clauses | body | stmts

/-- What a phrase stands for. -/
def Cat.Res : Cat → Type
  | .expr | .tern | .bin _ | .unary | .power | .post | .atom | .iter | .stmt | .simple | .lval | .ifRest => Node
  | .string => List Byte × List (Node × List Byte)
  | .args | .more | .pairs | .lvals | .body | .stmts => List Node
  | .cond => Option Node
  | .clauses => List (PatNode × Option Node × List Node)

/-- The grammar. `flt` gives the value of the spelling of a float, `fold` the rewriting applied to every expression (constant folding; `some`, for the trees as
written). -/
inductive Gram (flt : List Byte → BitVec 64) (fold : Node → Option Node) : (c : Cat) → List TextItem → c.Res → Prop where
  | expr {ts : List TextItem} {e e' : Node} : Gram flt fold .tern ts e → fold e = some e' → Gram flt fold .expr ts e'
  -- operators
  | ternOne {ts : List TextItem} {e : Node} : Gram flt fold (.bin 0) ts e → Gram flt fold .tern ts e
  | tern {tc ta tb : List TextItem} {c a b : Node} : Gram flt fold (.bin 0) tc c → Gram flt fold .tern ta a → Gram flt fold .tern tb b →
      Gram flt fold .tern (tc ++ .op .qmark :: (ta ++ .op .colon :: tb)) (Node.tri c a b)
  | binUp {k : Nat} {ts : List TextItem} {e : Node} : k < 12 → Gram flt fold (.bin (k + 1)) ts e → Gram flt fold (.bin k) ts e
  | binLeft {k : Nat} {tl tr : List TextItem} {l r : Node} {t : Tok} : OpAt k .left t → Gram flt fold (.bin k) tl l → Gram flt fold (.bin (k + 1)) tr r →
      Gram flt fold (.bin k) (tl ++ .op t :: tr) (Node.bin t l r)
  | binRight {k : Nat} {tl tr : List TextItem} {l r : Node} {t : Tok} : OpAt k .right t → Gram flt fold (.bin (k + 1)) tl l → Gram flt fold (.bin k) tr r →
      Gram flt fold (.bin k) (tl ++ .op t :: tr) (Node.bin t l r)
  | binUnary {ts : List TextItem} {e : Node} : Gram flt fold .unary ts e → Gram flt fold (.bin 12) ts e
  | unaryOne {ts : List TextItem} {e : Node} : Gram flt fold .power ts e → Gram flt fold .unary ts e
  | unary {ts : List TextItem} {e : Node} {t : Tok} : t ∈ unaryOps → Gram flt fold .unary ts e → Gram flt fold .unary (.op t :: ts) (Node.un t e)
  | powerOne {ts : List TextItem} {e : Node} : Gram flt fold .post ts e → Gram flt fold .power ts e
  | power {tl tr : List TextItem} {l r : Node} : Gram flt fold .post tl l → Gram flt fold .unary tr r →
      Gram flt fold .power (tl ++ .op .dstar :: tr) (Node.bin .dstar l r)
  -- calls, indexing
  | postOne {ts : List TextItem} {e : Node} : Gram flt fold .atom ts e → Gram flt fold .post ts e
  | call {tf ta : List TextItem} {f : Node} {as : List Node} : Gram flt fold .post tf f → Gram flt fold .args ta as →
      Gram flt fold .post (tf ++ .op .lpar :: (ta ++ [.op .rpar])) (Node.call f (lastSpread (-1) as))
  | mcall {to tm ta : List TextItem} {o : Node} {m : Name} {as : List Node} : Gram flt fold .post to o → Gram flt fold .atom tm (Node.var m) →
      Gram flt fold .args ta as →
      Gram flt fold .post (to ++ .op .rightArr :: (tm ++ .op .lpar :: (ta ++ [.op .rpar]))) (Node.mcall o m (lastSpread (-1) as))
  | dot {tc tm : List TextItem} {c : Node} {m : Name} : Gram flt fold .post tc c → Gram flt fold .atom tm (Node.var m) →
      Gram flt fold .post (tc ++ .op .dot :: tm) (Node.get c (.str m))
  | dotCall {tc tm : List TextItem} {c f k v : Node} {as : List Node} : Gram flt fold .post tc c → Gram flt fold .atom tm (Node.call f (k :: v :: as)) →
      Gram flt fold .post (tc ++ .op .dot :: tm) (Node.set c k (some v))
  | index {tc tk : List TextItem} {c k : Node} : Gram flt fold .post tc c → Gram flt fold .expr tk k →
      Gram flt fold .post (tc ++ .op .lsqb :: (tk ++ [.op .rsqb])) (Node.get c k)
  | slice {tc ta tb : List TextItem} {c a b : Node} : Gram flt fold .post tc c → Gram flt fold .expr ta a → Gram flt fold .expr tb b →
      Gram flt fold .post (tc ++ .op .lsqb :: (ta ++ .op .colon :: (tb ++ [.op .rsqb]))) (Node.slice c a b)
  | sliceFrom {tc ta : List TextItem} {c a : Node} : Gram flt fold .post tc c → Gram flt fold .expr ta a →
      Gram flt fold .post (tc ++ .op .lsqb :: (ta ++ [.op .colon, .op .rsqb])) (Node.slice c a .undef)
  | sliceTo {tc tb : List TextItem} {c b : Node} : Gram flt fold .post tc c → Gram flt fold .expr tb b →
      Gram flt fold .post (tc ++ .op .lsqb :: .op .colon :: (tb ++ [.op .rsqb])) (Node.slice c .undef b)
  | sliceAll {tc : List TextItem} {c : Node} : Gram flt fold .post tc c →
      Gram flt fold .post (tc ++ [.op .lsqb, .op .colon, .op .rsqb]) (Node.slice c .undef .undef)
  -- the rest of the expressions
  | field {x : Name} : Gram flt fold .atom [.op .dot, .word .id x] (Node.str x)
  | var {x : Name} : Gram flt fold .atom [.word .id x] (Node.var x)
  | paren {ts : List TextItem} {e : Node} : Gram flt fold .expr ts e → Gram flt fold .atom (.op .lpar :: (ts ++ [.op .rpar])) e
  | int {v : List Byte} : Gram flt fold .atom [.word .int v] (Node.int (getInt v))
  | float {v : List Byte} : Gram flt fold .atom [.word .float v] (Node.float (flt v))
  | bool {v : List Byte} : Gram flt fold .atom [.word .bool v] (Node.bool (v == word "true"))
  | undef : Gram flt fold .atom [.op .undef] Node.undef
  | string {ts : List TextItem} {v : List Byte} {ps : List (Node × List Byte)} : Gram flt fold .string ts (v, ps) → Gram flt fold .atom ts (interpolated v ps)
  | fn {tp tb : List TextItem} {ps ss : List Node} : Params tp ps → Gram flt fold .body tb ss →
      Gram flt fold .atom (.op .fn :: .op .lpar :: (tp ++ .op .rpar :: tb)) (Node.fn ps ss none)
  | listEmpty : Gram flt fold .atom [.op .lsqb, .op .rsqb] (Node.list [])
  | list {te n1 tm n2 : List TextItem} {e : Node} {es : List Node} : Gram flt fold .expr te e → Newlines n1 → Gram flt fold .more tm es → Newlines n2 →
      Gram flt fold .atom (.op .lsqb :: (te ++ (n1 ++ (tm ++ (n2 ++ [.op .rsqb]))))) (Node.list (e :: es))
  | listComp {te n1 ti tc n2 : List TextItem} {e i : Node} {c : Option Node} : Gram flt fold .expr te e → Newlines n1 → Gram flt fold .iter ti i →
      Gram flt fold .cond tc c → Newlines n2 →
      Gram flt fold .atom (.op .lsqb :: (te ++ (n1 ++ .sep .for_ false :: (ti ++ (tc ++ (n2 ++ [.op .rsqb])))))) (Node.listComp e i c)
  | tableEmpty : Gram flt fold .atom [.op .lbrc, .op .rbrc] (Node.table [])
  | table {tk tv n1 tm n2 : List TextItem} {k v : Node} {es : List Node} : Gram flt fold .expr tk k → Gram flt fold .expr tv v → Newlines n1 →
      Gram flt fold .pairs tm es → Newlines n2 →
      Gram flt fold .atom (.op .lbrc :: (tk ++ .op .colon :: (tv ++ (n1 ++ (tm ++ (n2 ++ [.op .rbrc])))))) (Node.table (k :: v :: es))
  | tableComp {tk tv n1 ti tc n2 : List TextItem} {k v i : Node} {c : Option Node} : Gram flt fold .expr tk k → Gram flt fold .expr tv v → Newlines n1 →
      Gram flt fold .iter ti i → Gram flt fold .cond tc c → Newlines n2 →
      Gram flt fold .atom (.op .lbrc :: (tk ++ .op .colon :: (tv ++ (n1 ++ .sep .for_ false :: (ti ++ (tc ++ (n2 ++ [.op .rbrc]))))))) (Node.tableComp [k, v] i c)
  | strEnd {v : List Byte} : Gram flt fold .string [.str v false] (v, [])
  | strMore {te tr : List TextItem} {v v' : List Byte} {e : Node} {ps : List (Node × List Byte)} {t : Tok} : Gram flt fold .expr te e →
      Gram flt fold .string tr (v', ps) →
      Gram flt fold .string (.str v true :: .op .lbrc :: .enter :: (te ++ .resume t :: tr)) (v, (e, v') :: ps)
  | argsEnd : Gram flt fold .args [] ([] : List Node)
  | argsLast {te : List TextItem} {e : Node} : Gram flt fold .expr te e → Gram flt fold .args te [e]
  | args {te ta : List TextItem} {e : Node} {as : List Node} : Gram flt fold .expr te e → Gram flt fold .args ta as →
      Gram flt fold .args (te ++ .op .comma :: ta) (e :: as)
  | moreEnd : Gram flt fold .more [] ([] : List Node)
  | more {te tm : List TextItem} {e : Node} {es : List Node} : Gram flt fold .expr te e → Gram flt fold .more tm es →
      Gram flt fold .more (.op .comma :: (te ++ tm)) (e :: es)
  | pairsEnd : Gram flt fold .pairs [] ([] : List Node)
  | pairs {tk tv tm : List TextItem} {k v : Node} {es : List Node} : Gram flt fold .expr tk k → Gram flt fold .expr tv v → Gram flt fold .pairs tm es →
      Gram flt fold .pairs (.op .comma :: (tk ++ .op .colon :: (tv ++ tm))) (k :: v :: es)
  | iter {x : Name} {te : List TextItem} {e : Node} : Gram flt fold .expr te e → Gram flt fold .iter (.word .id x :: .op .leftArr :: te) (Node.letIter x e)
  | condNone : Gram flt fold .cond [] (none : Option Node)
  | cond {te : List TextItem} {e : Node} : Gram flt fold .expr te e → Gram flt fold .cond (.op .if_ :: te) (some e)
  -- statements
  | echo {te : List TextItem} {e : Node} : Gram flt fold .expr te e → Gram flt fold .stmt (.op .echo :: te) (Node.echo e)
  | export_ {te : List TextItem} {e : Node} : Gram flt fold .expr te e → Gram flt fold .stmt (.op .export_ :: te) (Node.export_ e)
  | assert {te : List TextItem} {e : Node} : Gram flt fold .expr te e → Gram flt fold .stmt (.op .ass :: te) (Node.assert e)
  | brk : Gram flt fold .stmt [.op .break_] Node.brk
  | cont : Gram flt fold .stmt [.op .cont] Node.cont
  | ret {te : List TextItem} {e : Node} : Gram flt fold .expr te e → Gram flt fold .stmt (.op .ret :: te) (Node.ret (.variadic e (-1)))
  | multiRet {te tm : List TextItem} {e e' : Node} {es : List Node} : Gram flt fold .expr te e → Gram flt fold .more tm (e' :: es) →
      Gram flt fold .stmt (.op .ret :: (te ++ tm)) (Node.multiRet (lastSpread (-1) (e :: e' :: es)))
  | fnDecl {x : Name} {tp tb : List TextItem} {ps ss : List Node} : Params tp ps → Gram flt fold .body tb ss →
      Gram flt fold .stmt (.op .fn :: .word .id x :: .op .lpar :: (tp ++ .op .rpar :: tb)) (Node.let_ x (some (.fn ps ss (some x))))
  | fnMember {x m : Name} {tp tb : List TextItem} {ps ss : List Node} : Params tp ps → Gram flt fold .body tb ss →
      Gram flt fold .stmt (.op .fn :: .word .id x :: .op .dot :: .word .id m :: .op .lpar :: (tp ++ .op .rpar :: tb))
        (Node.set (.var x) (.str m) (some (.fn ps ss none)))
  | fnConst {x : Name} {tp tb : List TextItem} {ps ss : List Node} : Params tp ps → Gram flt fold .body tb ss →
      Gram flt fold .stmt (.op .const :: .op .fn :: .word .id x :: .op .lpar :: (tp ++ .op .rpar :: tb)) (Node.const_ x (some (.fn ps ss (some x))))
  | fnExpr {ts : List TextItem} {e : Node} : Gram flt fold .expr (.op .fn :: ts) e → Gram flt fold .stmt (.op .fn :: ts) e
  | declLet {x : Name} {tl tr tm : List TextItem} {ls : List Node} {e : Node} {es : List Node} : Gram flt fold .lvals tl ls → Gram flt fold .expr tr e →
      Gram flt fold .more tm es → (e :: es).length ≤ (ls.length + 1) + 1 →
      Gram flt fold .stmt (.op .let_ :: .word .id x :: (tl ++ .op .eq :: (tr ++ tm))) (Node.decl (.let_ x none :: ls) (padTo (ls.length + 1) (e :: es)))
  | declConst {x : Name} {tl tr tm : List TextItem} {ls : List Node} {e : Node} {es : List Node} : Gram flt fold .lvals tl ls → Gram flt fold .expr tr e →
      Gram flt fold .more tm es → (e :: es).length ≤ (ls.length + 1) + 1 →
      Gram flt fold .stmt (.op .const :: .word .id x :: (tl ++ .op .eq :: (tr ++ tm))) (Node.decl (.const_ x none :: ls) (padTo (ls.length + 1) (e :: es)))
  | declVar {x : Name} {tl tr tm : List TextItem} {l : Node} {ls : List Node} {e : Node} {es : List Node} : Gram flt fold .lvals tl (l :: ls) →
      Gram flt fold .expr tr e → Gram flt fold .more tm es → (e :: es).length ≤ (ls.length + 2) + 1 →
      Gram flt fold .stmt (.word .id x :: (tl ++ .op .eq :: (tr ++ tm))) (Node.decl (.assign x none :: l :: ls) (padTo (ls.length + 2) (e :: es)))
  -- (a statement that starts with `fn` or `x ,` is one of the above)
  | simple {ts : List TextItem} {n : Node} : (∀ rest, ts ≠ .op .fn :: rest) → (∀ x rest, ts ≠ .word .id x :: .op .comma :: rest) →
      Gram flt fold .simple ts n → Gram flt fold .stmt ts n
  | forLet {x : Name} {te tc tp tb : List TextItem} {nl n1 n2 : Bool} {e c p : Node} {ss : List Node} : Gram flt fold .expr te e → Gram flt fold .expr tc c →
      Gram flt fold .simple tp p → Gram flt fold .body tb ss →
      Gram flt fold .stmt (.sep .for_ nl :: .op .let_ :: .word .id x :: .op .eq :: (te ++ .sep .semi n1 :: (tc ++ .sep .semi n2 :: (tp ++ tb))))
        (Node.block [.let_ x (some e), .while_ c (.block ss) (some (.exprStmt p))])
  | forIter {ti tb : List TextItem} {nl : Bool} {i : Node} {ss : List Node} : Gram flt fold .iter ti i → Gram flt fold .body tb ss →
      Gram flt fold .stmt (.sep .for_ nl :: (ti ++ tb)) (Node.forIter i (.block ss))
  | while_ {tc tb : List TextItem} {c : Node} {ss : List Node} : Gram flt fold .expr tc c → Gram flt fold .body tb ss →
      Gram flt fold .stmt (.op .while_ :: (tc ++ tb)) (Node.while_ c (.block ss) none)
  | if_ {ts : List TextItem} {n : Node} : Gram flt fold .ifRest ts n → Gram flt fold .stmt (.op .if_ :: ts) n
  | match_ {te tc : List TextItem} {e : Node} {cs : List (PatNode × Option Node × List Node)} : Gram flt fold .expr te e → Gram flt fold .clauses tc cs →
      Gram flt fold .stmt (.op .match_ :: (te ++ .op .lbrc :: (tc ++ [.op .rbrc])))
        (Node.match_ e (cs.map (·.1)) (cs.map (·.2.1)) (cs.map (·.2.2)))
  | exprStmt {te : List TextItem} {e : Node} : Gram flt fold .expr te e → Gram flt fold .simple te (Node.exprStmt e)
  | assign {tx te : List TextItem} {x : Name} {e : Node} : Gram flt fold .expr tx (Node.var x) → Gram flt fold .expr te e →
      Gram flt fold .simple (tx ++ .op .eq :: te) (Node.assign x (some e))
  | set {tx te : List TextItem} {c k e : Node} : Gram flt fold .expr tx (Node.get c k) → Gram flt fold .expr te e →
      Gram flt fold .simple (tx ++ .op .eq :: te) (Node.set c k (some e))
  | augAssign {tx te : List TextItem} {x : Name} {e : Node} {t o : Tok} : (t, o) ∈ augmentedOps → Gram flt fold .expr tx (Node.var x) → Gram flt fold .expr te e →
      Gram flt fold .simple (tx ++ .op t :: te) (Node.assign x (some (.bin o (.var x) e)))
  | augSet {tx te : List TextItem} {c k e : Node} {t o : Tok} : (t, o) ∈ augmentedOps → Gram flt fold .expr tx (Node.get c k) → Gram flt fold .expr te e →
      Gram flt fold .simple (tx ++ .op t :: te) (Node.set c k (some (.bin o (.get c k) e)))
  | declSet {tx tl tr tm : List TextItem} {c k l : Node} {ls : List Node} {e : Node} {es : List Node} : Gram flt fold .expr tx (Node.get c k) →
      Gram flt fold .lvals tl (l :: ls) → Gram flt fold .expr tr e → Gram flt fold .more tm es → (e :: es).length ≤ (ls.length + 1) + 1 →
      Gram flt fold .simple (tx ++ (tl ++ .op .eq :: (tr ++ tm))) (Node.decl (.set c k none :: l :: ls) (padTo (ls.length + 1) (e :: es)))
  | lvalLet {x : Name} : Gram flt fold .lval [.op .let_, .word .id x] (Node.let_ x none)
  | lvalConst {x : Name} : Gram flt fold .lval [.op .const, .word .id x] (Node.const_ x none)
  | lvalVar {ts : List TextItem} {x : Name} : Gram flt fold .post ts (Node.var x) → Gram flt fold .lval ts (Node.assign x none)
  | lvalGet {ts : List TextItem} {c k : Node} : Gram flt fold .post ts (Node.get c k) → Gram flt fold .lval ts (Node.set c k none)
  | lvalsEnd : Gram flt fold .lvals [] ([] : List Node)
  | lvals {tl tm : List TextItem} {l : Node} {ls : List Node} : Gram flt fold .lval tl l → Gram flt fold .lvals tm ls →
      Gram flt fold .lvals (.op .comma :: (tl ++ tm)) (l :: ls)
  | ifEnd {tc tb : List TextItem} {c : Node} {ss : List Node} : Gram flt fold .expr tc c → Gram flt fold .body tb ss →
      Gram flt fold .ifRest (tc ++ tb) (Node.if_ c (.block ss) none)
  | ifElse {tc tb te : List TextItem} {c : Node} {ss es : List Node} : Gram flt fold .expr tc c → Gram flt fold .body tb ss → Gram flt fold .body te es →
      Gram flt fold .ifRest (tc ++ (tb ++ .op .else_ :: te)) (Node.if_ c (.block ss) (some (.block es)))
  | ifElseif {tc tb te : List TextItem} {c e : Node} {ss : List Node} : Gram flt fold .expr tc c → Gram flt fold .body tb ss → Gram flt fold .ifRest te e →
      Gram flt fold .ifRest (tc ++ (tb ++ .op .elseif :: te)) (Node.if_ c (.block ss) (some e))
  | clausesEnd : Gram flt fold .clauses [] ([] : List (PatNode × Option Node × List Node))
  | clauses {tp tg tb tc : List TextItem} {nl : Bool} {p : PatNode} {g : Option Node} {ss : List Node} {cs : List (PatNode × Option Node × List Node)} :
      PGram flt .pat tp p → Gram flt fold .cond tg g → Gram flt fold .body tb ss → Gram flt fold .clauses tc cs →
      Gram flt fold .clauses (tp ++ (tg ++ (tb ++ .sep .semi nl :: tc))) ((p, g, ss) :: cs)
  | body {ts : List TextItem} {ss : List Node} : Gram flt fold .stmts ts ss → Gram flt fold .body (.op .lbrc :: (ts ++ [.op .rbrc])) ss
  | stmtsEnd : Gram flt fold .stmts [] ([] : List Node)
  | stmts {ts tm : List TextItem} {nl : Bool} {n : Node} {ss : List Node} : Gram flt fold .stmt ts n → Gram flt fold .stmts tm ss →
      Gram flt fold .stmts (ts ++ .sep .semi nl :: tm) (n :: ss)

end Yasl
