set_option autoImplicit false
/-!
# The memory of the syntax tree: compiler/ast.c, compiler/parser.c:64-96, 123-126, compiler/middleend.c:66-82

Nodes are blocks that hold the pointer `next` of the list of all nodes, which starts at `parser->head`.  A block has a number which is never used again (`free` and `malloc`
together may return the same address: then the numbers are more careful than the addresses).  `none`: a loop does not end, or the depth of the recursion
is not enough.
-/
namespace Yasl

/-- `enum NodeType`, compiler/nodetype.x:1-58. -/
inductive NType where
  | exprStmt | block | body | fnDecl | ret | multiRet | export_ | varCont | call | mcall | set_ | get_ | slice | letIter | listComp | tableComp | forIter | while_ | break_ | cont
  | match_ | if_ | echo | let_ | const_ | decl | triOp | binOp | unOp | assign | var | undef | float | int | bool | str | list | table | assert_
  | patUndef | patBool | patFl | patInt | patStr | patTable | patLs | patVTable | patVLs | patAlt | patAny | patLet | patConst
  | patBoolType | patIntType | patFloatType | patStrType | patLsType | patTableType
deriving DecidableEq

/-- `struct Node`, compiler/ast.h:51-67: of the union only the name; `left`, `right` and `expr` of operators are among the children. -/
structure PNode where
  next : Option Nat
  type : NType
  name : Option Nat
  kids : List (Option Nat)

/-- The blocks of nodes (`none`: freed), the blocks of names (`false`: freed), `parser->head` and `parser->tail`. -/
structure TreeMem where
  nodes : List (Option PNode)
  strs : List Bool
  head : Option Nat
  tail : Option Nat

/-- How a function ends: it returns, or it has used a freed block or the null pointer, or freed a block twice. -/
inductive NRes where
  | ok (s : TreeMem)
  | ub

/-- A block is read. -/
def TreeMem.node (s : TreeMem) (p : Nat) : Option PNode := (s.nodes[p]?).join

/-- A block is written. -/
def TreeMem.write (s : TreeMem) (p : Nat) (n : PNode) : TreeMem := { s with nodes := s.nodes.set p (some n) }

/-- `parser_register_node`, compiler/parser.c:64-71. -/
def TreeMem.register (s : TreeMem) (p : Nat) : NRes :=
  match s.head with
  | none => .ok { s with head := some p, tail := some p }
  | some _ => match s.tail with
    | none => .ub
    | some t => match s.node t with
      | none => .ub
      | some n => .ok { s.write t { n with next := some p } with tail := some p }

/-- The loop of `parser_unregister_node`, compiler/parser.c:83-95. -/
def TreeMem.unlink (p : Nat) : Nat → TreeMem → Nat → Option Nat → Option NRes
  | 0, _, _, _ => none
  | _ + 1, s, _, none => some (.ok s)
  | f + 1, s, prev, some c => match s.node c with
    | none => some .ub
    | some n =>
      if c = p then match s.node prev with
        | none => some .ub
        | some m => some (.ok { (s.write prev { m with next := n.next }).write p { n with next := none } with tail := if s.tail = some p then some prev else s.tail })
      else TreeMem.unlink p f s c n.next

/-- `parser_unregister_node`, compiler/parser.c:73-96.  Fuel: as many rounds as there are blocks; a loop that needs more never ends. -/
def TreeMem.unregister (s : TreeMem) (p : Nat) : Option NRes :=
  match s.head with
  | none => some (.ok s)
  | some h => match s.node h with
    | none => some .ub
    | some n => if h = p then some (.ok { s.write p { n with next := none } with head := n.next }) else TreeMem.unlink p s.nodes.length s h n.next

/-- The name given to a constructor: the null pointer, a new block (the text of a token, or a copy of it), the name of another node. -/
inductive NameArg where
  | null
  | fresh
  | of (p : Nat)

/-- What the parser and the folder of constants do to nodes. -/
inductive TreeOp where
  | new (t : NType) (name : NameArg) (kids : List (Option Nat))
  /-- `body_append(parser, &x, kid)`, where `x` is a variable (`slot = none`) or `children[0]` of a node -/
  | append (p : Nat) (kid : Option Nat) (moves : Bool) (slot : Option Nat)
  | retype (p : Nat) (t : NType)
  | setkid (p i q : Nat)

/-- One of them.  `new`: `new_Node`, `new_TriOp`, `new_BinOp`, `new_UnOp` and all constructors made of them, compiler/ast.c:50-69, 197-268.  `append`: `body_append`,
compiler/ast.c:146-152; `moves` says whether `realloc` returns another block.  `retype`: assignments to `nodetype` (compiler/parser.c:535-660, 706, 929, compiler/middleend.c:66-82,
compiler/compiler.c:347; that the children are forgotten by the folder is not modelled: the children of a folded operator are still here).  `setkid`: assignments to `children[i]`,
compiler/parser.c:347, 444, 921, 964. -/
def TreeMem.step (s : TreeMem) : TreeOp → Option NRes
  | .new t name kids =>
    let alloc (x : Option Nat) (strs : List Bool) : NRes := ({ s with nodes := s.nodes ++ [some ⟨none, t, x, kids⟩], strs := strs } : TreeMem).register s.nodes.length
    match name with
    | .null => some (alloc none s.strs)
    | .fresh => some (alloc (some s.strs.length) (s.strs ++ [true]))
    | .of p => match s.node p with
      | none => some .ub
      | some n => some (alloc n.name s.strs)
  | .append p kid moves slot => match s.unregister p with
    | none => none
    | some .ub => some .ub
    | some (.ok s1) => match s1.node p with
      | none => some .ub
      | some n =>
        if moves then
          let q := s1.nodes.length
          match ({ s1 with nodes := s1.nodes.set p none ++ [some { n with kids := n.kids ++ [kid] }] } : TreeMem).register q with
          | .ub => some .ub
          | .ok s2 => match slot with
            | none => some (.ok s2)
            | some r => match s2.node r with
              | none => some .ub
              | some m => some (.ok (s2.write r { m with kids := m.kids.set 0 (some q) }))
        else some ((s1.write p { n with kids := n.kids ++ [kid] }).register p)
  | .retype p t => match s.node p with
    | none => some .ub
    | some n => some (.ok (s.write p { n with type := t }))
  | .setkid p i q => match s.node p with
    | none => some .ub
    | some n => some (.ok (s.write p { n with kids := n.kids.set i (some q) }))

/-- The types whose name is freed with the node: the `switch` of `node_del`, compiler/ast.c:274-301. -/
def freesName : NType → Bool
  | .var | .let_ | .str | .const_ | .letIter | .fnDecl | .patConst | .patLet | .patStr => true
  | _ => false

/-- `free` of a name; that of the null pointer does nothing. -/
def TreeMem.freeStr (s : TreeMem) : Option Nat → NRes
  | none => .ok s
  | some i => match s.strs[i]? with
    | some true => .ok { s with strs := s.strs.set i false }
    | _ => .ub

/-- `node_del`, compiler/ast.c:271-304: the fuel is the depth of the recursion. -/
def nodeDel : Nat → TreeMem → Option Nat → Option NRes
  | 0, _, _ => none
  | _ + 1, s, none => some (.ok s)
  | f + 1, s, some p => match s.node p with
    | none => some .ub
    | some n => match nodeDel f s n.next with
      | none => none
      | some .ub => some .ub
      | some (.ok s1) => match if freesName n.type then s1.freeStr n.name else .ok s1 with
        | .ub => some .ub
        | .ok s2 => match s2.node p with
          | none => some .ub
          | some _ => some (.ok { s2 with nodes := s2.nodes.set p none })

/-- `parser_cleanup`, compiler/parser.c:123-126 (without the lexer). -/
def TreeMem.cleanup (f : Nat) (s : TreeMem) : Option NRes := nodeDel f s s.head

/-- The parser before it has read anything: `NEW_PARSER`, compiler/parser.h:18-24. -/
def TreeMem.new : TreeMem := ⟨[], [], none, none⟩

end Yasl
