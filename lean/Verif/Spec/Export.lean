import Verif.Model.Node
set_option autoImplicit false
/-!
# What is inside what in a program

The places of statements and expressions: which functions and blocks of the text are around them.
-/
namespace Yasl

/-- How a part belongs to the node that holds it: in the body of a function, in a `{ }` block (or loop or comprehension with a variable of its own, or clause of
`match`), or neither. -/
inductive WStep where
  | fn
  | block
  | plain
  deriving DecidableEq

/-- `m` is a part of `n`. -/
inductive Part : Node → WStep → Node → Prop where
  | un {t : Tok} {e : Node} : Part (.un t e) .plain e
  | binL {t : Tok} {l r : Node} : Part (.bin t l r) .plain l
  | binR {t : Tok} {l r : Node} : Part (.bin t l r) .plain r
  | tri0 {a b d : Node} : Part (.tri a b d) .plain a
  | tri1 {a b d : Node} : Part (.tri a b d) .plain b
  | tri2 {a b d : Node} : Part (.tri a b d) .plain d
  | list {es : List Node} {e : Node} : e ∈ es → Part (.list es) .plain e
  | table {es : List Node} {e : Node} : e ∈ es → Part (.table es) .plain e
  | lcE {e it : Node} {cond : Option Node} : Part (.listComp e it cond) .block e
  | lcIt {e it : Node} {cond : Option Node} : Part (.listComp e it cond) .block it
  | lcC {e it k : Node} : Part (.listComp e it (some k)) .block k
  | tcE {kv : List Node} {e it : Node} {cond : Option Node} : e ∈ kv → Part (.tableComp kv it cond) .block e
  | tcIt {kv : List Node} {it : Node} {cond : Option Node} : Part (.tableComp kv it cond) .block it
  | tcC {kv : List Node} {it k : Node} : Part (.tableComp kv it (some k)) .block k
  | getC {a k : Node} : Part (.get a k) .plain a
  | getK {a k : Node} : Part (.get a k) .plain k
  | slice0 {a b d : Node} : Part (.slice a b d) .plain a
  | slice1 {a b d : Node} : Part (.slice a b d) .plain b
  | slice2 {a b d : Node} : Part (.slice a b d) .plain d
  | callF {f : Node} {as : List Node} : Part (.call f as) .plain f
  | callA {f e : Node} {as : List Node} : e ∈ as → Part (.call f as) .plain e
  | mcallO {o : Node} {m : Name} {as : List Node} : Part (.mcall o m as) .plain o
  | mcallA {o e : Node} {m : Name} {as : List Node} : e ∈ as → Part (.mcall o m as) .plain e
  | variadic {e : Node} {k : Int} : Part (.variadic e k) .plain e
  | fn {ps body : List Node} {x : Option Name} {s : Node} : s ∈ body → Part (.fn ps body x) .fn s
  | setC {a k : Node} {v : Option Node} : Part (.set a k v) .plain a
  | setK {a k : Node} {v : Option Node} : Part (.set a k v) .plain k
  | setV {a k v : Node} : Part (.set a k (some v)) .plain v
  | exprStmt {e : Node} : Part (.exprStmt e) .plain e
  | echo {e : Node} : Part (.echo e) .plain e
  | assert {e : Node} : Part (.assert e) .plain e
  | export_ {e : Node} : Part (.export_ e) .plain e
  | ret {e : Node} : Part (.ret e) .plain e
  | multiRet {es : List Node} {e : Node} : e ∈ es → Part (.multiRet es) .plain e
  | declR {ls rs : List Node} {e : Node} : e ∈ rs → Part (.decl ls rs) .plain e
  | declC {ls rs : List Node} {a k : Node} {v : Option Node} : .set a k v ∈ ls → Part (.decl ls rs) .plain a
  | declK {ls rs : List Node} {a k : Node} {v : Option Node} : .set a k v ∈ ls → Part (.decl ls rs) .plain k
  | let_ {x : Name} {e : Node} : Part (.let_ x (some e)) .plain e
  | const_ {x : Name} {e : Node} : Part (.const_ x (some e)) .plain e
  | assign {x : Name} {e : Node} : Part (.assign x (some e)) .plain e
  | letIter {x : Name} {e : Node} : Part (.letIter x e) .plain e
  | forI {it body : Node} : Part (.forIter it body) .block it
  | forB {it body : Node} : Part (.forIter it body) .block body
  | whileC {cond body : Node} {post : Option Node} : Part (.while_ cond body post) .plain cond
  | whileB {cond body : Node} {post : Option Node} : Part (.while_ cond body post) .plain body
  | whileP {cond body post : Node} : Part (.while_ cond body (some post)) .plain post
  | ifC {cond t : Node} {e : Option Node} : Part (.if_ cond t e) .plain cond
  | ifT {cond t : Node} {e : Option Node} : Part (.if_ cond t e) .plain t
  | ifE {cond t e : Node} : Part (.if_ cond t (some e)) .plain e
  | matchE {e : Node} {ps : List PatNode} {gs : List (Option Node)} {bs : List (List Node)} : Part (.match_ e ps gs bs) .plain e
  | matchG {e g : Node} {ps : List PatNode} {gs : List (Option Node)} {bs : List (List Node)} : some g ∈ gs → Part (.match_ e ps gs bs) .block g
  | matchB {e s : Node} {ps : List PatNode} {gs : List (Option Node)} {b : List Node} {bs : List (List Node)} : b ∈ bs → s ∈ b →
      Part (.match_ e ps gs bs) .block s
  | block {ss : List Node} {s : Node} : s ∈ ss → Part (.block ss) .block s

/-- `m` is inside `n`, `path` being the way down from `n` to `m`. -/
inductive Within : Node → List WStep → Node → Prop where
  | here (n : Node) : Within n [] n
  | step {n m k : Node} {s : WStep} {path : List WStep} : Part n s m → Within m path k → Within n (s :: path) k

/-- An `export` of the program `ss`, and the way to it. -/
def ExportAt (ss : List Node) (path : List WStep) : Prop := ∃ s ∈ ss, ∃ e, Within s path (.export_ e)

/-- At the top level: in no function and in no block. -/
def AtTop (path : List WStep) : Prop := .fn ∉ path ∧ .block ∉ path

end Yasl
