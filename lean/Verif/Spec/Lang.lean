import Verif.Model.Ast
set_option autoImplicit false
/-!
# What programs mean

The evaluation rules of the language, on syntax trees: no stack, no bytecode.  Operations on lists, tables and strings
beyond the operators, and operators which a metatable implements, are the opaque functions `Prims` on a world `W` (heap, files, …).
-/
namespace Yasl

/-- Ways in which running a program can stop before its end. -/
inductive RtErr where
  | divZero | assert | type | value | stackOverflow
  /-- the program halted (`O_HALT`) -/
  | halt
  /-- undefined behaviour of the C code -/
  | ub
  /-- the identity of string objects, which is outside of the model -/
  | strIdentity
  /-- a name without meaning (rejected by the compiler), an unknown opcode, … -/
  | other
deriving DecidableEq, Repr

/-- The result of an operation that can change the world and can fail. -/
abbrev PRes (W α : Type) := W × Except RtErr α

/-- Sequencing. -/
def PRes.bind {W α β : Type} (r : PRes W α) (k : W → α → PRes W β) : PRes W β :=
  match r with
  | (w, .ok a) => k w a
  | (w, .error e) => (w, .error e)

/-- What the program can do with the rest of the system. -/
structure Prims (W : Type) where
  /-- a binary operator implemented by a metatable -/
  binary : W → BinOp → Val → Val → PRes W Val
  /-- a unary operator implemented by a metatable -/
  unary : W → UnOp → Val → PRes W Val
  /-- a new list with the given elements -/
  newList : W → List Val → PRes W Val
  /-- a new table with the given entries -/
  newTable : W → List (Val × Val) → PRes W Val
  /-- `c[k]` -/
  get : W → Val → Val → PRes W Val
  /-- `c[a:b]` -/
  slice : W → Val → Val → Val → PRes W Val
  /-- `c[k] = v` -/
  set : W → Val → Val → Val → PRes W Unit
  /-- the text of a value -/
  tostr : W → Val → PRes W (List Byte)
  /-- the element of a collection at a cursor, with the next cursor; `none` at the end -/
  next : W → Val → Nat → PRes W (Option (Val × Nat))

/-- No operation returns the sentinel `Y_END`. -/
structure Prims.NoEnd {W : Type} (P : Prims W) : Prop where
  binary : ∀ w o a b w' v, P.binary w o a b = (w', .ok v) → v ≠ .end_
  unary : ∀ w o a w' v, P.unary w o a = (w', .ok v) → v ≠ .end_
  newList : ∀ w vs w' v, P.newList w vs = (w', .ok v) → v ≠ .end_
  newTable : ∀ w vs w' v, P.newTable w vs = (w', .ok v) → v ≠ .end_
  get : ∀ w c k w' v, P.get w c k = (w', .ok v) → v ≠ .end_
  slice : ∀ w c a b w' v, P.slice w c a b = (w', .ok v) → v ≠ .end_
  next : ∀ w c i w' v j, P.next w c i = (w', .ok (some (v, j))) → v ≠ .end_

section
variable {W : Type} (F : FloatOps) (P : Prims W)

/-- A binary operator on two values. -/
def applyBin (w : W) (o : BinOp) (a b : Val) : PRes W Val :=
  match binOp F o a b with
  | .val v => (w, .ok v)
  | .divZero => (w, .error .divZero)
  | .ub => (w, .error .ub)
  | .strIdentity => (w, .error .strIdentity)
  | .dispatch => P.binary w o a b

/-- A unary operator on a value. -/
def applyUn (w : W) (o : UnOp) (a : Val) : PRes W Val :=
  match unOp o a with
  | .val v => (w, .ok v)
  | .divZero => (w, .error .divZero)
  | .ub => (w, .error .ub)
  | .strIdentity => (w, .error .strIdentity)
  | .dispatch => P.unary w o a

/-- Key, value, key, value, … as pairs. -/
def pairUp : List Val → List (Val × Val)
  | k :: v :: r => (k, v) :: pairUp r
  | _ => []

mutual
/-- The value of an expression; `ρ` gives the values of the variables. -/
def eval (ρ : Name → Option Val) : Expr → W → PRes W Val
  | .undef, w => (w, .ok .undef)
  | .bool b, w => (w, .ok (.bool b))
  | .int i, w => (w, .ok (.int i))
  | .float f, w => (w, .ok (.float f))
  | .str s, w => (w, .ok (.str s))
  | .var x, w => match ρ x with
    | some v => (w, .ok v)
    | none => (w, .error .other)
  | .un o e, w => (eval ρ e w).bind fun w v => applyUn P w o v
  | .bin (.op o) l r, w => (eval ρ l w).bind fun w a => (eval ρ r w).bind fun w b => applyBin F P w o a b
  | .bin .ne l r, w =>
    ((eval ρ l w).bind fun w a => (eval ρ r w).bind fun w b => applyBin F P w .eq a b).bind fun w v => (w, .ok (.bool v.falsey))
  | .bin .nid l r, w =>
    ((eval ρ l w).bind fun w a => (eval ρ r w).bind fun w b => applyBin F P w .id a b).bind fun w v => (w, .ok (.bool v.falsey))
  | .bin .and l r, w => (eval ρ l w).bind fun w a => if a.falsey then (w, .ok a) else eval ρ r w
  | .bin .or l r, w => (eval ρ l w).bind fun w a => if a.falsey then eval ρ r w else (w, .ok a)
  | .bin .coalesce l r, w => (eval ρ l w).bind fun w a => if a = .undef then eval ρ r w else (w, .ok a)
  | .tri c a b, w => (eval ρ c w).bind fun w v => if v.falsey then eval ρ b w else eval ρ a w
  | .list es, w => (evalAll ρ es w).bind fun w vs => P.newList w vs
  | .table es, w => (evalAll ρ es w).bind fun w vs => P.newTable w (pairUp vs)
  | .get c k, w => (eval ρ c w).bind fun w c => (eval ρ k w).bind fun w k => P.get w c k
  | .slice c a b, w =>
    (eval ρ c w).bind fun w c => (eval ρ a w).bind fun w a => (eval ρ b w).bind fun w b => P.slice w c a b
/-- The values of several expressions, left to right. -/
def evalAll (ρ : Name → Option Val) : Exprs → W → PRes W (List Val)
  | .nil, w => (w, .ok [])
  | .cons e es, w => (eval ρ e w).bind fun w v => (evalAll ρ es w).bind fun w vs => (w, .ok (v :: vs))
end

/-! ## Statements -/

/-- Local variables, innermost first. -/
abbrev LEnv := List (Name × Val)

/-- The value of a local variable. -/
def LEnv.find (env : LEnv) (x : Name) : Option Val := (List.find? (fun p => p.1 == x) env).map Prod.snd

/-- Assignment to the innermost local variable of that name. -/
def LEnv.update : LEnv → Name → Val → LEnv
  | [], _, _ => []
  | (y, u) :: env, x, v => if y = x then (y, v) :: env else (y, u) :: LEnv.update env x v

/-- The state of a program: local variables, global variables, the rest of the system, and what was printed. -/
structure PState (W : Type) where
  env : LEnv
  globals : Name → Option Val
  world : W
  out : List Byte

/-- The meaning of a name: a local variable, else a global. -/
def PState.look {W : Type} (s : PState W) (x : Name) : Option Val :=
  match s.env.find x with
  | some v => some v
  | none => s.globals x

/-- Assignment to a local variable, else to a global. -/
def PState.assign {W : Type} (s : PState W) (x : Name) (v : Val) : PState W :=
  match s.env.find x with
  | some _ => { s with env := s.env.update x v }
  | none => { s with globals := fun y => if y = x then some v else s.globals y }

/-- How a statement ends. -/
inductive Sig where
  | normal | brk | cont
  | err (e : RtErr)
  /-- a loop ran for more rounds than the bound -/
  | timeout
deriving DecidableEq, Repr

/-- Result of a statement. -/
abbrev SRes (W : Type) := PState W × Sig

/-- Evaluate an expression, then go on. -/
def withVal {W α : Type} (s : PState W) (r : PRes W α) (k : PState W → α → SRes W) : SRes W :=
  match r with
  | (w, .ok v) => k { s with world := w } v
  | (w, .error e) => ({ s with world := w }, .err e)

/-- Go on after a statement that ends normally. -/
def SRes.andThen {W : Type} (r : SRes W) (k : PState W → SRes W) : SRes W :=
  match r with
  | (s, .normal) => k s
  | r => r

/-- Forget the variables declared since there were `n`. -/
def PState.leave {W : Type} (n : Nat) (s : PState W) : PState W := { s with env := s.env.drop (s.env.length - n) }

/-- A loop: at most `fuel` rounds.  `break` ends it, `continue` ends the round; after every round `post` is executed.  Leaving the
body in any way forgets its variables. -/
def loop {W : Type} (cond : PState W → PRes W Val) (body post : PState W → SRes W) : Nat → PState W → SRes W
  | 0, s => (s, .timeout)
  | fuel + 1, s =>
    withVal s (cond s) fun s v =>
    if v.falsey then (s, .normal)
    else match body s with
      | (s', .brk) => (s'.leave s.env.length, .normal)
      | (s', .normal) | (s', .cont) => (post (s'.leave s.env.length)).andThen (loop cond body post fuel)
      | r => r

/-- A loop over a collection, from a cursor on: the variable is a new local variable in every round. -/
def loopIter {W : Type} (P : Prims W) (x : Name) (coll : Val) (body : PState W → SRes W) : Nat → Nat → PState W → SRes W
  | 0, _, s => (s, .timeout)
  | fuel + 1, i, s =>
    withVal s (P.next s.world coll i) fun s r =>
    match r with
    | none => (s, .normal)
    | some (v, j) => match body { s with env := (x, v) :: s.env } with
      | (s', .brk) => (s'.leave s.env.length, .normal)
      | (s', .normal) | (s', .cont) => loopIter P x coll body fuel j (s'.leave s.env.length)
      | r => r

/-- The bytes which `echo` prints for a text: NUL bytes are left out (C65), then a newline. -/
def echoBytes (t : List Byte) : List Byte := t.filter (· ≠ 0) ++ [10]

/-- Bind the left-hand sides of a declaration to the values, from left to right. -/
def bindAll : List LVal → List Val → PState W → SRes W
  | [], _, s => (s, .normal)
  | _ :: _, [], s => (s, .err .other)
  | .let_ x :: ls, v :: vs, s | .const_ x :: ls, v :: vs, s => bindAll ls vs { s with env := (x, v) :: s.env }
  | .assign x :: ls, v :: vs, s => bindAll ls vs (s.assign x v)
  | .set c k :: ls, v :: vs, s =>
    withVal s (eval F P s.look c s.world) fun s c => withVal s (eval F P s.look k s.world) fun s k =>
    withVal s (P.set s.world c k v) fun s _ => bindAll ls vs s

mutual
/-- The effect of a statement; `fuel` bounds the rounds of every loop. -/
def exec (fuel : Nat) : Stmt → PState W → SRes W
  | .expr e, s => withVal s (eval F P s.look e s.world) fun s _ => (s, .normal)
  | .post st, s => exec fuel st s
  | .decl ls rs, s => withVal s (evalAll F P s.look rs s.world) fun s vs => bindAll F P ls vs s
  | .letOne x e, s => withVal s (eval F P s.look e s.world) fun s v => ({ s with env := (x, v) :: s.env }, .normal)
  | .assign x e, s => withVal s (eval F P s.look e s.world) fun s v => (s.assign x v, .normal)
  | .set c k v, s =>
    withVal s (eval F P s.look c s.world) fun s c => withVal s (eval F P s.look k s.world) fun s k =>
    withVal s (eval F P s.look v s.world) fun s v => withVal s (P.set s.world c k v) fun s _ => (s, .normal)
  | .echo e, s =>
    withVal s (eval F P s.look e s.world) fun s v => withVal s (P.tostr s.world v) fun s t =>
    ({ s with out := s.out ++ echoBytes t }, .normal)
  | .assert e, s =>
    withVal s (eval F P s.look e s.world) fun s v =>
    if v.falsey then withVal s (P.tostr s.world v) fun s _ => (s, .err .assert) else (s, .normal)
  | .block ss, s => match execAll fuel ss s with
    | (s', .normal) => (s'.leave s.env.length, .normal)
    | r => r
  | .ifThen c t, s =>
    withVal s (eval F P s.look c s.world) fun s v => if v.falsey then (s, .normal) else exec fuel t s
  | .ifElse c t e, s =>
    withVal s (eval F P s.look c s.world) fun s v => if v.falsey then exec fuel e s else exec fuel t s
  | .while_ c body, s => loop (fun s => eval F P s.look c s.world) (exec fuel body) (fun s => (s, .normal)) fuel s
  | .forLoop c body post, s => loop (fun s => eval F P s.look c s.world) (exec fuel body) (exec fuel post) fuel s
  | .forIter x coll body, s =>
    withVal s (eval F P s.look coll s.world) fun s c => loopIter P x c (exec fuel body) fuel 0 s
  | .brk, s => (s, .brk)
  | .cont, s => (s, .cont)
/-- Statements in sequence. -/
def execAll (fuel : Nat) : Stmts → PState W → SRes W
  | .nil, s => (s, .normal)
  | .cons st ss, s => (exec fuel st s).andThen (execAll fuel ss)
end

end
end Yasl
