import Verif.Model.FAst
import Verif.Spec.Lang
set_option autoImplicit false
/-!
# What programs with functions mean

The evaluation rules on syntax trees, as in `Verif.Spec.Lang`: no stack, no bytecode.  Local variables belong to a call; the variables of the file (declared by
its statements, not inside of blocks) are shared by all functions; then there are the globals, which were declared before the program runs.

C functions are the opaque `Q`: from the world, the function and the arguments to the results.
-/
namespace Yasl

/-- Ways in which a program can stop. -/
inductive FErr where
  | err (e : RtErr)
  /-- more nested calls, or more rounds of a loop, than the bound -/
  | timeout
  /-- not described: a C function returned several values, or none, where all are taken; a function value that comes from elsewhere was called -/
  | outside
deriving DecidableEq, Repr

/-- A function of the program: the parameters, the body, how many of the variables of the file there were where the function is written, and whether calls in the
body take all the results. -/
structure Clo where
  params : List Name
  body : FStmts
  vis : Nat
  multi : Bool

/-- What all functions share: the variables of the file, newest first; the globals; the rest of the system; what was printed; the functions by their values; and
the number of closures made so far. -/
structure Sh (W : Type) where
  statics : LEnv
  globals : Name → Option Val
  world : W
  out : List Byte
  fns : Val → Option Clo
  ncl : Nat

/-- Results. -/
abbrev FRes (W α : Type) := Sh W × Except FErr α

/-- How a statement ends. -/
inductive FSig where
  | normal | brk | cont
  | ret (v : Val)
deriving DecidableEq, Repr

/-- Can the value be called? -/
def Val.isFn : Val → Prop
  | .ref .fn _ | .ref .closure _ | .ref .cfn _ => True
  | _ => False

instance (v : Val) : Decidable v.isFn := by unfold Val.isFn; split <;> infer_instance

/-- What happens when a value which is not a function is called: a type error, but tables and userdata can have a metamethod for it (not described). -/
def callErr : Val → RtErr
  | .ref .table _ | .ref .userdata _ | .userptr _ => .other
  | _ => .type

section
variable {W : Type}

/-- Sequencing. -/
def FRes.bind {α β : Type} (r : FRes W α) (k : Sh W → α → FRes W β) : FRes W β :=
  match r with
  | (s, .ok a) => k s a
  | (s, .error e) => (s, .error e)

/-- An operation on the rest of the system. -/
def Sh.prim {α : Type} (s : Sh W) (r : PRes W α) : FRes W α :=
  match r with
  | (w, .ok a) => ({ s with world := w }, .ok a)
  | (w, .error e) => ({ s with world := w }, .error (.err e))

/-- The meaning of a name: a local variable, else one of the `vis` oldest variables of the file, else a global. -/
def Sh.look (s : Sh W) (vis : Nat) (loc : LEnv) (x : Name) : Option Val :=
  match loc.find x with
  | some v => some v
  | none => match LEnv.find (s.statics.drop (s.statics.length - vis)) x with
    | some v => some v
    | none => s.globals x

/-- Assignment. -/
def Sh.assign (s : Sh W) (vis : Nat) (loc : LEnv) (x : Name) (v : Val) : Sh W × LEnv :=
  match loc.find x with
  | some _ => (s, loc.update x v)
  | none => match LEnv.find (s.statics.drop (s.statics.length - vis)) x with
    | some _ =>
      ({ s with statics := s.statics.take (s.statics.length - vis) ++ LEnv.update (s.statics.drop (s.statics.length - vis)) x v }, loc)
    | none => ({ s with globals := fun y => if y = x then some v else s.globals y }, loc)

/-- A function literal: `a` if it has a fixed value (the same every time), else a new value. -/
def Sh.mkFn (s : Sh W) (a : Option Nat) (c : Clo) : FRes W Val :=
  match a with
  | some a => ({ s with fns := fun v => if v = .ref .fn a then some c else s.fns v }, .ok (.ref .fn a))
  | none => ({ s with fns := fun v => if v = .ref .closure s.ncl then some c else s.fns v, ncl := s.ncl + 1 }, .ok (.ref .closure s.ncl))

/-- The arguments of a function: missing ones are `undef`, those that are too many are ignored.  The last parameter is first. -/
def bindArgs : List Name → List Val → LEnv → LEnv
  | [], _, acc => acc
  | x :: xs, [], acc => bindArgs xs [] ((x, .undef) :: acc)
  | x :: xs, v :: vs, acc => bindArgs xs vs ((x, v) :: acc)

/-- Forget the variables declared since there were `n`. -/
def LEnv.leave (n : Nat) (loc : LEnv) : LEnv := loc.drop (loc.length - n)

variable (F : FloatOps) (P : Prims W) (Q : W → Val → List Val → PRes W (List Val)) (label : Nat → Option Nat) (call : Clo → List Val → Sh W → FRes W Val)

/-- Call of a value.  `multi`: all the results are taken (there has to be one). -/
def apply (multi : Bool) (f : Val) (args : List Val) (s : Sh W) : FRes W Val :=
  match f with
  | .ref .cfn a => (s.prim (Q s.world (.ref .cfn a) args)).bind fun s rs =>
    if multi then (match rs with
      | [v] => (s, .ok v)
      | _ => (s, .error .outside))
    else (s, .ok (rs.headD .undef))
  | v => match s.fns v with
    | some c => call c args s
    | none => (s, .error .outside)

/-- Go on if the value can be called. -/
def checkFn {α : Type} (f : Val) (s : Sh W) (k : Sh W → FRes W α) : FRes W α :=
  if f.isFn then k s else (s, .error (.err (callErr f)))

mutual
/-- The value of an expression with the local variables `loc`, in a place where `vis` variables of the file are visible. -/
def feval (vis : Nat) (loc : LEnv) : FExpr → Bool → Sh W → FRes W Val
  | .lit l, _, s => (s, .ok l.val)
  | .var x, _, s => match s.look vis loc x with
    | some v => (s, .ok v)
    | none => (s, .error (.err .other))
  | .un o e, m, s => (feval vis loc e m s).bind fun s v => s.prim (applyUn P s.world o v)
  | .bin (.op o) l r, m, s => (feval vis loc l m s).bind fun s a => (feval vis loc r m s).bind fun s b => s.prim (applyBin F P s.world o a b)
  | .bin .ne l r, m, s =>
    ((feval vis loc l m s).bind fun s a => (feval vis loc r m s).bind fun s b => s.prim (applyBin F P s.world .eq a b)).bind fun s v =>
      (s, .ok (.bool v.falsey))
  | .bin .nid l r, m, s =>
    ((feval vis loc l m s).bind fun s a => (feval vis loc r m s).bind fun s b => s.prim (applyBin F P s.world .id a b)).bind fun s v =>
      (s, .ok (.bool v.falsey))
  | .bin .and l r, m, s => (feval vis loc l m s).bind fun s a => if a.falsey then (s, .ok a) else feval vis loc r m s
  | .bin .or l r, m, s => (feval vis loc l m s).bind fun s a => if a.falsey then feval vis loc r m s else (s, .ok a)
  | .bin .coalesce l r, m, s => (feval vis loc l m s).bind fun s a => if a = .undef then feval vis loc r m s else (s, .ok a)
  | .tri c a b, m, s => (feval vis loc c m s).bind fun s v => if v.falsey then feval vis loc b m s else feval vis loc a m s
  | .list es, m, s => (fevalAll vis loc es m s).bind fun s vs => s.prim (P.newList s.world vs)
  | .table es, m, s => (fevalAll vis loc es m s).bind fun s vs => s.prim (P.newTable s.world (pairUp vs))
  | .get c k, m, s => (feval vis loc c m s).bind fun s c => (feval vis loc k m s).bind fun s k => s.prim (P.get s.world c k)
  | .slice c a b, m, s => (feval vis loc c m s).bind fun s c => (feval vis loc a m s).bind fun s a => (feval vis loc b m s).bind fun s b =>
    s.prim (P.slice s.world c a b)
  | .fn id params body, m, s => s.mkFn (label id) ⟨params, body, vis, m⟩
  | .call f args, m, s => (feval vis loc f m s).bind fun s f => checkFn f s fun s =>
    (fevalAll vis loc args m s).bind fun s vs => apply Q call m f vs s
  | .mcall obj name args, m, s => (feval vis loc obj m s).bind fun s o => (s.prim (P.get s.world o (.str name))).bind fun s f => checkFn f s fun s =>
    (fevalAll vis loc args m s).bind fun s vs => apply Q call m f (o :: vs) s
  | .ctx all e, _, s => feval vis loc e all s
/-- The values of several expressions, left to right. -/
def fevalAll (vis : Nat) (loc : LEnv) : FExprs → Bool → Sh W → FRes W (List Val)
  | .nil, _, s => (s, .ok [])
  | .cons e es, m, s => (feval vis loc e m s).bind fun s v => (fevalAll vis loc es m s).bind fun s vs => (s, .ok (v :: vs))
end

/-- Result of a statement: the local variables, and how it ends. -/
abbrev FSRes (W : Type) := FRes W (LEnv × FSig)

/-- Go on after a statement that ends normally. -/
def FSRes.andThen (r : FSRes W) (k : Sh W → LEnv → FSRes W) : FSRes W :=
  match r with
  | (s, .ok (loc, .normal)) => k s loc
  | r => r

/-- After the body of a loop over the local variables of which there were `n`: `break` ends the loop, `continue` the round. -/
def FSRes.round (r : FSRes W) (n : Nat) (again : Sh W → LEnv → FSRes W) : FSRes W :=
  match r with
  | (s, .ok (loc, .brk)) => (s, .ok (loc.leave n, .normal))
  | (s, .ok (loc, .normal)) => again s (loc.leave n)
  | (s, .ok (loc, .cont)) => again s (loc.leave n)
  | r => r

/-- A loop: at most `fuel` rounds. -/
def floop (cond : LEnv → Sh W → FRes W Val) (body : LEnv → Sh W → FSRes W) : Nat → LEnv → Sh W → FSRes W
  | 0, _, s => (s, .error .timeout)
  | fuel + 1, loc, s => (cond loc s).bind fun s v =>
    if v.falsey then (s, .ok (loc, .normal)) else (body loc s).round loc.length fun s loc => floop cond body fuel loc s

/-- A loop in which `post` is done after each round. -/
def floopP (cond : LEnv → Sh W → FRes W Val) (body post : LEnv → Sh W → FSRes W) : Nat → LEnv → Sh W → FSRes W
  | 0, _, s => (s, .error .timeout)
  | fuel + 1, loc, s => (cond loc s).bind fun s v =>
    if v.falsey then (s, .ok (loc, .normal))
    else (body loc s).round loc.length fun s loc => (post loc s).andThen fun s loc => floopP cond body post fuel loc s

/-- A loop over a collection, from a cursor on. -/
def floopIter (x : Name) (coll : Val) (body : LEnv → Sh W → FSRes W) : Nat → Nat → LEnv → Sh W → FSRes W
  | 0, _, _, s => (s, .error .timeout)
  | fuel + 1, i, loc, s => (s.prim (P.next s.world coll i)).bind fun s r =>
    match r with
    | none => (s, .ok (loc, .normal))
    | some (v, j) => (body ((x, v) :: loc) s).round loc.length fun s loc => floopIter x coll body fuel j loc s

omit F P Q label call in
/-- The values are given to the left sides, one after the other. -/
def assignAll (vis : Nat) : List FTarget → List Val → LEnv → Sh W → Sh W × LEnv
  | .let_ x :: ls, v :: vs, loc, s | .const_ x :: ls, v :: vs, loc, s => assignAll vis ls vs ((x, v) :: loc) s
  | .assign x :: ls, v :: vs, loc, s => assignAll vis ls vs (s.assign vis loc x v).2 (s.assign vis loc x v).1
  | _, _, loc, s => (s, loc)

omit F P Q label call in
/-- The same for the variables of the file. -/
def assignTop : List FTarget → List Val → Sh W → Sh W
  | .let_ x :: ls, v :: vs, s | .const_ x :: ls, v :: vs, s => assignTop ls vs { s with statics := (x, v) :: s.statics }
  | .assign x :: ls, v :: vs, s => assignTop ls vs (s.assign s.statics.length [] x v).1
  | _, _, s => s

mutual
/-- The effect of a statement; `fuel` bounds the rounds of every loop. -/
def fexec (fuel : Nat) (vis : Nat) (m : Bool) : FStmt → LEnv → Sh W → FSRes W
  | .expr e, loc, s => (feval F P Q label call vis loc e m s).bind fun s _ => (s, .ok (loc, .normal))
  | .let_ x e, loc, s | .const_ x e, loc, s => (feval F P Q label call vis loc e m s).bind fun s v => (s, .ok ((x, v) :: loc, .normal))
  | .multi ls es, loc, s => (fevalAll F P Q label call vis loc es m s).bind fun s vs =>
    ((assignAll vis ls vs loc s).1, .ok ((assignAll vis ls vs loc s).2, .normal))
  | .assign x e, loc, s => (feval F P Q label call vis loc e m s).bind fun s v =>
    ((s.assign vis loc x v).1, .ok ((s.assign vis loc x v).2, .normal))
  | .set c k v, loc, s => (feval F P Q label call vis loc c m s).bind fun s c => (feval F P Q label call vis loc k m s).bind fun s k =>
    (feval F P Q label call vis loc v m s).bind fun s v => (s.prim (P.set s.world c k v)).bind fun s _ => (s, .ok (loc, .normal))
  | .echo e, loc, s => (feval F P Q label call vis loc e m s).bind fun s v => (s.prim (P.tostr s.world v)).bind fun s t =>
    ({ s with out := s.out ++ echoBytes t }, .ok (loc, .normal))
  | .assert e, loc, s => (feval F P Q label call vis loc e m s).bind fun s v =>
    if v.falsey then (s.prim (P.tostr s.world v)).bind fun s _ => (s, .error (.err .assert)) else (s, .ok (loc, .normal))
  | .block ss, loc, s => (fexecAll fuel vis m ss loc s).andThen fun s loc' => (s, .ok (loc'.leave loc.length, .normal))
  | .ifThen c t, loc, s => (feval F P Q label call vis loc c m s).bind fun s v =>
    if v.falsey then (s, .ok (loc, .normal)) else fexec fuel vis m t loc s
  | .ifElse c t e, loc, s => (feval F P Q label call vis loc c m s).bind fun s v =>
    if v.falsey then fexec fuel vis m e loc s else fexec fuel vis m t loc s
  | .while_ c body, loc, s => floop (fun loc s => feval F P Q label call vis loc c m s) (fun loc s => fexec fuel vis m body loc s) fuel loc s
  | .loop c body post, loc, s => floopP (fun loc s => feval F P Q label call vis loc c m s) (fun loc s => fexec fuel vis m body loc s)
      (fun loc s => fexec fuel vis m post loc s) fuel loc s
  | .forIter x coll body, loc, s => (feval F P Q label call vis loc coll m s).bind fun s c =>
    floopIter P x c (fun loc s => fexec fuel vis m body loc s) fuel 0 loc s
  | .brk, loc, s => (s, .ok (loc, .brk))
  | .cont, loc, s => (s, .ok (loc, .cont))
  | .ret e, loc, s => (feval F P Q label call vis loc e m s).bind fun s v => (s, .ok (loc, .ret v))
  | .fnDecl x id params body, loc, s => (s.mkFn (label id) ⟨params, body, vis, m⟩).bind fun s v => (s, .ok ((x, v) :: loc, .normal))
/-- Statements in sequence. -/
def fexecAll (fuel : Nat) (vis : Nat) (m : Bool) : FStmts → LEnv → Sh W → FSRes W
  | .nil, loc, s => (s, .ok (loc, .normal))
  | .cons st ss, loc, s => (fexec fuel vis m st loc s).andThen fun s loc => fexecAll fuel vis m ss loc s
end

omit call in
/-- A call of a function of the program, with at most `n` nested calls; a function that comes to its end returns `undef`. -/
def callF : Nat → Clo → List Val → Sh W → FRes W Val
  | 0, _, _, s => (s, .error .timeout)
  | n + 1, c, args, s =>
    (fexecAll F P Q label (callF n) n c.vis c.multi c.body (bindArgs c.params args []) s).bind fun s r =>
    match r.2 with
    | .ret v => (s, .ok v)
    | _ => (s, .ok .undef)

omit call in
/-- A statement of the file: declarations add to the variables of the file. -/
def ftop (n : Nat) (st : FStmt) (s : Sh W) : FRes W Unit :=
  match st with
  | .let_ x e | .const_ x e => (feval F P Q label (callF F P Q label n) s.statics.length [] e false s).bind fun s v =>
    ({ s with statics := (x, v) :: s.statics }, .ok ())
  | .multi ls es => (fevalAll F P Q label (callF F P Q label n) s.statics.length [] es false s).bind fun s vs => (assignTop ls vs s, .ok ())
  | .fnDecl x id params body => (s.mkFn (label id) ⟨params, body, s.statics.length + 1, false⟩).bind fun s v =>
    ({ s with statics := (x, v) :: s.statics }, .ok ())
  | st => (fexec F P Q label (callF F P Q label n) n s.statics.length false st [] s).bind fun s _ => (s, .ok ())

omit call in
/-- The program: the statements of the file, in order.  `n` bounds the depth of calls and the rounds of loops. -/
def fprog (n : Nat) : FStmts → Sh W → FRes W Unit
  | .nil, s => (s, .ok ())
  | .cons st ss, s => (ftop F P Q label n st s).bind fun s _ => fprog n ss s

end
end Yasl
