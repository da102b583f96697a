import Verif.Model.Compile
import Verif.Spec.Names
set_option autoImplicit false
/-!
# Names in nested functions: compiler/env.c and `load_var`, `store_var`, `decl_var` of compiler/compiler.c

`Verif.Model.Compile` has these functions for code outside of functions.  Here functions may be nested.  The tables of names are association
lists, as there (the hash table itself is `Verif.Model.Table`).  What is modelled of the output is which instruction is emitted with which
operand, before the operand is cut to a byte.
-/
namespace Yasl

/-- `struct Env`, compiler/env.h:10-17: a function being compiled.  `upIdx` is `upval_indices`, `upVal` is `upval_values`. -/
structure FnEnv where
  scopes : List Scope
  upIdx : List (Name × Int)
  upVal : List (Name × Int)
  isclosure : Bool
  usedinclosure : Bool
deriving DecidableEq

/-- `env_new`, compiler/env.c:11-20, then `enter_scope`, compiler/compiler.c:381-383. -/
def FnEnv.new : FnEnv := { scopes := [[]], upIdx := [], upVal := [], isclosure := false, usedinclosure := false }

/-- `env_contains_cur_only`, compiler/env.c:107-109. -/
def FnEnv.contains (e : FnEnv) (x : Name) : Bool := (scopeGet e.scopes x).isSome

/-- `YASL_Table_search` in a table of upvalues. -/
def upGet (t : List (Name × Int)) (x : Name) : Option Int := (t.find? fun p => p.1 == x).map Prod.snd

/-- `YASL_Table_insert` in a table of upvalues. -/
def upPut (t : List (Name × Int)) (x : Name) (v : Int) : List (Name × Int) :=
  if upGet t x = none then (x, v) :: t else t.map fun p => if p.1 == x then (x, v) else p

/-- `~i` for an `int64_t` in range. -/
def lnot (i : Int) : Int := -i - 1

/-- The parts of `struct Compiler` about names, compiler/compiler.h:36-63: `params` is the function being compiled, then the ones around it;
`stack` the scopes of the file (empty is `NULL`); `ok` is the status. -/
structure NState where
  params : List FnEnv
  stack : List Scope
  globals : Scope
  ok : Bool
deriving DecidableEq

/-- The insertion of an upvalue: index and value, compiler/env.c:131-134, 146-149, 154-157. -/
def FnEnv.addUp (e : FnEnv) (x : Name) (value : Int) : FnEnv :=
  { e with isclosure := true, upVal := upPut e.upVal x value, upIdx := upPut e.upIdx x e.upIdx.length }

/-- `env_add_upval`, compiler/env.c:121-163: the index, and the functions afterwards.  `none`: an assertion fails. -/
def envAddUpval (stack : List Scope) (x : Name) : List FnEnv → Option (Int × List FnEnv)
  | [] => none
  | e :: ps => match ps with
    | [] => match scopeGet stack x with
      | some v => some (e.upIdx.length, [e.addUp x (getIndex v).toInt])
      | none => none
    | p :: _ => (if !p.contains x && (upGet p.upIdx x).isNone then (envAddUpval stack x ps).map Prod.snd else some ps).bind fun ps' =>
      match ps' with
      | [] => none
      | p' :: qs => match scopeGet p'.scopes x with
        | some v => some (e.upIdx.length, e.addUp x (getIndex v).toInt :: { p' with usedinclosure := true } :: qs)
        | none => match upGet p'.upIdx x with
          | some v => some (e.upIdx.length, e.addUp x (if v < 0 then v else lnot v) :: p' :: qs)
          | none => none

/-- `env_resolve_upval_index`, compiler/env.c:165-178. -/
def envResolve (stack : List Scope) (x : Name) (params : List FnEnv) : Option (Int × List FnEnv) :=
  match params with
  | [] => none
  | e :: _ => match upGet e.upIdx x with
    | some i => some (i, params)
    | none => envAddUpval stack x params

/-- What is emitted for a name: `O_LLOAD`/`O_LSTORE`, `O_ULOAD`/`O_USTORE`, `O_GLOAD_8`/`O_GSTORE_8`, or an error. -/
inductive Ref where
  | slot (i : BitVec 64)
  | upval (i : Int)
  | global
  | undeclared
  | constErr
  | assertion
deriving DecidableEq

/-- `get_nearest` and `curr->usedinclosure = true`, compiler/compiler.c:140-145, 166-167, 205-206. -/
def markNearest (x : Name) : List FnEnv → List FnEnv
  | [] => []
  | e :: ps => if e.contains x then { e with usedinclosure := true } :: ps else e :: markNearest x ps

/-- `get_nearest`: the value of the name there. -/
def nearestValue (x : Name) : List FnEnv → Option (BitVec 64)
  | [] => none
  | e :: ps => match scopeGet e.scopes x with
    | some v => some v
    | none => nearestValue x ps

/-- `compiler->params->isclosure = true`, compiler/compiler.c:155, 194. -/
def markClosure : List FnEnv → List FnEnv
  | [] => []
  | e :: ps => { e with isclosure := true } :: ps

/-- `load_var_from_upval`, `store_var_in_upval`, compiler/compiler.c:154-159, 193-198. -/
def NState.upvalRef (s : NState) (x : Name) : Ref × NState :=
  match envResolve s.stack x (markClosure s.params) with
  | some (i, ps) => (.upval i, { s with params := ps })
  | none => (.assertion, s)

/-- `load_var`, compiler/compiler.c:161-182. -/
def NState.loadVar (s : NState) (x : Name) : Ref × NState :=
  match s.params with
  | e :: _ => match scopeGet e.scopes x with
    | some v => (.slot (getIndex v), s)
    | none =>
      if (nearestValue x s.params).isSome then { s with params := markNearest x s.params }.upvalRef x
      else if (scopeGet s.stack x).isSome then s.upvalRef x
      else if (s.globals.get x).isSome then (.global, s)
      else (.undeclared, { s with ok := false })
  | [] => match scopeGet s.stack x with
    | some v => (.slot (getIndex v), s)
    | none => if (s.globals.get x).isSome then (.global, s) else (.undeclared, { s with ok := false })

/-- `store_var`, `store_var_cur_scope`, compiler/compiler.c:184-232. -/
def NState.storeVar (s : NState) (x : Name) : Ref × NState :=
  let storeIn (v : BitVec 64) : Ref × NState := if isConst v then (.constErr, { s with ok := false }) else (.slot v, s)
  let globalRef : Ref × NState := match s.globals.get x with
    | some v => if isConst v then (.constErr, { s with ok := false }) else (.global, s)
    | none => (.undeclared, { s with ok := false })
  match s.params with
  | e :: _ => match scopeGet e.scopes x with
    | some v => storeIn v
    | none => match nearestValue x s.params with
      | some v =>
        let s' := { s with params := markNearest x s.params }
        if isConst v then (.constErr, { s' with ok := false }) else s'.upvalRef x
      | none => match scopeGet s.stack x with
        | some v => if isConst v then (.constErr, { s with ok := false }) else s.upvalRef x
        | none => globalRef
  | [] => match scopeGet s.stack x with
    | some v => storeIn v
    | none => globalRef

/-- `enter_scope`, compiler/compiler.c:73-76. -/
def NState.enterScope (s : NState) : NState :=
  match s.params with
  | e :: ps => { s with params := { e with scopes := [] :: e.scopes } :: ps }
  | [] => { s with stack := [] :: s.stack }

/-- `exit_scope`, compiler/compiler.c:78-87. -/
def NState.exitScope (s : NState) : NState :=
  match s.params with
  | e :: ps => { s with params := { e with scopes := e.scopes.tail } :: ps }
  | [] => { s with stack := s.stack.tail }

/-- The start of `visit_FnDecl`, compiler/compiler.c:381-383. -/
def NState.enterFn (s : NState) : NState := { s with params := FnEnv.new :: s.params }

/-- The end of `visit_FnDecl`, compiler/compiler.c:406, 425-428. -/
def NState.exitFn (s : NState) : NState := { s with params := s.params.tail }

/-- `scope_decl_var`, compiler/env.c:205-212. -/
def declIn (x : Name) : List Scope → List Scope
  | [] => []
  | sc :: scs => sc.put x (BitVec.ofNat 64 (scopeLen (sc :: scs))) :: scs

/-- `decl_var`, compiler/compiler.c:248-262. -/
def NState.declVar (s : NState) (x : Name) : NState :=
  match s.params with
  | e :: ps =>
    let sc := declIn x e.scopes
    { s with params := { e with scopes := sc } :: ps, ok := s.ok && !decide (scopeLen sc > 255) }
  | [] => match s.stack with
    | [] => { s with globals := s.globals.put x (BitVec.ofNat 64 s.globals.length) }
    | scs =>
      let sc := declIn x scs
      { s with stack := sc, ok := s.ok && !decide (scopeLen sc > 255) }

/-- `make_const`, compiler/compiler.c:264-268. -/
def NState.makeConst (s : NState) (x : Name) : NState :=
  match s.params with
  | e :: ps => { s with params := { e with scopes := scopeMakeConst e.scopes x } :: ps }
  | [] => match s.stack with
    | [] => match s.globals.get x with
      | some v => { s with globals := s.globals.put x (~~~v) }
      | none => s
    | scs => { s with stack := scopeMakeConst scs x }

/-- `contains_var_in_current_scope`, compiler/compiler.c:234-240. -/
def NState.containsCur (s : NState) (x : Name) : Bool :=
  match s.params with
  | e :: _ => match e.scopes with
    | sc :: _ => (sc.get x).isSome
    | [] => false
  | [] => match s.stack with
    | sc :: _ => (sc.get x).isSome
    | [] => (s.globals.get x).isSome

/-- A declaration: `visit_Let`, `visit_Decl` and `visit_FnDecl`'s parameters: the check, `decl_var` and `make_const`,
compiler/compiler.c:1030-1042, 1125-1147, 385-390.  (For parameters there is no check.) -/
def NState.declare (s : NState) (x : Name) (const_ : Bool) : NState :=
  if s.containsCur x then { s with ok := false }
  else if const_ then (s.declVar x).makeConst x else s.declVar x

/-- A parameter: compiler/compiler.c:385-390. -/
def NState.param (s : NState) (x : Name) (const_ : Bool) : NState :=
  if const_ then (s.declVar x).makeConst x else s.declVar x

/-- `NEW_COMPILER`, compiler/compiler.h:17-34. -/
def NState.initial : NState := { params := [], stack := [], globals := [], ok := true }

/-- One operation. -/
def NState.op (s : NState) : NOp → NState
  | .enterScope => s.enterScope
  | .exitScope => s.exitScope
  | .enterFn => s.enterFn
  | .exitFn => s.exitFn
  | .declare x c => s.declare x c
  | .param x c => s.param x c
  | .load x => (s.loadVar x).2
  | .store x => (s.storeVar x).2

/-- What an upvalue of the innermost function refers to at run time: the bytes after the function are the values in the order of the indices
(compiler/compiler.c:411-423); `vm_CCONST` (VM.c:599-621) takes a non-negative one as a slot of the function around it, and a negative one as
an upvalue of that function.  The result is the number of functions around the variable, and its slot. -/
def upvalTarget : List FnEnv → Int → Option (Nat × Nat)
  | [], _ => none
  | e :: ps, i => match e.upIdx.find? fun p => p.2 == i with
    | none => none
    | some (x, _) => match upGet e.upVal x with
      | none => none
      | some v => if v < 0 then upvalTarget ps (lnot v) else some (ps.length, v.toNat)

end Yasl
