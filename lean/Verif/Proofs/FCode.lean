import Verif.Proofs.FVM
set_option autoImplicit false
/-! # Where the code of a syntax tree is, and the state of the machine while it runs -/
namespace Yasl

/-- What is fixed while the program runs: the code, the constants, the positions of functions, the names of the globals. -/
structure FX where
  code : List Byte
  K : List Val
  label : Nat → Option Nat
  gs : Name → Prop

/-- The names at a place of the program: those with a place in the frame, innermost first; the visible variables of the file; in a function, the captured ones. -/
structure SEnv where
  own : List Name
  sts : List Name
  ups : Option (List Name)

/-- The targets of `break` and `continue`, and the names in the frame there. -/
structure FLoopAt where
  brk : Nat
  cont : Nat
  own : List Name

/-- `x` is first found at position `j`. -/
def PosOf : List Name → Name → Nat → Prop
  | [], _, _ => False
  | y :: _, x, 0 => y = x
  | y :: ys, x, j + 1 => y ≠ x ∧ PosOf ys x j

/-- A jump from `p` to `q`. -/
def JumpAt (X : FX) (o : Opc) (p q : Nat) : Prop :=
  At X.code p (o.byte :: bytes8 (BitVec.ofInt 64 ((q : Int) - p - 9))) ∧ q ≤ X.code.length ∧ p ≤ X.code.length

/-- Reading a variable. -/
def LoadAt (X : FX) (S : SEnv) (x : Name) (p q : Nat) : Prop :=
  (∃ i j, PosOf S.own x j ∧ i + j + 1 = S.own.length ∧ At X.code p [Opc.LLOAD.byte, BitVec.ofNat 8 i] ∧ q = p + 2) ∨
  (x ∉ S.own ∧ ∃ (U : List Name) (k : Nat), S.ups = some U ∧ U[k]? = some x ∧ At X.code p [opULOAD, BitVec.ofNat 8 k] ∧ q = p + 2) ∨
  (x ∉ S.own ∧ x ∉ S.sts ∧ X.gs x ∧ ∃ i : Nat, i < 2 ^ 63 ∧ X.K[i]? = some (.str x) ∧
    At X.code p (Opc.GLOAD_8.byte :: bytes8 (BitVec.ofNat 64 i)) ∧ q = p + 9)

/-- Writing a variable. -/
def StoreAt (X : FX) (S : SEnv) (x : Name) (p q : Nat) : Prop :=
  (∃ i j, PosOf S.own x j ∧ i + j + 1 = S.own.length ∧ At X.code p [Opc.LSTORE.byte, BitVec.ofNat 8 i] ∧ q = p + 2) ∨
  (x ∉ S.own ∧ ∃ (U : List Name) (k : Nat), S.ups = some U ∧ U[k]? = some x ∧ At X.code p [opUSTORE, BitVec.ofNat 8 k] ∧ q = p + 2) ∨
  (x ∉ S.own ∧ x ∉ S.sts ∧ X.gs x ∧ ∃ i : Nat, i < 2 ^ 63 ∧ X.K[i]? = some (.str x) ∧
    At X.code p (Opc.GSTORE_8.byte :: bytes8 (BitVec.ofNat 64 i)) ∧ q = p + 9)

/-- The name means something. -/
def DefinedAt (X : FX) (S : SEnv) (x : Name) : Prop := x ∈ S.own ∨ x ∈ S.sts ∨ X.gs x

/-- A literal of the table. -/
def ConstAt (X : FX) (v : Val) (p q : Nat) : Prop :=
  (∃ i : Nat, i < 128 ∧ X.K[i]? = some v ∧ At X.code p [Opc.LIT.byte, BitVec.ofNat 8 i] ∧ q = p + 2) ∨
  (∃ i : Nat, i < 2 ^ 63 ∧ X.K[i]? = some v ∧ At X.code p (Opc.LIT8.byte :: bytes8 (BitVec.ofNat 64 i)) ∧ q = p + 9)

/-- A literal. -/
def LitAt (X : FX) : FLit → Nat → Nat → Prop
  | .undef, p, q => At X.code p [Opc.NCONST.byte] ∧ q = p + 1
  | .bool b, p, q => At X.code p [(if b then Opc.BCONST_T else Opc.BCONST_F).byte] ∧ q = p + 1
  | .int i, p, q => ConstAt X (.int i) p q
  | .float f, p, q => ConstAt X (.float f) p q
  | .str s, p, q => ConstAt X (.str s) p q

/-- The byte which tells where a captured variable is. -/
def UpByte (S : SEnv) (x : Name) (b : Byte) : Prop :=
  match S.ups with
  | none => ∃ i j, PosOf S.sts x j ∧ i + j + 1 = S.sts.length ∧ i < 128 ∧ b = BitVec.ofNat 8 i
  | some U => ∃ k : Nat, U[k]? = some x ∧ k < 128 ∧ b = ~~~ BitVec.ofNat 8 k

/-- The code of a function at its entry: `B` says where the code of the body is. -/
def BodyAt (X : FX) (nparams ndecls : Nat) (B : Nat → Nat → Prop) (entry : Nat) : Prop :=
  ∃ pe, nparams + ndecls ≤ 128 ∧ At X.code entry [BitVec.ofNat 8 nparams] ∧ B (entry + 1) pe ∧
    At X.code pe [Opc.NCONST.byte] ∧ At X.code (pe + 1) [opRET, BitVec.ofNat 8 (nparams + ndecls)]

/-- A function literal. -/
def FnAt (X : FX) (S : SEnv) (id nparams ndecls : Nat) (B : List Name → Nat → Nat → Prop) (p q : Nat) : Prop :=
  ∃ (U : List Name) (d : Nat), U.length ≤ 128 ∧ d < 2 ^ 63 ∧ BodyAt X nparams ndecls (B U) (p + 9) ∧
    ((U = [] ∧ X.label id = some (p + 9) ∧ At X.code p (opFCONST :: bytes8 (BitVec.ofInt 64 d)) ∧ q = p + 9 + d) ∨
     (X.label id = none ∧ ∃ us : List Byte, us.length = U.length ∧ At X.code p (opCCONST :: bytes8 (BitVec.ofInt 64 d)) ∧
       At X.code (p + 9 + d) (BitVec.ofNat 8 us.length :: us) ∧ q = p + 9 + d + 1 + us.length ∧
       ∀ (k : Nat) (x : Name), U[k]? = some x → ∃ b, us[k]? = some b ∧ UpByte S x b))

/-- The code of the left sides of a declaration of several variables; `top`: the variables are those of the file. -/
def CodeL (X : FX) (top : Bool) : SEnv → List FTarget → Nat → Nat → Prop
  | _, [], p, q => q = p
  | S, .let_ x :: ls, p, q | S, .const_ x :: ls, p, q => S.own.length + 1 ≤ 128 ∧ CodeL X top ⟨x :: S.own, if top then x :: S.sts else S.sts, S.ups⟩ ls p q
  | S, .assign x :: ls, p, q => S.own.length + 1 ≤ 128 ∧ At X.code p [Opc.MOVEUP_FP.byte, BitVec.ofNat 8 S.own.length] ∧ ∃ p1, StoreAt X S x (p + 2) p1 ∧ CodeL X top S ls p1 q

mutual
/-- The code of an expression is at `p`, up to `q`. -/
def CodeE (X : FX) (S : SEnv) : FExpr → Bool → Nat → Nat → Prop
  | .lit l, _, p, q => LitAt X l p q
  | .var x, _, p, q => LoadAt X S x p q
  | .un o e, m, p, q => ∃ p1, CodeE X S e m p p1 ∧ At X.code p1 [o.opc.byte] ∧ q = p1 + 1
  | .bin (.op o) l r, m, p, q => ∃ p1 p2, CodeE X S l m p p1 ∧ CodeE X S r m p1 p2 ∧ At X.code p2 [o.opc.byte] ∧ q = p2 + 1
  | .bin .ne l r, m, p, q => ∃ p1 p2, CodeE X S l m p p1 ∧ CodeE X S r m p1 p2 ∧ At X.code p2 [Opc.EQ.byte] ∧ At X.code (p2 + 1) [Opc.NOT.byte] ∧ q = p2 + 2
  | .bin .nid l r, m, p, q => ∃ p1 p2, CodeE X S l m p p1 ∧ CodeE X S r m p1 p2 ∧ At X.code p2 [Opc.ID.byte] ∧ At X.code (p2 + 1) [Opc.NOT.byte] ∧ q = p2 + 2
  | .bin .and l r, m, p, q => ∃ p1, CodeE X S l m p p1 ∧ At X.code p1 [Opc.DUP.byte] ∧ JumpAt X .BRF_8 (p1 + 1) q ∧ At X.code (p1 + 10) [Opc.POP.byte] ∧
    CodeE X S r m (p1 + 11) q
  | .bin .or l r, m, p, q => ∃ p1, CodeE X S l m p p1 ∧ At X.code p1 [Opc.DUP.byte] ∧ JumpAt X .BRT_8 (p1 + 1) q ∧ At X.code (p1 + 10) [Opc.POP.byte] ∧
    CodeE X S r m (p1 + 11) q
  | .bin .coalesce l r, m, p, q => ∃ p1, CodeE X S l m p p1 ∧ At X.code p1 [Opc.DUP.byte] ∧ JumpAt X .BRN_8 (p1 + 1) q ∧
    At X.code (p1 + 10) [Opc.POP.byte] ∧ CodeE X S r m (p1 + 11) q
  | .tri c a b, m, p, q => ∃ p1 p2, CodeE X S c m p p1 ∧ JumpAt X .BRF_8 p1 (p2 + 9) ∧ CodeE X S a m (p1 + 9) p2 ∧ JumpAt X .BR_8 p2 q ∧ CodeE X S b m (p2 + 9) q
  | .list es, m, p, q => ∃ p1, At X.code p [Opc.END.byte] ∧ CodeEs X S es m (p + 1) p1 ∧ At X.code p1 [Opc.NEWLIST.byte] ∧ q = p1 + 1
  | .table es, m, p, q => ∃ p1, At X.code p [Opc.END.byte] ∧ CodeEs X S es m (p + 1) p1 ∧ At X.code p1 [Opc.NEWTABLE.byte] ∧ q = p1 + 1
  | .get c k, m, p, q => ∃ p1 p2, CodeE X S c m p p1 ∧ CodeE X S k m p1 p2 ∧ At X.code p2 [Opc.GET.byte] ∧ q = p2 + 1
  | .slice c a b, m, p, q => ∃ p1 p2 p3, CodeE X S c m p p1 ∧ CodeE X S a m p1 p2 ∧ CodeE X S b m p2 p3 ∧ At X.code p3 [Opc.SLICE.byte] ∧ q = p3 + 1
  | .fn id params body, m, p, q =>
    FnAt X S id params.length body.decls.length (fun U p q => CodeSs X ⟨params.reverse, S.sts, some U⟩ body m none p q) p q
  | .call f args, m, p, q => ∃ p1 p2, CodeE X S f m p p1 ∧ At X.code p1 [opINIT_CALL, BitVec.ofInt 8 (wants m)] ∧ CodeEs X S args m (p1 + 2) p2 ∧
    At X.code p2 [opCALL] ∧ q = p2 + 1
  | .mcall obj name args, m, p, q => ∃ p1 p2 i, CodeE X S obj m p p1 ∧ i < 2 ^ 63 ∧ X.K[i]? = some (Val.str name) ∧
    At X.code p1 (opINIT_MC :: BitVec.ofInt 8 (wants m) :: bytes8 (BitVec.ofNat 64 i)) ∧ CodeEs X S args m (p1 + 10) p2 ∧ At X.code p2 [opCALL] ∧ q = p2 + 1
  | .ctx all e, _, p, q => CodeE X S e all p q
def CodeEs (X : FX) (S : SEnv) : FExprs → Bool → Nat → Nat → Prop
  | .nil, _, p, q => q = p
  | .cons e es, m, p, q => ∃ p1, CodeE X S e m p p1 ∧ CodeEs X S es m p1 q
/-- The code of a statement is at `p`, up to `q`. -/
def CodeS (X : FX) (S : SEnv) : FStmt → Bool → Option FLoopAt → Nat → Nat → Prop
  | .expr e, m, _, p, q => (∃ l, e = .lit l ∧ q = p) ∨ (∃ x, e = .var x ∧ DefinedAt X S x ∧ q = p) ∨
    ∃ p1, CodeE X S e m p p1 ∧ At X.code p1 [Opc.POP.byte] ∧ q = p1 + 1
  | .let_ _ e, m, _, p, q => S.own.length + 1 ≤ 128 ∧ CodeE X S e m p q
  | .const_ _ e, m, _, p, q => S.own.length + 1 ≤ 128 ∧ CodeE X S e m p q
  | .multi ls es, m, _, p, q => ∃ p1, es.length = ls.length ∧ CodeEs X S es m p p1 ∧ CodeL X false S ls p1 q
  | .assign x e, m, _, p, q => ∃ p1, CodeE X S e m p p1 ∧ StoreAt X S x p1 q
  | .set c k v, m, _, p, q => ∃ p1 p2 p3, CodeE X S c m p p1 ∧ CodeE X S k m p1 p2 ∧ CodeE X S v m p2 p3 ∧ At X.code p3 [Opc.SET.byte] ∧ q = p3 + 1
  | .echo e, m, _, p, q => ∃ p1 b, CodeE X S e m p p1 ∧ At X.code p1 [Opc.ECHO.byte, b] ∧ q = p1 + 2
  | .assert e, m, _, p, q => ∃ p1, CodeE X S e m p p1 ∧ At X.code p1 [Opc.ASS.byte] ∧ q = p1 + 1
  | .block ss, m, L, p, q => ∃ p1, CodeSs X S ss m L p p1 ∧ At X.code p1 (List.replicate ss.decls.length Opc.POP.byte) ∧ q = p1 + ss.decls.length
  | .ifThen c t, m, L, p, q => t.decls = [] ∧ ((c.truthyNode = true ∧ CodeS X S t m L p q) ∨ (c.falseyNode = true ∧ q = p) ∨
    ∃ p1, CodeE X S c m p p1 ∧ JumpAt X .BRF_8 p1 q ∧ CodeS X S t m L (p1 + 9) q)
  | .ifElse c t e, m, L, p, q => (t.decls = [] ∧ e.decls = []) ∧
    ((c.truthyNode = true ∧ CodeS X S t m L p q) ∨ (c.falseyNode = true ∧ CodeS X S e m L p q) ∨
    ∃ p1 p2, CodeE X S c m p p1 ∧ JumpAt X .BRF_8 p1 (p2 + 9) ∧ CodeS X S t m L (p1 + 9) p2 ∧ JumpAt X .BR_8 p2 q ∧ CodeS X S e m L (p2 + 9) q)
  | .while_ c body, m, _, p, q => body.decls = [] ∧ ((c.falseyNode = true ∧ q = p) ∨
    ∃ p1 p2, CodeE X S c m p p1 ∧ JumpAt X .BRF_8 p1 q ∧ CodeS X S body m (some ⟨p1, p, S.own⟩) (p1 + 9) p2 ∧ JumpAt X .BR_8 p2 p ∧ q = p2 + 9)
  | .loop c body post, m, _, p, q => (body.decls = [] ∧ post.decls = []) ∧ ((c.falseyNode = true ∧ q = p) ∨
    ∃ pc p1 p2, JumpAt X .BR_8 p pc ∧ CodeS X S post m none (p + 9) pc ∧ CodeE X S c m pc p1 ∧ JumpAt X .BRF_8 p1 q ∧
      CodeS X S body m (some ⟨p1, p + 9, S.own⟩) (p1 + 9) p2 ∧ JumpAt X .BR_8 p2 (p + 9) ∧ q = p2 + 9)
  | .forIter x coll body, m, _, p, q => body.decls = [] ∧ S.own.length + 1 ≤ 128 ∧
    ∃ p1 p2, CodeE X S coll m p p1 ∧ At X.code p1 [Opc.INITFOR.byte] ∧ At X.code (p1 + 1) [Opc.END.byte] ∧ At X.code (p1 + 2) [Opc.ITER_1.byte] ∧
      JumpAt X .BRF_8 (p1 + 3) (p2 + 9) ∧ At X.code (p1 + 12) [Opc.LSTORE.byte, BitVec.ofNat 8 S.own.length] ∧
      CodeS X ⟨x :: S.own, S.sts, S.ups⟩ body m (some ⟨p1 + 3, p1 + 2, x :: S.own⟩) (p1 + 14) p2 ∧ JumpAt X .BR_8 p2 (p1 + 2) ∧
      At X.code (p2 + 9) [Opc.ENDFOR.byte] ∧ At X.code (p2 + 10) [Opc.POP.byte] ∧ q = p2 + 11
  | .brk, _, L, p, q => ∃ l, L = some l ∧ S.own = l.own ∧ At X.code p [Opc.BCONST_F.byte] ∧ JumpAt X .BR_8 (p + 1) l.brk ∧ q = p + 10
  | .cont, _, L, p, q => ∃ l, L = some l ∧ S.own = l.own ∧ JumpAt X .BR_8 p l.cont ∧ q = p + 9
  | .ret e, m, _, p, q => ∃ p1, S.ups ≠ none ∧ CodeE X S e m p p1 ∧ At X.code p1 [opRET, BitVec.ofNat 8 S.own.length] ∧ q = p1 + 2
  | .fnDecl _ id params body, m, _, p, q => S.own.length + 1 ≤ 128 ∧
    FnAt X S id params.length body.decls.length (fun U p q => CodeSs X ⟨params.reverse, S.sts, some U⟩ body m none p q) p q
def CodeSs (X : FX) (S : SEnv) : FStmts → Bool → Option FLoopAt → Nat → Nat → Prop
  | .nil, _, _, p, q => q = p
  | .cons s ss, m, L, p, q => ∃ p1, CodeS X S s m L p p1 ∧ CodeSs X ⟨s.decls ++ S.own, S.sts, S.ups⟩ ss m L p1 q
end

/-! ## The state of the machine -/

/-- The slots of the captured variables. -/
def SlotsOk (sts U : List Name) (slots : List Nat) : Prop :=
  slots.length = U.length ∧ ∀ (k : Nat) (x : Name), U[k]? = some x → ∃ i j, slots[k]? = some i ∧ PosOf sts x j ∧ i + j + 1 = sts.length

/-- The value `v` is the function `c`: its code is in the program. -/
def FnOk (X : FX) (names : List Name) (cls : List (Nat × List Nat)) (v : Val) (c : Clo) : Prop :=
  ∃ (U : List Name) (entry : Nat) (pre sts : List Name), names = pre ++ sts ∧ c.vis = sts.length ∧ U.length ≤ 128 ∧
    ((v = .ref .fn entry ∧ U = []) ∨ ∃ i slots, v = .ref .closure i ∧ cls[i]? = some (entry, slots) ∧ SlotsOk sts U slots) ∧
    BodyAt X c.params.length c.body.decls.length (fun p q => CodeSs X ⟨c.params.reverse, sts, some U⟩ c.body c.multi none p q) entry

section
variable {W : Type}

/-- What holds whenever the program is between two steps. -/
structure FInv (X : FX) (sh : Sh W) (cls : List (Nat × List Nat)) : Prop where
  ncl : sh.ncl = cls.length
  fns : ∀ v c, sh.fns v = some c → FnOk X (sh.statics.map Prod.fst) cls v c
  gdef : ∀ x, X.gs x → sh.globals x ≠ none
  gEnd : ∀ x v, sh.globals x = some v → v ≠ .end_
  sEnd : ∀ q ∈ sh.statics, q.2 ≠ .end_

/-- What stays the same. -/
structure FKeeps (sh sh' : Sh W) (cls cls' : List (Nat × List Nat)) : Prop where
  names : sh'.statics.map Prod.fst = sh.statics.map Prod.fst
  cls : cls <+: cls'

theorem FKeeps.refl (sh : Sh W) (cls : List (Nat × List Nat)) : FKeeps sh sh cls cls := ⟨rfl, List.prefix_refl _⟩

theorem FKeeps.trans {sh sh' sh'' : Sh W} {cls cls' cls'' : List (Nat × List Nat)} (h : FKeeps sh sh' cls cls') (h' : FKeeps sh' sh'' cls' cls'') :
    FKeeps sh sh'' cls cls'' := ⟨h'.names.trans h.names, h.cls.trans h'.cls⟩

/-- The parts of the machine which belong to the current call. -/
structure FFrame where
  fp : Int
  loops : List (Nat × Val)
  mid : List Val
  nextFp : Int
  frames : List CFrame

/-- The machine at `p`, with `temps` above the local variables. -/
def mach (fr : FFrame) (sh : Sh W) (cls : List (Nat × List Nat)) (p : Nat) (temps : List Val) (loc : LEnv) : FVM W :=
  ⟨⟨p, temps ++ (loc.map Prod.snd ++ (fr.mid ++ sh.statics.map Prod.snd)), fr.fp, fr.loops, sh.globals, sh.world, sh.out⟩, fr.nextFp, fr.frames, cls⟩

/-- The names below the local variables. -/
def SEnv.base (S : SEnv) : List Name :=
  match S.ups with
  | none => S.sts
  | some _ => []

/-- The frame of the current call. -/
def FramePlace (S : SEnv) (fr : FFrame) (names : List Name) (cls : List (Nat × List Nat)) : Prop :=
  match S.ups with
  | none => S.sts = names ∧ fr.mid = [] ∧ fr.fp = -1
  | some U => (∃ pre, names = pre ++ S.sts) ∧ U.length ≤ 128 ∧ ∃ fv rest, fr.mid = fv :: rest ∧ fr.fp = rest.length + names.length ∧
      (U = [] ∨ ∃ i e slots, fv = .ref .closure i ∧ cls[i]? = some (e, slots) ∧ SlotsOk S.sts U slots)

/-- In a function: the frame of its call is the innermost one. -/
def RetPlace (S : SEnv) (fr : FFrame) : Prop :=
  S.ups ≠ none → ∃ fr0 frs m, fr.frames = fr0 :: frs ∧ fr0.numReturns = wants m ∧ -1 ≤ fr0.lp ∧ fr0.lp ≤ (fr.loops.length : Int) - 1

structure FOk (S : SEnv) (fr : FFrame) (loc : LEnv) (names : List Name) (cls : List (Nat × List Nat)) : Prop where
  own : S.own = loc.map Prod.fst ++ S.base
  small : S.own.length ≤ 128
  lEnd : ∀ q ∈ loc, q.2 ≠ .end_
  place : FramePlace S fr names cls

theorem prefix_get' {cls cls' : List (Nat × List Nat)} (h : cls <+: cls') {i : Nat} {c : Nat × List Nat} (hc : cls[i]? = some c) : cls'[i]? = some c := by
  obtain ⟨t, rfl⟩ := h
  rw [List.getElem?_append_left (by rw [List.getElem?_eq_some_iff] at hc; exact hc.1)]
  exact hc

theorem FOk.keep {S : SEnv} {fr : FFrame} {loc : LEnv} {names : List Name} {cls cls' : List (Nat × List Nat)} (h : FOk S fr loc names cls)
    (hc : cls <+: cls') : FOk S fr loc names cls' := by
  refine ⟨h.own, h.small, h.lEnd, ?_⟩
  have hp := h.place
  unfold FramePlace at hp ⊢
  split at hp
  · exact hp
  · obtain ⟨h1, h2, fv, rest, h3, h4, h8⟩ := hp
    refine ⟨h1, h2, fv, rest, h3, h4, ?_⟩
    rcases h8 with h8 | ⟨i, e, slots, h9, h10, h11⟩
    · exact .inl h8
    · exact .inr ⟨i, e, slots, h9, prefix_get' hc h10, h11⟩

theorem FnOk.keep {X : FX} {names : List Name} {cls cls' : List (Nat × List Nat)} {v : Val} {c : Clo} (h : FnOk X names cls v c) (hc : cls <+: cls') :
    FnOk X names cls' v c := by
  obtain ⟨U, entry, pre, sts, h1, h2, h3, h4, h5⟩ := h
  refine ⟨U, entry, pre, sts, h1, h2, h3, ?_, h5⟩
  rcases h4 with h4 | ⟨i, slots, h6, h7, h8⟩
  · exact .inl h4
  · exact .inr ⟨i, slots, h6, prefix_get' hc h7, h8⟩

theorem FnOk.cons {X : FX} {names : List Name} {cls : List (Nat × List Nat)} {v : Val} {c : Clo} (x : Name) (h : FnOk X names cls v c) :
    FnOk X (x :: names) cls v c := by
  obtain ⟨U, entry, pre, sts, h1, h2, h3, h4, h5⟩ := h
  exact ⟨U, entry, x :: pre, sts, by rw [h1]; rfl, h2, h3, h4, h5⟩

/-! ## Names and values -/

theorem PosOf.lt : ∀ {xs : List Name} {x : Name} {j : Nat}, PosOf xs x j → j < xs.length
  | _ :: _, _, 0, _ => by simp
  | _ :: ys, x, j + 1, h => by have := PosOf.lt h.2; simp; omega

theorem PosOf.mem : ∀ {xs : List Name} {x : Name} {j : Nat}, PosOf xs x j → x ∈ xs
  | _ :: _, _, 0, h => by simp [PosOf] at h; simp [h]
  | _ :: ys, x, j + 1, h => by have := PosOf.mem h.2; simp [this]

theorem PosOf.of_mem : ∀ {xs : List Name} {x : Name}, x ∈ xs → ∃ j, PosOf xs x j
  | [], x, h => by simp at h
  | y :: ys, x, h => by
    by_cases hy : y = x
    · exact ⟨0, hy⟩
    · obtain ⟨j, hj⟩ := PosOf.of_mem (xs := ys) (x := x) (by simpa [Ne.symm hy] using h)
      exact ⟨j + 1, hy, hj⟩

theorem PosOf.append_left : ∀ {xs ys : List Name} {x : Name} {j : Nat}, PosOf xs x j → PosOf (xs ++ ys) x j
  | _ :: _, _, _, 0, h => h
  | _ :: _, _, _, _ + 1, h => ⟨h.1, PosOf.append_left h.2⟩

theorem PosOf.append_right : ∀ {xs ys : List Name} {x : Name} {j : Nat}, x ∉ xs → PosOf ys x j → PosOf (xs ++ ys) x (xs.length + j)
  | [], ys, x, j, _, h => by simpa using h
  | y :: xs, ys, x, j, hx, h => by
    have e : (y :: xs).length + j = (xs.length + j) + 1 := by simp; omega
    rw [e]
    exact ⟨by simp at hx; exact fun h => hx.1 h.symm, PosOf.append_right (by simp at hx; exact hx.2) h⟩

theorem PosOf.unique : ∀ {xs : List Name} {x : Name} {i j : Nat}, PosOf xs x i → PosOf xs x j → i = j
  | _ :: _, _, 0, 0, _, _ => rfl
  | _ :: _, _, 0, _ + 1, h, h' => absurd h h'.1
  | _ :: _, _, _ + 1, 0, h, h' => absurd h' h.1
  | _ :: _, _, _ + 1, _ + 1, h, h' => by rw [PosOf.unique h.2 h'.2]

theorem PosOf.find : ∀ {env : LEnv} {x : Name} {j : Nat}, PosOf (env.map Prod.fst) x j →
    ∃ v, env.find x = some v ∧ (env.map Prod.snd)[j]? = some v ∧ (x, v) ∈ env
  | (y, v) :: env, x, 0, h => by
    simp [PosOf] at h; subst h
    exact ⟨v, by simp [LEnv.find], by simp, by simp⟩
  | (y, v) :: env, x, j + 1, h => by
    obtain ⟨h1, h2⟩ := h
    obtain ⟨u, h3, h4, h5⟩ := PosOf.find (env := env) h2
    have hyx : (y == x) = false := by simpa using h1
    exact ⟨u, by simpa [LEnv.find, List.find?_cons, hyx] using h3, by simpa using h4, by simp [h5]⟩

theorem PosOf.update : ∀ {env : LEnv} {x : Name} {j : Nat} (v : Val), PosOf (env.map Prod.fst) x j →
    (env.update x v).map Prod.snd = (env.map Prod.snd).set j v
  | (y, u) :: env, x, 0, v, h => by
    simp [PosOf] at h; subst h
    simp [LEnv.update]
  | (y, u) :: env, x, j + 1, v, h => by
    obtain ⟨h1, h2⟩ := h
    have h1 : y ≠ x := h1
    simp [LEnv.update, h1, PosOf.update (env := env) v h2]

theorem update_names : ∀ (env : LEnv) (x : Name) (v : Val), (env.update x v).map Prod.fst = env.map Prod.fst
  | [], _, _ => rfl
  | (y, u) :: env, x, v => by
    unfold LEnv.update
    split
    · simp
    · simp [update_names env x v]

theorem update_noEnd : ∀ (env : LEnv) (x : Name) (v : Val), (∀ q ∈ env, q.2 ≠ Val.end_) → v ≠ .end_ → ∀ q ∈ env.update x v, q.2 ≠ Val.end_
  | [], _, _, _, _, q, hq => by simp [LEnv.update] at hq
  | (y, u) :: env, x, v, h, hv, q, hq => by
    unfold LEnv.update at hq
    split at hq
    · simp only [List.mem_cons] at hq
      rcases hq with rfl | hq
      · exact hv
      · exact h q (by simp [hq])
    · simp only [List.mem_cons] at hq
      rcases hq with rfl | hq
      · exact h _ (by simp)
      · exact update_noEnd env x v (fun q hq => h q (by simp [hq])) hv q hq

theorem find_none : ∀ {env : LEnv} {x : Name}, x ∉ env.map Prod.fst → env.find x = none
  | [], _, _ => rfl
  | (y, v) :: env, x, h => by
    simp at h
    have hyx : (y == x) = false := by simpa using fun e => h.1 e.symm
    have := find_none (env := env) (x := x) (by simpa using h.2)
    simpa [LEnv.find, List.find?_cons, hyx] using this

end
end Yasl
