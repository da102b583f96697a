import Verif.Proofs.NodeRed
import Verif.Model.FExecute
import Verif.Spec.FSafe
import Verif.Spec.FFits
set_option autoImplicit false
/-! # Constant folding on the trees with functions -/
namespace Yasl

/-- Expressions, statements, and lists of these. -/
inductive FCat where
  | expr | exprs | stmt | stmts

/-- The things of a category. -/
def FCat.T : FCat → Type
  | .expr => FExpr
  | .exprs => FExprs
  | .stmt => FStmt
  | .stmts => FStmts

/-- Some constant operations are replaced by their values. -/
inductive FRed (F : FloatOps) : (c : FCat) → c.T → c.T → Prop where
  | lit (l : FLit) : FRed F .expr (FExpr.lit l) (FExpr.lit l)
  | var (x : Name) : FRed F .expr (FExpr.var x) (FExpr.var x)
  | nil : FRed F .exprs FExprs.nil FExprs.nil
  | brk : FRed F .stmt FStmt.brk FStmt.brk
  | cont : FRed F .stmt FStmt.cont FStmt.cont
  | snil : FRed F .stmts FStmts.nil FStmts.nil
  | trans {c : FCat} {x y z : c.T} : FRed F c x y → FRed F c y z → FRed F c x z
  | foldBin {t : BinTok} {a b c : FLit} : (a.expr.lit?).isSome → (b.expr.lit?).isSome → (foldBin F t a.expr b.expr).bind Expr.lit? = some c →
      FRed F .expr (FExpr.bin t (.lit a) (.lit b)) (FExpr.lit c)
  | foldUn {o : UnOp} {a c : FLit} : (a.expr.lit?).isSome → (foldUn o a.expr).bind Expr.lit? = some c → FRed F .expr (FExpr.un o (.lit a)) (FExpr.lit c)
  | cons {e e' : FExpr} {es es' : FExprs} : FRed F .expr e e' → FRed F .exprs es es' → FRed F .exprs (FExprs.cons e es) (FExprs.cons e' es')
  | un {o : UnOp} {e e' : FExpr} : FRed F .expr e e' → FRed F .expr (FExpr.un o e) (FExpr.un o e')
  | bin {t : BinTok} {l l' r r' : FExpr} : FRed F .expr l l' → FRed F .expr r r' → FRed F .expr (FExpr.bin t l r) (FExpr.bin t l' r')
  | tri {c c' a a' b b' : FExpr} : FRed F .expr c c' → FRed F .expr a a' → FRed F .expr b b' → FRed F .expr (FExpr.tri c a b) (FExpr.tri c' a' b')
  | list {es es' : FExprs} : FRed F .exprs es es' → FRed F .expr (FExpr.list es) (FExpr.list es')
  | table {es es' : FExprs} : FRed F .exprs es es' → FRed F .expr (FExpr.table es) (FExpr.table es')
  | get {c c' k k' : FExpr} : FRed F .expr c c' → FRed F .expr k k' → FRed F .expr (FExpr.get c k) (FExpr.get c' k')
  | slice {c c' a a' b b' : FExpr} : FRed F .expr c c' → FRed F .expr a a' → FRed F .expr b b' → FRed F .expr (FExpr.slice c a b) (FExpr.slice c' a' b')
  | fn {id : Nat} {ps : List Name} {ss ss' : FStmts} : FRed F .stmts ss ss' → FRed F .expr (FExpr.fn id ps ss) (FExpr.fn id ps ss')
  | call {f f' : FExpr} {as as' : FExprs} : FRed F .expr f f' → FRed F .exprs as as' → FRed F .expr (FExpr.call f as) (FExpr.call f' as')
  | mcall {f f' : FExpr} {m : Name} {as as' : FExprs} : FRed F .expr f f' → FRed F .exprs as as' → FRed F .expr (FExpr.mcall f m as) (FExpr.mcall f' m as')
  | ctx {all : Bool} {e e' : FExpr} : FRed F .expr e e' → FRed F .expr (FExpr.ctx all e) (FExpr.ctx all e')
  | sexpr {e e' : FExpr} : FRed F .expr e e' → FRed F .stmt (FStmt.expr e) (FStmt.expr e')
  | let_ {x : Name} {e e' : FExpr} : FRed F .expr e e' → FRed F .stmt (FStmt.let_ x e) (FStmt.let_ x e')
  | const_ {x : Name} {e e' : FExpr} : FRed F .expr e e' → FRed F .stmt (FStmt.const_ x e) (FStmt.const_ x e')
  | multi {ls : List FTarget} {es es' : FExprs} : FRed F .exprs es es' → FRed F .stmt (FStmt.multi ls es) (FStmt.multi ls es')
  | assign {x : Name} {e e' : FExpr} : FRed F .expr e e' → FRed F .stmt (FStmt.assign x e) (FStmt.assign x e')
  | set {c c' k k' v v' : FExpr} : FRed F .expr c c' → FRed F .expr k k' → FRed F .expr v v' → FRed F .stmt (FStmt.set c k v) (FStmt.set c' k' v')
  | echo {e e' : FExpr} : FRed F .expr e e' → FRed F .stmt (FStmt.echo e) (FStmt.echo e')
  | assert {e e' : FExpr} : FRed F .expr e e' → FRed F .stmt (FStmt.assert e) (FStmt.assert e')
  | ret {e e' : FExpr} : FRed F .expr e e' → FRed F .stmt (FStmt.ret e) (FStmt.ret e')
  | block {ss ss' : FStmts} : FRed F .stmts ss ss' → FRed F .stmt (FStmt.block ss) (FStmt.block ss')
  | ifThen {c c' : FExpr} {t t' : FStmt} : FRed F .expr c c' → FRed F .stmt t t' → FRed F .stmt (FStmt.ifThen c t) (FStmt.ifThen c' t')
  | ifElse {c c' : FExpr} {t t' e e' : FStmt} : FRed F .expr c c' → FRed F .stmt t t' → FRed F .stmt e e' → FRed F .stmt (FStmt.ifElse c t e) (FStmt.ifElse c' t' e')
  | while_ {c c' : FExpr} {t t' : FStmt} : FRed F .expr c c' → FRed F .stmt t t' → FRed F .stmt (FStmt.while_ c t) (FStmt.while_ c' t')
  | loop {c c' : FExpr} {t t' p p' : FStmt} : FRed F .expr c c' → FRed F .stmt t t' → FRed F .stmt p p' → FRed F .stmt (FStmt.loop c t p) (FStmt.loop c' t' p')
  | forIter {x : Name} {c c' : FExpr} {t t' : FStmt} : FRed F .expr c c' → FRed F .stmt t t' → FRed F .stmt (FStmt.forIter x c t) (FStmt.forIter x c' t')
  | fnDecl {x : Name} {id : Nat} {ps : List Name} {ss ss' : FStmts} : FRed F .stmts ss ss' → FRed F .stmt (FStmt.fnDecl x id ps ss) (FStmt.fnDecl x id ps ss')
  | scons {s s' : FStmt} {ss ss' : FStmts} : FRed F .stmt s s' → FRed F .stmts ss ss' → FRed F .stmts (FStmts.cons s ss) (FStmts.cons s' ss')

section
variable {F : FloatOps}

mutual
theorem FRed.reflE : ∀ e : FExpr, FRed F .expr e e
  | .lit l => .lit l
  | .var x => .var x
  | .un _ e => .un (FRed.reflE e)
  | .bin _ l r => .bin (FRed.reflE l) (FRed.reflE r)
  | .tri c a b => .tri (FRed.reflE c) (FRed.reflE a) (FRed.reflE b)
  | .list es => .list (FRed.reflEs es)
  | .table es => .table (FRed.reflEs es)
  | .get c k => .get (FRed.reflE c) (FRed.reflE k)
  | .slice c a b => .slice (FRed.reflE c) (FRed.reflE a) (FRed.reflE b)
  | .fn _ _ b => .fn (FRed.reflSs b)
  | .call f as => .call (FRed.reflE f) (FRed.reflEs as)
  | .mcall f _ as => .mcall (FRed.reflE f) (FRed.reflEs as)
  | .ctx _ e => .ctx (FRed.reflE e)
theorem FRed.reflEs : ∀ e : FExprs, FRed F .exprs e e
  | .nil => .nil
  | .cons e es => .cons (FRed.reflE e) (FRed.reflEs es)
theorem FRed.reflS : ∀ s : FStmt, FRed F .stmt s s
  | .expr e => .sexpr (FRed.reflE e)
  | .let_ _ e => .let_ (FRed.reflE e)
  | .const_ _ e => .const_ (FRed.reflE e)
  | .multi _ es => .multi (FRed.reflEs es)
  | .assign _ e => .assign (FRed.reflE e)
  | .set c k v => .set (FRed.reflE c) (FRed.reflE k) (FRed.reflE v)
  | .echo e => .echo (FRed.reflE e)
  | .assert e => .assert (FRed.reflE e)
  | .block ss => .block (FRed.reflSs ss)
  | .ifThen c t => .ifThen (FRed.reflE c) (FRed.reflS t)
  | .ifElse c t e => .ifElse (FRed.reflE c) (FRed.reflS t) (FRed.reflS e)
  | .while_ c b => .while_ (FRed.reflE c) (FRed.reflS b)
  | .loop c b p => .loop (FRed.reflE c) (FRed.reflS b) (FRed.reflS p)
  | .forIter _ c b => .forIter (FRed.reflE c) (FRed.reflS b)
  | .brk => .brk
  | .cont => .cont
  | .ret e => .ret (FRed.reflE e)
  | .fnDecl _ _ _ b => .fnDecl (FRed.reflSs b)
theorem FRed.reflSs : ∀ s : FStmts, FRed F .stmts s s
  | .nil => .snil
  | .cons s ss => .scons (FRed.reflS s) (FRed.reflSs ss)
end

theorem FRed.refl : ∀ {c : FCat} (x : c.T), FRed F c x x
  | .expr, e => FRed.reflE e
  | .exprs, e => FRed.reflEs e
  | .stmt, e => FRed.reflS e
  | .stmts, e => FRed.reflSs e

/-- The numbers of the function literals and the declared names stay. -/
def FRedIds : (c : FCat) → c.T → c.T → Prop
  | .expr, e, e' => FExpr.ids e = FExpr.ids e'
  | .exprs, es, es' => FExprs.ids es = FExprs.ids es' ∧ FExprs.length es = FExprs.length es'
  | .stmt, s, s' => FStmt.ids s = FStmt.ids s' ∧ FStmt.decls s = FStmt.decls s'
  | .stmts, s, s' => FStmts.ids s = FStmts.ids s' ∧ FStmts.decls s = FStmts.decls s'

theorem fred_ids {c : FCat} {x y : c.T} (h : FRed F c x y) : FRedIds c x y := by
  induction h with
  | @trans c x y z _ _ i1 i2 => cases c <;> simp_all [FRedIds]
  | foldBin => simp [FRedIds, FExpr.ids]
  | foldUn => simp [FRedIds, FExpr.ids]
  | brk | cont => exact ⟨rfl, rfl⟩
  | snil => exact ⟨rfl, rfl⟩
  | nil => exact ⟨rfl, rfl⟩
  | lit | var => rfl
  | _ => simp_all [FRedIds, FExpr.ids, FExprs.ids, FStmt.ids, FStmts.ids, FStmt.decls, FStmts.decls, FExprs.length]

theorem FRed.exprsLength {es es' : FExprs} (h : FRed F .exprs es es') : es.length = es'.length := (fred_ids h).2
theorem FRed.decls {s s' : FStmt} (h : FRed F .stmt s s') : s.decls = s'.decls := (fred_ids h).2
theorem FRed.declss {s s' : FStmts} (h : FRed F .stmts s s') : s.decls = s'.decls := (fred_ids h).2
theorem FRed.idss {s s' : FStmts} (h : FRed F .stmts s s') : s.ids = s'.ids := (fred_ids h).1

/-- What is known of the tree as written. -/
def FRedInv (F : FloatOps) : (c : FCat) → c.T → c.T → Prop
  | .expr, e, e' => ∀ id ps b', e' = FExpr.fn id ps b' → ∃ b, e = FExpr.fn id ps b ∧ FRed F .stmts b b'
  | .exprs, es, es' => (es' = FExprs.nil → es = FExprs.nil) ∧
      ∀ a' b', es' = FExprs.cons a' b' → ∃ a b, es = FExprs.cons a b ∧ FRed F .expr a a' ∧ FRed F .exprs b b'
  | _, _, _ => True

theorem fred_inv {c : FCat} {x y : c.T} (h : FRed F c x y) : FRedInv F c x y := by
  induction h with
  | @trans c x y z _ _ i1 i2 =>
    cases c with
    | expr =>
      intro id ps b h
      obtain ⟨b1, h1, h2⟩ := i2 id ps b h
      obtain ⟨b2, h3, h4⟩ := i1 id ps b1 h1
      exact ⟨b2, h3, .trans h4 h2⟩
    | exprs =>
      refine ⟨fun h => i1.1 (i2.1 h), fun a b h => ?_⟩
      obtain ⟨a1, b1, h1, h2, h3⟩ := i2.2 a b h
      obtain ⟨a2, b2, h4, h5, h6⟩ := i1.2 a1 b1 h1
      exact ⟨a2, b2, h4, .trans h5 h2, .trans h6 h3⟩
    | _ => trivial
  | cons h1 h2 => refine ⟨by simp, ?_⟩; rintro a b h; cases h; exact ⟨_, _, rfl, h1, h2⟩
  | fn h => rintro id ps b h; cases h; exact ⟨_, rfl, ‹_›⟩
  | nil => exact ⟨fun h => h, fun a b h => (by cases h)⟩
  | _ => simp [FRedInv]

/-- What the compiler makes of constants stays. -/
def FRedKnown (F : FloatOps) : (c : FCat) → c.T → c.T → Prop
  | .expr, e, e' => FExpr.known F e = FExpr.known F e' ∧ (SafeFE F e → SafeFE F e')
  | .exprs, e, e' => SafeFEs F e → SafeFEs F e'
  | .stmt, e, e' => SafeFS F e → SafeFS F e'
  | .stmts, e, e' => SafeFSs F e → SafeFSs F e'

theorem lit?_eq {e : Expr} {l : FLit} (h : e.lit? = some l) : e = l.expr := by
  cases e <;> simp [Expr.lit?] at h <;> subst h <;> rfl

theorem lit?_lit {a : FLit} (h : (a.expr.lit?).isSome) : a.expr.lit? = some a := by
  cases a <;> simp [FLit.expr, Expr.lit?] at h ⊢

theorem lit?_known {e : Option Expr} {l : FLit} (h : e.bind Expr.lit? = some l) : e = some l.expr ∧ l.expr.lit? = some l := by
  rw [Option.bind_eq_some_iff] at h
  obtain ⟨x, rfl, h⟩ := h
  have := lit?_eq h; subst this
  exact ⟨rfl, h⟩

theorem fred_known {c : FCat} {x y : c.T} (h : FRed F c x y) : FRedKnown F c x y := by
  induction h with
  | @trans c x y z _ _ i1 i2 =>
    cases c with
    | expr => exact ⟨i1.1.trans i2.1, fun h => i2.2 (i1.2 h)⟩
    | _ => exact fun h => i2 (i1 h)
  | foldBin h1 h2 h3 =>
    refine ⟨?_, fun _ => trivial⟩
    simp only [FExpr.known, lit?_lit h1, lit?_lit h2, Option.bind_some, h3]
    exact ((lit?_known h3).2).symm
  | foldUn h1 h3 =>
    refine ⟨?_, fun _ => trivial⟩
    simp only [FExpr.known, lit?_lit h1, Option.bind_some, h3]
    exact ((lit?_known h3).2).symm
  | _ => simp_all [FRedKnown, FExpr.known, SafeFE, SafeFEs, SafeFS, SafeFSs]

/-- The limits are respected. -/
def FRedFits : (c : FCat) → c.T → c.T → Prop
  | .expr, e, e' => ∀ hid loc, FFitsE hid loc e → FFitsE hid loc e'
  | .exprs, e, e' => ∀ hid loc, FFitsEs hid loc e → FFitsEs hid loc e'
  | .stmt, e, e' => ∀ hid n loc L, FFitsS hid n loc L e → FFitsS hid n loc L e'
  | .stmts, e, e' => ∀ hid n loc L, FFitsSs hid n loc L e → FFitsSs hid n loc L e'

theorem fred_fits {c : FCat} {x y : c.T} (h : FRed F c x y) : FRedFits c x y := by
  induction h with
  | @trans c x y z _ _ i1 i2 =>
    cases c with
    | expr => exact fun a b h => i2 _ _ (i1 _ _ h)
    | exprs => exact fun a b h => i2 _ _ (i1 _ _ h)
    | stmt => exact fun a b c d h => i2 _ _ _ _ (i1 _ _ _ _ h)
    | stmts => exact fun a b c d h => i2 _ _ _ _ (i1 _ _ _ _ h)
  | foldBin => intro hid loc _; simp [FFitsE]
  | foldUn => intro hid loc _; simp [FFitsE]
  | multi h ih => intro hid n loc L hh; simp only [FFitsS] at hh ⊢; rw [← h.exprsLength]; exact ⟨hh.1, hh.2.1, ih _ _ hh.2.2.1, hh.2.2.2⟩
  | fn h ih => intro hid loc hh; simp only [FFitsE] at hh ⊢; exact ⟨hh.1, by rw [← h.declss]; exact hh.2.1, ih _ _ _ _ hh.2.2⟩
  | fnDecl h ih => intro hid n loc L hh; simp only [FFitsS] at hh ⊢; exact ⟨hh.1, hh.2.1, by rw [← h.declss]; exact hh.2.2.1, ih _ _ _ _ hh.2.2.2⟩
  | scons h h' ih ih' =>
    intro hid n loc L hh; simp only [FFitsSs] at hh ⊢; rw [← h.decls]; exact ⟨ih _ _ _ _ hh.1, ih' _ _ _ _ hh.2⟩
  | ifThen _ h ih ih' => intro hid n loc L hh; simp only [FFitsS] at hh ⊢; rw [← h.decls]; exact ⟨ih _ _ hh.1, hh.2.1, ih' _ _ _ _ hh.2.2⟩
  | while_ _ h ih ih' => intro hid n loc L hh; simp only [FFitsS] at hh ⊢; rw [← h.decls]; exact ⟨ih _ _ hh.1, hh.2.1, ih' _ _ _ _ hh.2.2⟩
  | forIter _ h ih ih' => intro hid n loc L hh; simp only [FFitsS] at hh ⊢; rw [← h.decls]; exact ⟨hh.1, ih _ _ hh.2.1, hh.2.2.1, ih' _ _ _ _ hh.2.2.2⟩
  | ifElse _ h h' ih ih' ih'' =>
    intro hid n loc L hh; simp only [FFitsS] at hh ⊢; rw [← h.decls, ← h'.decls]
    exact ⟨ih _ _ hh.1, ⟨hh.2.1.1, ih' _ _ _ _ hh.2.1.2⟩, hh.2.2.1, ih'' _ _ _ _ hh.2.2.2⟩
  | loop _ h h' ih ih' ih'' =>
    intro hid n loc L hh; simp only [FFitsS] at hh ⊢; rw [← h.decls, ← h'.decls]
    exact ⟨ih _ _ hh.1, ⟨hh.2.1.1, ih' _ _ _ _ hh.2.1.2⟩, hh.2.2.1, ih'' _ _ _ _ hh.2.2.2⟩
  | _ => simp_all [FRedFits, FFitsE, FFitsEs, FFitsS, FFitsSs]

/-- The limits for a statement of the file. -/
def topFits (k : Nat) : FStmt → Prop
  | .let_ _ e | .const_ _ e => k + 1 ≤ 128 ∧ FFitsE [] [] e
  | .fnDecl _ _ params body => k + 1 ≤ 128 ∧ params.Nodup ∧ params.length + body.decls.length ≤ 128 ∧ FFitsSs [] 0 params.reverse none body
  | st => FFitsS [] k [] none st

theorem FFitsTop_cons (sts : List Name) (st : FStmt) (ss : FStmts) : FFitsTop sts (.cons st ss) ↔ topFits sts.length st ∧ FFitsTop (st.decls ++ sts) ss := by
  cases st <;> rfl

/-- The limits are respected at the top. -/
def FRedTop : (c : FCat) → c.T → c.T → Prop
  | .stmt, s, s' => ∀ k, topFits k s → topFits k s'
  | .stmts, ss, ss' => ∀ sts, FFitsTop sts ss → FFitsTop sts ss'
  | _, _, _ => True

theorem fred_topFits {c : FCat} {x y : c.T} (h : FRed F c x y) : FRedTop c x y := by
  induction h with
  | @trans c x y z _ _ i1 i2 =>
    cases c with
    | stmt => exact fun a h => i2 _ (i1 _ h)
    | stmts => exact fun a h => i2 _ (i1 _ h)
    | _ => trivial
  | scons h1 h2 i1 i2 =>
    intro sts h
    rw [FFitsTop_cons] at h ⊢
    rw [← h1.decls]
    exact ⟨i1 _ h.1, i2 _ h.2⟩
  | let_ h => exact fun k hh => ⟨hh.1, fred_fits h _ _ hh.2⟩
  | const_ h => exact fun k hh => ⟨hh.1, fred_fits h _ _ hh.2⟩
  | fnDecl h => exact fun k hh => ⟨hh.1, hh.2.1, by rw [← h.declss]; exact hh.2.2.1, fred_fits h _ _ _ _ hh.2.2.2⟩
  | brk => exact fun k hh => hh
  | cont => exact fun k hh => hh
  | snil => exact fun k hh => hh
  | sexpr h => exact fun k hh => fred_fits (.sexpr h) [] k [] none hh
  | multi h => exact fun k hh => fred_fits (.multi h) [] k [] none hh
  | assign h => exact fun k hh => fred_fits (.assign h) [] k [] none hh
  | set h1 h2 h3 => exact fun k hh => fred_fits (.set h1 h2 h3) [] k [] none hh
  | echo h => exact fun k hh => fred_fits (.echo h) [] k [] none hh
  | assert h => exact fun k hh => fred_fits (.assert h) [] k [] none hh
  | ret h => exact fun k hh => fred_fits (.ret h) [] k [] none hh
  | block h => exact fun k hh => fred_fits (.block h) [] k [] none hh
  | ifThen h1 h2 => exact fun k hh => fred_fits (.ifThen h1 h2) [] k [] none hh
  | ifElse h1 h2 h3 => exact fun k hh => fred_fits (.ifElse h1 h2 h3) [] k [] none hh
  | while_ h1 h2 => exact fun k hh => fred_fits (.while_ h1 h2) [] k [] none hh
  | loop h1 h2 h3 => exact fun k hh => fred_fits (.loop h1 h2 h3) [] k [] none hh
  | forIter h1 h2 => exact fun k hh => fred_fits (.forIter h1 h2) [] k [] none hh
  | _ => trivial

/-! ## From the trees of the parser -/

/-- The left side of a declaration of one name. -/
def Node.target : Node → Option (Bool × Name)
  | .let_ x none => some (false, x)
  | .const_ x none => some (true, x)
  | _ => none

theorem declTarget_nil : declTarget [] = none := rfl
theorem declTarget_one (n : Node) : declTarget [n] = n.target := by
  cases n <;> try rfl
  all_goals (rename_i o; cases o <;> rfl)
theorem declTarget_more (n m : Node) (ns : List Node) : declTarget (n :: m :: ns) = none := by
  cases n <;> try rfl
  all_goals (rename_i o; cases o <;> rfl)

/-- A left side of a declaration of several names. -/
def Node.lhs : Node → Option FTarget
  | .let_ x none => some (.let_ x)
  | .const_ x none => some (.const_ x)
  | .assign x none => some (.assign x)
  | _ => none

theorem targetsOf_cons (n : Node) (ns : List Node) : targetsOf (n :: ns) = (n.lhs).bind fun t => (targetsOf ns).bind fun ts => some (t :: ts) := by
  cases n <;> try rfl
  all_goals (rename_i o; cases o <;> rfl)

/-- What the conversion looks at. -/
def Node.shape (n : Node) : Option (Bool × Name) × Bool × Bool × Option FTarget := (n.target, n.isStore, n.isNamed, n.lhs)

theorem isStore_fexpr {n : Node} (h : n.isStore = true) (k : Nat) : n.fexpr k = none := by
  cases n <;> first | rfl | (simp [Node.isStore] at h)

/-- The trees of the compiler model, from the folded ones back to those as written. -/
def Conv (F : FloatOps) : (c : NCat) → c.T → c.T → Prop
  | .node, n, n' => (∀ k e' k', Node.fexpr n' k = some (e', k') → ∃ e, Node.fexpr n k = some (e, k') ∧ FRed F .expr e e') ∧
      (∀ k s' k', Node.fstmt n' k = some (s', k') → ∃ s, Node.fstmt n k = some (s, k') ∧ FRed F .stmt s s') ∧
      Node.shape n = Node.shape n' ∧
      (∀ x m', n' = Node.letIter x m' → ∃ m, n = Node.letIter x m ∧ ∀ k e' k', Node.fexpr m' k = some (e', k') → ∃ e, Node.fexpr m k = some (e, k') ∧ FRed F .expr e e')
  | .nodes, ns, ns' => (∀ k e' k', fexprsOf ns' k = some (e', k') → ∃ e, fexprsOf ns k = some (e, k') ∧ FRed F .exprs e e') ∧
      (∀ k s' k', fstmtsOf ns' k = some (s', k') → ∃ s, fstmtsOf ns k = some (s, k') ∧ FRed F .stmts s s') ∧
      declTarget ns = declTarget ns' ∧ targetsOf ns = targetsOf ns'
  | .opt, n, n' => (n' = none → n = none) ∧ (n = none → n' = none) ∧ ∀ m', n' = some m' → ∃ m, n = some m ∧
      (∀ k e' k', Node.fexpr m' k = some (e', k') → ∃ e, Node.fexpr m k = some (e, k') ∧ FRed F .expr e e') ∧
      (∀ k s' k', Node.fstmt m' k = some (s', k') → ∃ s, Node.fstmt m k = some (s, k') ∧ FRed F .stmt s s') ∧
      Node.shape m = Node.shape m'
  | _, _, _ => True

theorem FRed.one {es es' : FExprs} {e' : FExpr} (h : FRed F .exprs es es') (h' : es'.one = some e') : ∃ e, es.one = some e ∧ FRed F .expr e e' := by
  rcases es' with _ | ⟨a', _ | _⟩ <;> simp [FExprs.one] at h'
  subst h'
  obtain ⟨a, b, rfl, h1, h2⟩ := (fred_inv h).2 _ _ rfl
  have := (fred_inv h2).1 rfl; subst this
  exact ⟨a, rfl, h1⟩

theorem FRed.named {e e' : FExpr} {x : Name} {s' : FStmt} (h : FRed F .expr e e') (h' : e'.named x = some s') : ∃ s, e.named x = some s ∧ FRed F .stmt s s' := by
  cases e' <;> simp [FExpr.named] at h'
  subst h'
  obtain ⟨b, rfl, h1⟩ := fred_inv h _ _ _ rfl
  exact ⟨_, rfl, .fnDecl h1⟩

theorem FRed.ctxOf {e e' c' : FExpr} {n : Int} (h : FRed F .expr e e') (h' : Yasl.ctxOf n e' = some c') : ∃ c, Yasl.ctxOf n e = some c ∧ FRed F .expr c c' := by
  unfold Yasl.ctxOf at h' ⊢
  split at h'
  · cases h'; exact ⟨_, if_pos ‹_›, .ctx h⟩
  · split at h'
    · cases h'; exact ⟨_, by rw [if_neg ‹_›, if_pos ‹_›], .ctx h⟩
    · cases h'

theorem FRed.declOf {e e' : FExpr} {t : Bool × Name} (h : FRed F .expr e e') : FRed F .stmt (Yasl.declOf t e) (Yasl.declOf t e') := by
  unfold Yasl.declOf
  split
  · exact .const_ h
  · exact .let_ h

theorem FRed.declsOf {es es' : FExprs} {ls ls' : List Node} {s' : FStmt} (h : FRed F .exprs es es') (h1 : declTarget ls = declTarget ls')
    (h2 : targetsOf ls = targetsOf ls') (h' : Yasl.declsOf ls' es' = some s') : ∃ s, Yasl.declsOf ls es = some s ∧ FRed F .stmt s s' := by
  unfold Yasl.declsOf at h' ⊢
  rw [h1, h2]
  cases hd : declTarget ls' with
  | some t =>
    rw [hd] at h'
    dsimp only at h' ⊢
    rw [Option.bind_eq_some_iff] at h'
    obtain ⟨e', he, h'⟩ := h'
    cases h'
    obtain ⟨e, g, r⟩ := h.one he
    exact ⟨_, by rw [g]; rfl, r.declOf⟩
  | none =>
    rw [hd] at h'
    dsimp only at h' ⊢
    rw [Option.bind_eq_some_iff] at h'
    obtain ⟨ts, ht, h'⟩ := h'
    split at h' <;> cases h'
    rename_i hl
    exact ⟨.multi ts es, by rw [ht, Option.bind_some, if_pos (by rw [hl, h.exprsLength])], .multi h⟩

theorem const?_fexpr {n : Node} {a : Expr} (h : n.const? = some a) (k : Nat) : ∃ l, n.fexpr k = some (.lit l, k) ∧ l.expr = a ∧ (l.expr.lit?).isSome := by
  cases n <;> simp [Node.const?] at h <;> subst h <;> exact ⟨_, rfl, rfl, rfl⟩

theorem constNode_conv {n n' : Node} {c : Expr} {k k' : Nat} {e' : FExpr} (hn : n' = c.constNode n) (hne : n' ≠ n)
    (h : n'.fexpr k = some (e', k')) : ∃ l, c.lit? = some l ∧ e' = .lit l ∧ k = k' := by
  subst hn
  cases c <;> simp [Expr.constNode, Node.fexpr] at h hne
  all_goals exact ⟨_, rfl, h.1.symm, h.2⟩

theorem Conv.refl {c : NCat} (x : c.T) : Conv F c x x := by
  cases c with
  | node => exact ⟨fun k e k' h => ⟨e, h, .refl _⟩, fun k e k' h => ⟨e, h, .refl _⟩, rfl, fun x m h => ⟨m, h, fun k e k' h => ⟨e, h, .refl _⟩⟩⟩
  | nodes => exact ⟨fun k e k' h => ⟨e, h, .refl _⟩, fun k e k' h => ⟨e, h, .refl _⟩, rfl, rfl⟩
  | opt => exact ⟨fun h => h, fun h => h, fun m h => ⟨m, h, fun k e k' h => ⟨e, h, .refl _⟩, fun k e k' h => ⟨e, h, .refl _⟩, rfl⟩⟩
  | _ => trivial

theorem foldBin_conv {t : Tok} {l r n : Node} (h : foldBinNode F t l r = some n) : Conv F .node (Node.bin t l r) n := by
  by_cases hn : n = .bin t l r
  · subst hn; exact Conv.refl _
  unfold foldBinNode at h
  split at h
  · rename_i o a b ht hl hr
    rw [Option.map_eq_some_iff] at h
    obtain ⟨c, hc, rfl⟩ := h
    refine ⟨?_, ?_, ?_, ?_⟩
    · intro k e' k' he
      obtain ⟨x, hx, rfl, rfl⟩ := constNode_conv rfl hn he
      obtain ⟨la, h1, rfl, h2⟩ := const?_fexpr hl k
      obtain ⟨lb, h3, rfl, h4⟩ := const?_fexpr hr k
      exact ⟨.bin o (.lit la) (.lit lb), by simp [Node.fexpr, ht, h1, h3], .foldBin h2 h4 (by rw [hc]; exact hx)⟩
    · intro k s' k' hs
      cases c <;> simp [Expr.constNode, Node.fstmt] at hs
    · cases c <;> simp [Expr.constNode, Node.shape, Node.target, Node.isStore, Node.isNamed, Node.lhs]
    · intro x m' hm
      cases c <;> simp [Expr.constNode] at hm
  · simp only [Option.some.injEq] at h; exact (hn h.symm).elim

theorem foldUn_conv {t : Tok} {l n : Node} (h : foldUnNode t l = some n) : Conv F .node (Node.un t l) n := by
  by_cases hn : n = .un t l
  · subst hn; exact Conv.refl _
  unfold foldUnNode at h
  split at h
  · rename_i o a ht hl
    rw [Option.map_eq_some_iff] at h
    obtain ⟨c, hc, rfl⟩ := h
    refine ⟨?_, ?_, ?_, ?_⟩
    · intro k e' k' he
      obtain ⟨x, hx, rfl, rfl⟩ := constNode_conv rfl hn he
      obtain ⟨la, h1, rfl, h2⟩ := const?_fexpr hl k
      exact ⟨.un o (.lit la), by simp [Node.fexpr, ht, h1], .foldUn h2 (by rw [hc]; exact hx)⟩
    · intro k s' k' hs
      cases c <;> simp [Expr.constNode, Node.fstmt] at hs
    · cases c <;> simp [Expr.constNode, Node.shape, Node.target, Node.isStore, Node.isNamed, Node.lhs]
    · intro x m' hm
      cases c <;> simp [Expr.constNode] at hm
  · simp only [Option.some.injEq] at h; exact (hn h.symm).elim

/-- An expression node: nothing else to show. -/
theorem Conv.expr {n n' : Node} (hs : ∀ k, Node.fstmt n' k = none) (ht : n.shape = n'.shape) (hi : ∀ x m, n' ≠ .letIter x m)
    (h : ∀ k e' k', Node.fexpr n' k = some (e', k') → ∃ e, Node.fexpr n k = some (e, k') ∧ FRed F .expr e e') : Conv F .node n n' :=
  ⟨h, fun k s' k' h => by (rw [hs] at h; cases h), ht, fun x m h => (hi x m h).elim⟩

/-- A statement node. -/
theorem Conv.stmt {n n' : Node} (hs : ∀ k, Node.fexpr n' k = none) (ht : n.shape = n'.shape) (hi : ∀ x m, n' ≠ .letIter x m)
    (h : ∀ k e' k', Node.fstmt n' k = some (e', k') → ∃ e, Node.fstmt n k = some (e, k') ∧ FRed F .stmt e e') : Conv F .node n n' :=
  ⟨fun k s' k' h => by (rw [hs] at h; cases h), h, ht, fun x m h => (hi x m h).elim⟩

theorem red_conv {c : NCat} {x y : c.T} (h : Red F c x y) : Conv F c x y := by
  induction h with
  | refl x => exact Conv.refl x
  | @trans c x y z _ _ i1 i2 =>
    cases c with
    | node =>
      obtain ⟨a1, a2, a3, a4⟩ := i1
      obtain ⟨b1, b2, b3, b4⟩ := i2
      refine ⟨?_, ?_, a3.trans b3, ?_⟩
      · intro k e' k' h
        obtain ⟨e1, h1, r1⟩ := b1 k e' k' h
        obtain ⟨e2, h2, r2⟩ := a1 k e1 k' h1
        exact ⟨e2, h2, .trans r2 r1⟩
      · intro k e' k' h
        obtain ⟨e1, h1, r1⟩ := b2 k e' k' h
        obtain ⟨e2, h2, r2⟩ := a2 k e1 k' h1
        exact ⟨e2, h2, .trans r2 r1⟩
      · intro x m' h
        obtain ⟨m1, h1, r1⟩ := b4 x m' h
        obtain ⟨m2, h2, r2⟩ := a4 x m1 h1
        refine ⟨m2, h2, fun k e' k' h => ?_⟩
        obtain ⟨e1, h1, r1⟩ := r1 k e' k' h
        obtain ⟨e2, h2, r2⟩ := r2 k e1 k' h1
        exact ⟨e2, h2, .trans r2 r1⟩
    | nodes =>
      obtain ⟨a1, a2, a3⟩ := i1
      obtain ⟨b1, b2, b3⟩ := i2
      refine ⟨?_, ?_, a3.1.trans b3.1, a3.2.trans b3.2⟩
      · intro k e' k' h
        obtain ⟨e1, h1, r1⟩ := b1 k e' k' h
        obtain ⟨e2, h2, r2⟩ := a1 k e1 k' h1
        exact ⟨e2, h2, .trans r2 r1⟩
      · intro k e' k' h
        obtain ⟨e1, h1, r1⟩ := b2 k e' k' h
        obtain ⟨e2, h2, r2⟩ := a2 k e1 k' h1
        exact ⟨e2, h2, .trans r2 r1⟩
    | opt =>
      refine ⟨fun h => i1.1 (i2.1 h), fun h => i2.2.1 (i1.2.1 h), fun m' h => ?_⟩
      obtain ⟨m1, h1, b1, b2, b3⟩ := i2.2.2 m' h
      obtain ⟨m2, h2, a1, a2, a3⟩ := i1.2.2 m1 h1
      refine ⟨m2, h2, ?_, ?_, a3.trans b3⟩
      · intro k e' k' h
        obtain ⟨e1, h1, r1⟩ := b1 k e' k' h
        obtain ⟨e2, h2, r2⟩ := a1 k e1 k' h1
        exact ⟨e2, h2, .trans r2 r1⟩
      · intro k e' k' h
        obtain ⟨e1, h1, r1⟩ := b2 k e' k' h
        obtain ⟨e2, h2, r2⟩ := a2 k e1 k' h1
        exact ⟨e2, h2, .trans r2 r1⟩
    | _ => trivial
  | foldBin h => exact foldBin_conv h
  | foldUn h => exact foldUn_conv h
  | @cons n n' ns ns' _ h2 i1 i2 =>
    obtain ⟨a1, a2, a3, -⟩ := i1
    obtain ⟨b1, b2, b3⟩ := i2
    refine ⟨?_, ?_, ?_, ?_⟩
    · intro k e' k' h
      simp only [fexprsOf, Option.bind_eq_some_iff, Option.some.injEq, Prod.mk.injEq, Prod.exists] at h
      obtain ⟨x', k1, h1, y', k2, h2, rfl, rfl⟩ := h
      obtain ⟨x, g1, r1⟩ := a1 _ _ _ h1
      obtain ⟨y, g2, r2⟩ := b1 _ _ _ h2
      exact ⟨.cons x y, by simp [fexprsOf, g1, g2], .cons r1 r2⟩
    · intro k e' k' h
      simp only [fstmtsOf, Option.bind_eq_some_iff, Option.some.injEq, Prod.mk.injEq, Prod.exists] at h
      obtain ⟨x', k1, h1, y', k2, h2, rfl, rfl⟩ := h
      obtain ⟨x, g1, r1⟩ := a2 _ _ _ h1
      obtain ⟨y, g2, r2⟩ := b2 _ _ _ h2
      exact ⟨.cons x y, by simp [fstmtsOf, g1, g2], .scons r1 r2⟩
    · have hl := Red.length h2
      rcases ns with _ | ⟨m, ns⟩ <;> rcases ns' with _ | ⟨m', ns'⟩ <;> simp at hl
      · exact (declTarget_one n).trans ((congrArg Prod.fst a3).trans (declTarget_one n').symm)
      · exact (declTarget_more n m ns).trans (declTarget_more n' m' ns').symm
    · have hlhs : n.lhs = n'.lhs := congrArg (fun p => p.2.2.2) a3
      rw [targetsOf_cons, targetsOf_cons, hlhs, b3.2]
  | @some n n' _ ih =>
    refine ⟨fun h => (by cases h), fun h => (by cases h), fun m' h => ?_⟩
    cases h
    exact ⟨n, rfl, ih.1, ih.2.1, ih.2.2.1⟩
  | optsCons | bodiesCons => trivial
  | un _ i1 =>
    refine Conv.expr (fun _ => rfl) rfl (by simp) ?_
    intro k e' k' h
    simp only [Node.fexpr, Option.bind_eq_some_iff, Option.some.injEq, Prod.mk.injEq, Prod.exists] at h
    obtain ⟨o, ho, x', k1, h1, rfl, rfl⟩ := h
    obtain ⟨x, g1, r1⟩ := i1.1 _ _ _ h1
    exact ⟨.un o x, by simp [Node.fexpr, ho, g1], .un r1⟩
  | bin _ _ i1 i2 =>
    refine Conv.expr (fun _ => rfl) rfl (by simp) ?_
    intro k e' k' h
    simp only [Node.fexpr, Option.bind_eq_some_iff, Option.some.injEq, Prod.mk.injEq, Prod.exists] at h
    obtain ⟨o, ho, x', k1, h1, y', k2, h2, rfl, rfl⟩ := h
    obtain ⟨x, g1, r1⟩ := i1.1 _ _ _ h1
    obtain ⟨y, g2, r2⟩ := i2.1 _ _ _ h2
    exact ⟨.bin o x y, by simp [Node.fexpr, ho, g1, g2], .bin r1 r2⟩
  | tri _ _ _ i1 i2 i3 =>
    refine Conv.expr (fun _ => rfl) rfl (by simp) ?_
    intro k e' k' h
    simp only [Node.fexpr, Option.bind_eq_some_iff, Option.some.injEq, Prod.mk.injEq, Prod.exists] at h
    obtain ⟨x', k1, h1, y', k2, h2, z', k3, h3, rfl, rfl⟩ := h
    obtain ⟨x, g1, r1⟩ := i1.1 _ _ _ h1
    obtain ⟨y, g2, r2⟩ := i2.1 _ _ _ h2
    obtain ⟨z, g3, r3⟩ := i3.1 _ _ _ h3
    exact ⟨.tri x y z, by simp [Node.fexpr, g1, g2, g3], .tri r1 r2 r3⟩
  | slice _ _ _ i1 i2 i3 =>
    refine Conv.expr (fun _ => rfl) rfl (by simp) ?_
    intro k e' k' h
    simp only [Node.fexpr, Option.bind_eq_some_iff, Option.some.injEq, Prod.mk.injEq, Prod.exists] at h
    obtain ⟨x', k1, h1, y', k2, h2, z', k3, h3, rfl, rfl⟩ := h
    obtain ⟨x, g1, r1⟩ := i1.1 _ _ _ h1
    obtain ⟨y, g2, r2⟩ := i2.1 _ _ _ h2
    obtain ⟨z, g3, r3⟩ := i3.1 _ _ _ h3
    exact ⟨.slice x y z, by simp [Node.fexpr, g1, g2, g3], .slice r1 r2 r3⟩
  | list _ i1 =>
    refine Conv.expr (fun _ => rfl) rfl (by simp) ?_
    intro k e' k' h
    simp only [Node.fexpr, Option.bind_eq_some_iff, Option.some.injEq, Prod.mk.injEq, Prod.exists] at h
    obtain ⟨x', k1, h1, rfl, rfl⟩ := h
    obtain ⟨x, g1, r1⟩ := i1.1 _ _ _ h1
    exact ⟨.list x, by simp [Node.fexpr, g1], .list r1⟩
  | table _ i1 =>
    refine Conv.expr (fun _ => rfl) rfl (by simp) ?_
    intro k e' k' h
    simp only [Node.fexpr, Option.bind_eq_some_iff, Option.some.injEq, Prod.mk.injEq, Prod.exists] at h
    obtain ⟨x', k1, h1, rfl, rfl⟩ := h
    obtain ⟨x, g1, r1⟩ := i1.1 _ _ _ h1
    exact ⟨.table x, by simp [Node.fexpr, g1], .table r1⟩
  | get _ _ i1 i2 =>
    refine Conv.expr (fun _ => rfl) rfl (by simp) ?_
    intro k e' k' h
    simp only [Node.fexpr, Option.bind_eq_some_iff, Option.some.injEq, Prod.mk.injEq, Prod.exists] at h
    obtain ⟨x', k1, h1, y', k2, h2, rfl, rfl⟩ := h
    obtain ⟨x, g1, r1⟩ := i1.1 _ _ _ h1
    obtain ⟨y, g2, r2⟩ := i2.1 _ _ _ h2
    exact ⟨.get x y, by simp [Node.fexpr, g1, g2], .get r1 r2⟩
  | call _ _ i1 i2 =>
    refine Conv.expr (fun _ => rfl) rfl (by simp) ?_
    intro k e' k' h
    simp only [Node.fexpr, Option.bind_eq_some_iff, Option.some.injEq, Prod.mk.injEq, Prod.exists] at h
    obtain ⟨x', k1, h1, y', k2, h2, rfl, rfl⟩ := h
    obtain ⟨x, g1, r1⟩ := i1.1 _ _ _ h1
    obtain ⟨y, g2, r2⟩ := i2.1 _ _ _ h2
    exact ⟨.call x y, by simp [Node.fexpr, g1, g2], .call r1 r2⟩
  | @mcall _ _ m _ _ _ _ i1 i2 =>
    refine Conv.expr (fun _ => rfl) rfl (by simp) ?_
    intro k e' k' h
    simp only [Node.fexpr, Option.bind_eq_some_iff, Option.some.injEq, Prod.mk.injEq, Prod.exists] at h
    obtain ⟨x', k1, h1, y', k2, h2, rfl, rfl⟩ := h
    obtain ⟨x, g1, r1⟩ := i1.1 _ _ _ h1
    obtain ⟨y, g2, r2⟩ := i2.1 _ _ _ h2
    exact ⟨.mcall x m y, by simp [Node.fexpr, g1, g2], .mcall r1 r2⟩
  | variadic _ i1 =>
    refine Conv.expr (fun _ => rfl) rfl (by simp) ?_
    intro k e' k' h
    simp only [Node.fexpr, Option.bind_eq_some_iff, Option.some.injEq, Prod.mk.injEq, Prod.exists] at h
    obtain ⟨x', k1, h1, c', h2, rfl, rfl⟩ := h
    obtain ⟨x, g1, r1⟩ := i1.1 _ _ _ h1
    obtain ⟨c, g2, r2⟩ := r1.ctxOf h2
    exact ⟨c, by simp [Node.fexpr, g1, g2], r2⟩
  | fn _ i1 =>
    refine Conv.expr (fun _ => rfl) rfl (by simp) ?_
    intro k e' k' h
    simp only [Node.fexpr, Option.bind_eq_some_iff, Option.some.injEq, Prod.mk.injEq, Prod.exists] at h
    obtain ⟨xs, hx, x', k1, h1, rfl, rfl⟩ := h
    obtain ⟨x, g1, r1⟩ := i1.2.1 _ _ _ h1
    exact ⟨.fn k xs x, by simp [Node.fexpr, hx, g1], .fn r1⟩
  | listComp => refine Conv.expr (fun _ => rfl) rfl (by simp) ?_; intro k e' k' h; simp [Node.fexpr] at h
  | tableComp => refine Conv.expr (fun _ => rfl) rfl (by simp) ?_; intro k e' k' h; simp [Node.fexpr] at h
  | set _ _ _ i1 i2 i3 =>
    refine Conv.stmt (fun _ => rfl) rfl (by simp) ?_
    intro k e' k' h
    rename_i v v' _ _ _
    cases v' with
    | none => simp [Node.fstmt] at h
    | some v' =>
      obtain ⟨v, rfl, hv, -⟩ := i3.2.2 _ rfl
      simp only [Node.fstmt, Option.bind_eq_some_iff, Option.some.injEq, Prod.mk.injEq, Prod.exists] at h
      obtain ⟨x', k1, h1, y', k2, h2, z', k3, h3, rfl, rfl⟩ := h
      obtain ⟨x, g1, r1⟩ := i1.1 _ _ _ h1
      obtain ⟨y, g2, r2⟩ := i2.1 _ _ _ h2
      obtain ⟨z, g3, r3⟩ := hv _ _ _ h3
      exact ⟨.set x y z, by simp [Node.fstmt, g1, g2, g3], .set r1 r2 r3⟩
  | exprStmt _ i1 =>
    refine Conv.stmt (fun _ => rfl) rfl (by simp) ?_
    intro k e' k' h
    simp only [Node.fstmt] at h
    have hst := congrArg (fun p => p.2.1) i1.2.2.1
    simp only [Node.shape] at hst
    split at h
    · rename_i hs
      rw [hs] at hst
      obtain ⟨s, g1, r1⟩ := i1.2.1 _ _ _ h
      exact ⟨s, by simp only [Node.fstmt, hst, if_true]; exact g1, r1⟩
    · rename_i hs
      simp only [Option.bind_eq_some_iff, Option.some.injEq, Prod.mk.injEq, Prod.exists] at h
      obtain ⟨x', k1, h1, rfl, rfl⟩ := h
      obtain ⟨x, g1, r1⟩ := i1.1 _ _ _ h1
      exact ⟨.expr x, by simp [Node.fstmt, g1, hst, hs], .sexpr r1⟩
  | echo _ i1 =>
    refine Conv.stmt (fun _ => rfl) rfl (by simp) ?_
    intro k e' k' h
    simp only [Node.fstmt, Option.bind_eq_some_iff, Option.some.injEq, Prod.mk.injEq, Prod.exists] at h
    obtain ⟨x', k1, h1, rfl, rfl⟩ := h
    obtain ⟨x, g1, r1⟩ := i1.1 _ _ _ h1
    exact ⟨.echo x, by simp [Node.fstmt, g1], .echo r1⟩
  | assert _ i1 =>
    refine Conv.stmt (fun _ => rfl) rfl (by simp) ?_
    intro k e' k' h
    simp only [Node.fstmt, Option.bind_eq_some_iff, Option.some.injEq, Prod.mk.injEq, Prod.exists] at h
    obtain ⟨x', k1, h1, rfl, rfl⟩ := h
    obtain ⟨x, g1, r1⟩ := i1.1 _ _ _ h1
    exact ⟨.assert x, by simp [Node.fstmt, g1], .assert r1⟩
  | ret _ i1 =>
    refine Conv.stmt (fun _ => rfl) rfl (by simp) ?_
    intro k e' k' h
    simp only [Node.fstmt, Option.bind_eq_some_iff, Option.some.injEq, Prod.mk.injEq, Prod.exists] at h
    obtain ⟨x', k1, h1, rfl, rfl⟩ := h
    obtain ⟨x, g1, r1⟩ := i1.1 _ _ _ h1
    exact ⟨.ret x, by simp [Node.fstmt, g1], .ret r1⟩
  | export_ => refine Conv.stmt (fun _ => rfl) rfl (by simp) ?_; intro k e' k' h; simp [Node.fstmt] at h
  | multiRet => refine Conv.stmt (fun _ => rfl) rfl (by simp) ?_; intro k e' k' h; simp [Node.fstmt] at h
  | decl _ _ i1 i2 =>
    refine Conv.stmt (fun _ => rfl) rfl (by simp) ?_
    intro k e' k' h
    simp only [Node.fstmt, Option.bind_eq_some_iff, Option.some.injEq, Prod.mk.injEq, Prod.exists] at h
    obtain ⟨x', k1, h1, s', h2, rfl, rfl⟩ := h
    obtain ⟨x, g1, r1⟩ := i2.1 _ _ _ h1
    obtain ⟨s, g2, r2⟩ := r1.declsOf i1.2.2.1 i1.2.2.2 h2
    exact ⟨s, by simp [Node.fstmt, g1, g2], r2⟩
  | @let_ x e e' _ i1 =>
    refine Conv.stmt (fun _ => rfl) ?_ (by simp) ?_
    · rcases e with _ | e <;> rcases e' with _ | e' <;> first | rfl | (have := i1.1 rfl; simp at this) | (have := i1.2.1 rfl; simp at this)
    · intro k e1 k' h
      cases e' with
      | none => simp [Node.fstmt] at h
      | some e' =>
        obtain ⟨v, rfl, hv, -, hsh⟩ := i1.2.2 _ rfl
        have hnm : v.isNamed = e'.isNamed := congrArg (fun p => p.2.2.1) hsh
        simp only [Node.fstmt, Option.bind_eq_some_iff, Option.some.injEq, Prod.mk.injEq, Prod.exists] at h
        obtain ⟨x', k1, h1, s', h2, rfl, rfl⟩ := h
        obtain ⟨y, g1, r1⟩ := hv _ _ _ h1
        split at h2
        · rename_i hb
          obtain ⟨s, g2, r2⟩ := r1.named h2
          exact ⟨s, by simp [Node.fstmt, g1, hnm, hb, g2], r2⟩
        · rename_i hb
          cases h2
          exact ⟨.let_ x y, by simp [Node.fstmt, g1, hnm, hb], .let_ r1⟩
  | @const_ x e e' _ i1 =>
    refine Conv.stmt (fun _ => rfl) ?_ (by simp) ?_
    · rcases e with _ | e <;> rcases e' with _ | e' <;> first | rfl | (have := i1.1 rfl; simp at this) | (have := i1.2.1 rfl; simp at this)
    · intro k e1 k' h
      simp [Node.fstmt] at h
  | @assign x e e' _ i1 =>
    refine Conv.stmt (fun _ => rfl) (by
      rcases e with _ | e <;> rcases e' with _ | e' <;> first | rfl | (have := i1.1 rfl; simp at this) | (have := i1.2.1 rfl; simp at this)) (by simp) ?_
    intro k e1 k' h
    cases e' with
    | none => simp [Node.fstmt] at h
    | some e' =>
      obtain ⟨v, rfl, hv, -⟩ := i1.2.2 _ rfl
      simp only [Node.fstmt, Option.bind_eq_some_iff, Option.some.injEq, Prod.mk.injEq, Prod.exists] at h
      obtain ⟨x', k1, h1, rfl, rfl⟩ := h
      obtain ⟨y, g1, r1⟩ := hv _ _ _ h1
      exact ⟨.assign x y, by simp [Node.fstmt, g1], .assign r1⟩
  | @letIter x e e' _ i1 =>
    refine ⟨fun k e k' h => (by simp [Node.fexpr] at h), fun k e k' h => (by simp [Node.fstmt] at h), rfl, ?_⟩
    intro y m' h; cases h
    exact ⟨e, rfl, i1.1⟩
  | @forIter i i' b b' _ _ i1 i2 =>
    refine Conv.stmt (fun _ => rfl) rfl (by simp) ?_
    intro k e1 k' h
    by_cases hi : ∃ x m', i' = Node.letIter x m'
    · obtain ⟨x, m', rfl⟩ := hi
      obtain ⟨m, rfl, hm⟩ := i1.2.2.2 _ _ rfl
      simp only [Node.fstmt, Option.bind_eq_some_iff, Option.some.injEq, Prod.mk.injEq, Prod.exists] at h
      obtain ⟨x', k1, h1, y', k2, h2, rfl, rfl⟩ := h
      obtain ⟨a, g1, r1⟩ := hm _ _ _ h1
      obtain ⟨y, g2, r2⟩ := i2.2.1 _ _ _ h2
      exact ⟨.forIter x a y, by simp [Node.fstmt, g1, g2], .forIter r1 r2⟩
    · exfalso
      cases i' <;> first | (simp [Node.fstmt] at h; done) | exact hi ⟨_, _, rfl⟩
  | @while_ _ _ _ _ p p' _ _ _ i1 i2 i3 =>
    refine Conv.stmt (fun _ => rfl) rfl (by simp) ?_
    intro k e1 k' h
    cases p' with
    | some p' =>
      obtain ⟨p, rfl, -, hp, -⟩ := i3.2.2 _ rfl
      simp only [Node.fstmt, Option.bind_eq_some_iff, Option.some.injEq, Prod.mk.injEq, Prod.exists] at h
      obtain ⟨z', k3, h3, x', k1, h1, y', k2, h2, rfl, rfl⟩ := h
      obtain ⟨z, g3, r3⟩ := hp _ _ _ h3
      obtain ⟨a, g1, r1⟩ := i1.1 _ _ _ h1
      obtain ⟨y, g2, r2⟩ := i2.2.1 _ _ _ h2
      exact ⟨.loop a y z, by simp [Node.fstmt, g1, g2, g3], .loop r1 r2 r3⟩
    | none =>
      have := i3.1 rfl; subst this
      simp only [Node.fstmt, Option.bind_eq_some_iff, Option.some.injEq, Prod.mk.injEq, Prod.exists] at h
      obtain ⟨x', k1, h1, y', k2, h2, rfl, rfl⟩ := h
      obtain ⟨a, g1, r1⟩ := i1.1 _ _ _ h1
      obtain ⟨y, g2, r2⟩ := i2.2.1 _ _ _ h2
      exact ⟨.while_ a y, by simp [Node.fstmt, g1, g2], .while_ r1 r2⟩
  | @if_ _ _ _ _ p p' _ _ _ i1 i2 i3 =>
    refine Conv.stmt (fun _ => rfl) rfl (by simp) ?_
    intro k e1 k' h
    cases p' with
    | some p' =>
      obtain ⟨p, rfl, -, hp, -⟩ := i3.2.2 _ rfl
      simp only [Node.fstmt, Option.bind_eq_some_iff, Option.some.injEq, Prod.mk.injEq, Prod.exists] at h
      obtain ⟨x', k1, h1, y', k2, h2, z', k3, h3, rfl, rfl⟩ := h
      obtain ⟨a, g1, r1⟩ := i1.1 _ _ _ h1
      obtain ⟨y, g2, r2⟩ := i2.2.1 _ _ _ h2
      obtain ⟨z, g3, r3⟩ := hp _ _ _ h3
      exact ⟨.ifElse a y z, by simp [Node.fstmt, g1, g2, g3], .ifElse r1 r2 r3⟩
    | none =>
      have := i3.1 rfl; subst this
      simp only [Node.fstmt, Option.bind_eq_some_iff, Option.some.injEq, Prod.mk.injEq, Prod.exists] at h
      obtain ⟨x', k1, h1, y', k2, h2, rfl, rfl⟩ := h
      obtain ⟨a, g1, r1⟩ := i1.1 _ _ _ h1
      obtain ⟨y, g2, r2⟩ := i2.2.1 _ _ _ h2
      exact ⟨.ifThen a y, by simp [Node.fstmt, g1, g2], .ifThen r1 r2⟩
  | match_ => refine Conv.stmt (fun _ => rfl) rfl (by simp) ?_; intro k e' k' h; simp [Node.fstmt] at h
  | block _ i1 =>
    refine Conv.stmt (fun _ => rfl) rfl (by simp) ?_
    intro k e' k' h
    simp only [Node.fstmt, Option.bind_eq_some_iff, Option.some.injEq, Prod.mk.injEq, Prod.exists] at h
    obtain ⟨x', k1, h1, rfl, rfl⟩ := h
    obtain ⟨x, g1, r1⟩ := i1.2.1 _ _ _ h1
    exact ⟨.block x, by simp [Node.fstmt, g1], .block r1⟩

end
end Yasl
