import Verif.Proofs.FRed
import Verif.Spec.FLang
set_option autoImplicit false
/-! # Constant folding does not change what a program with functions does -/
namespace Yasl

section
variable {W : Type} {F : FloatOps}

/-- The same function, up to constant folding. -/
def SameClo (F : FloatOps) (c c' : Clo) : Prop :=
  c.params = c'.params ∧ c.vis = c'.vis ∧ c.multi = c'.multi ∧ SafeFSs F c.body ∧ FRed F .stmts c.body c'.body

/-- The same functions, up to constant folding. -/
def SameFn (F : FloatOps) : Option Clo → Option Clo → Prop
  | none, none => True
  | some c, some c' => SameClo F c c'
  | _, _ => False

/-- The same state, up to constant folding in functions. -/
structure SameSh (F : FloatOps) (s s' : Sh W) : Prop where
  statics : s.statics = s'.statics
  globals : s.globals = s'.globals
  world : s.world = s'.world
  out : s.out = s'.out
  ncl : s.ncl = s'.ncl
  fns : ∀ v, SameFn F (s.fns v) (s'.fns v)

theorem SameClo.left {c c' : Clo} (h : SameClo F c c') : SameClo F c c := ⟨rfl, rfl, rfl, h.2.2.2.1, .refl _⟩

theorem SameClo.trans {a b c : Clo} (h : SameClo F a b) (h' : SameClo F b c) : SameClo F a c :=
  ⟨h.1.trans h'.1, h.2.1.trans h'.2.1, h.2.2.1.trans h'.2.2.1, h.2.2.2.1, .trans h.2.2.2.2 h'.2.2.2.2⟩

theorem SameSh.left {s s' : Sh W} (h : SameSh F s s') : SameSh F s s :=
  ⟨rfl, rfl, rfl, rfl, rfl, fun v => by
    have := h.fns v
    rcases h1 : s.fns v with _ | c <;> rcases h2 : s'.fns v with _ | c' <;> simp only [h1, h2, SameFn] at this ⊢
    exact this.left⟩

theorem SameSh.trans {a b c : Sh W} (h : SameSh F a b) (h' : SameSh F b c) : SameSh F a c :=
  ⟨h.1.trans h'.1, h.2.trans h'.2, h.3.trans h'.3, h.4.trans h'.4, h.5.trans h'.5, fun v => by
    have i1 := h.fns v
    have i2 := h'.fns v
    rcases h1 : a.fns v with _ | x <;> rcases h2 : b.fns v with _ | y <;> rcases h3 : c.fns v with _ | z <;> simp only [h1, h2, h3, SameFn] at i1 i2 ⊢
    exact i1.trans i2⟩

/-- The same result. -/
def SameR (F : FloatOps) {α : Type} (r r' : FRes W α) : Prop := SameSh F r.1 r'.1 ∧ r.2 = r'.2

theorem SameR.trans {α : Type} {a b c : FRes W α} (h : SameR F a b) (h' : SameR F b c) : SameR F a c := ⟨h.1.trans h'.1, h.2.trans h'.2⟩

theorem SameR.mk {α : Type} {s s' : Sh W} {r : Except FErr α} (h : SameSh F s s') : SameR F (s, r) (s', r) := ⟨h, rfl⟩

theorem SameR.bind {α β : Type} {r r' : FRes W α} {k k' : Sh W → α → FRes W β} (h : SameR F r r')
    (hk : ∀ s s' a, SameSh F s s' → SameR F (k s a) (k' s' a)) : SameR F (r.bind k) (r'.bind k') := by
  obtain ⟨s, e⟩ := r
  obtain ⟨s', e'⟩ := r'
  obtain ⟨h1, h2⟩ := h
  dsimp only at h1 h2; subst h2
  cases e with
  | error e => exact ⟨h1, rfl⟩
  | ok a => exact hk _ _ _ h1

theorem SameSh.prim {α : Type} {s s' : Sh W} (h : SameSh F s s') (r : PRes W α) : SameR F (s.prim r) (s'.prim r) := by
  obtain ⟨w, e⟩ := r
  cases e <;> exact ⟨⟨h.1, h.2, rfl, h.4, h.5, h.6⟩, rfl⟩

theorem SameSh.look {s s' : Sh W} (h : SameSh F s s') (vis : Nat) (loc : LEnv) (x : Name) : s.look vis loc x = s'.look vis loc x := by
  simp only [Sh.look, h.statics, h.globals]

theorem SameSh.assign {s s' : Sh W} (h : SameSh F s s') (vis : Nat) (loc : LEnv) (x : Name) (v : Val) :
    SameSh F (s.assign vis loc x v).1 (s'.assign vis loc x v).1 ∧ (s.assign vis loc x v).2 = (s'.assign vis loc x v).2 := by
  simp only [Sh.assign, h.statics, h.globals]
  split
  · exact ⟨h, rfl⟩
  · split
    · exact ⟨⟨rfl, rfl, h.3, h.4, h.5, h.6⟩, rfl⟩
    · exact ⟨⟨rfl, rfl, h.3, h.4, h.5, h.6⟩, rfl⟩

theorem SameSh.mkFn {s s' : Sh W} (h : SameSh F s s') (a : Option Nat) {c c' : Clo} (hc : SameClo F c c') : SameR F (s.mkFn a c) (s'.mkFn a c') := by
  cases a with
  | some a =>
    refine ⟨⟨h.1, h.2, h.3, h.4, h.5, fun v => ?_⟩, rfl⟩
    simp only [Sh.mkFn]
    split
    · exact hc
    · exact h.6 v
  | none =>
    refine ⟨⟨h.1, h.2, h.3, h.4, by simp [Sh.mkFn, h.5], fun v => ?_⟩, by simp [Sh.mkFn, h.5]⟩
    simp only [Sh.mkFn, h.5]
    split
    · exact hc
    · exact h.6 v

theorem SameSh.checkFn {α : Type} {s s' : Sh W} (h : SameSh F s s') (f : Val) {k k' : Sh W → FRes W α} (hk : SameR F (k s) (k' s')) :
    SameR F (checkFn f s k) (checkFn f s' k') := by
  unfold Yasl.checkFn
  split
  · exact hk
  · exact ⟨h, rfl⟩

variable (P : Prims W) (Q : W → Val → List Val → PRes W (List Val)) (label : Nat → Option Nat) (call : Clo → List Val → Sh W → FRes W Val)

/-- A function is called in the same way. -/
def SameCalls (F : FloatOps) (call : Clo → List Val → Sh W → FRes W Val) : Prop :=
  ∀ c c' args (s s' : Sh W), SameClo F c c' → SameSh F s s' → SameR F (call c args s) (call c' args s')

variable {P Q label call}

theorem SameSh.apply (hcall : SameCalls F call) {s s' : Sh W} (h : SameSh F s s') (m : Bool) (f : Val) (args : List Val) :
    SameR F (apply Q call m f args s) (apply Q call m f args s') := by
  unfold Yasl.apply
  split
  · rw [h.world]
    refine (h.prim _).bind fun s s' rs h => ?_
    split
    · split <;> exact ⟨h, rfl⟩
    · exact ⟨h, rfl⟩
  · have := h.fns f
    rcases h1 : s.fns f with _ | c <;> rcases h2 : s'.fns f with _ | c' <;> simp only [h1, h2, SameFn] at this ⊢
    · exact ⟨h, rfl⟩
    · exact hcall _ _ _ _ _ this h

theorem SameR.andThen {r r' : FSRes W} {k k' : Sh W → LEnv → FSRes W} (h : SameR F r r') (hk : ∀ s s' loc, SameSh F s s' → SameR F (k s loc) (k' s' loc)) :
    SameR F (r.andThen k) (r'.andThen k') := by
  obtain ⟨s, e⟩ := r
  obtain ⟨s', e'⟩ := r'
  obtain ⟨h1, h2⟩ := h
  dsimp only at h1 h2; subst h2
  rcases e with e | ⟨loc, _ | _ | _ | _⟩ <;> first | exact ⟨h1, rfl⟩ | exact hk _ _ _ h1

theorem SameR.round {r r' : FSRes W} {n : Nat} {k k' : Sh W → LEnv → FSRes W} (h : SameR F r r') (hk : ∀ s s' loc, SameSh F s s' → SameR F (k s loc) (k' s' loc)) :
    SameR F (r.round n k) (r'.round n k') := by
  obtain ⟨s, e⟩ := r
  obtain ⟨s', e'⟩ := r'
  obtain ⟨h1, h2⟩ := h
  dsimp only at h1 h2; subst h2
  rcases e with e | ⟨loc, _ | _ | _ | _⟩ <;> first | exact ⟨h1, rfl⟩ | exact hk _ _ _ h1

theorem same_floop {cond cond' : LEnv → Sh W → FRes W Val} {body body' : LEnv → Sh W → FSRes W}
    (hc : ∀ loc s s', SameSh F s s' → SameR F (cond loc s) (cond' loc s')) (hb : ∀ loc s s', SameSh F s s' → SameR F (body loc s) (body' loc s')) :
    ∀ fuel loc s s', SameSh F s s' → SameR F (floop cond body fuel loc s) (floop cond' body' fuel loc s')
  | 0, _, _, _, h => ⟨h, rfl⟩
  | fuel + 1, loc, s, s', h => by
    rw [floop, floop]
    refine (hc loc s s' h).bind fun s s' v h => ?_
    split
    · exact ⟨h, rfl⟩
    · exact (hb loc s s' h).round fun s s' loc h => same_floop hc hb fuel loc s s' h

theorem same_floopP {cond cond' : LEnv → Sh W → FRes W Val} {body body' post post' : LEnv → Sh W → FSRes W}
    (hc : ∀ loc s s', SameSh F s s' → SameR F (cond loc s) (cond' loc s')) (hb : ∀ loc s s', SameSh F s s' → SameR F (body loc s) (body' loc s'))
    (hp : ∀ loc s s', SameSh F s s' → SameR F (post loc s) (post' loc s')) :
    ∀ fuel loc s s', SameSh F s s' → SameR F (floopP cond body post fuel loc s) (floopP cond' body' post' fuel loc s')
  | 0, _, _, _, h => ⟨h, rfl⟩
  | fuel + 1, loc, s, s', h => by
    rw [floopP, floopP]
    refine (hc loc s s' h).bind fun s s' v h => ?_
    split
    · exact ⟨h, rfl⟩
    · exact (hb loc s s' h).round fun s s' loc h => (hp loc s s' h).andThen fun s s' loc h => same_floopP hc hb hp fuel loc s s' h

theorem same_floopIter {x : Name} {coll : Val} {body body' : LEnv → Sh W → FSRes W}
    (hb : ∀ loc s s', SameSh F s s' → SameR F (body loc s) (body' loc s')) :
    ∀ fuel i loc s s', SameSh F s s' → SameR F (floopIter P x coll body fuel i loc s) (floopIter P x coll body' fuel i loc s')
  | 0, _, _, _, _, h => ⟨h, rfl⟩
  | fuel + 1, i, loc, s, s', h => by
    rw [floopIter, floopIter, h.world]
    refine (h.prim _).bind fun s s' r h => ?_
    split
    · exact ⟨h, rfl⟩
    · exact (hb _ s s' h).round fun s s' loc h => same_floopIter hb fuel _ loc s s' h

/-! ## Constants -/

theorem eval_lit (ρ : Name → Option Val) (l : FLit) (w : W) : eval F P ρ l.expr w = (w, .ok l.val) := by
  cases l <;> rfl

theorem Sh.prim_bind {α β : Type} (s : Sh W) (r : PRes W α) (k : W → α → PRes W β) :
    s.prim (r.bind k) = (s.prim r).bind fun s a => s.prim (k s.world a) := by
  obtain ⟨w, e⟩ := r
  cases e with
  | error e => rfl
  | ok a =>
    show s.prim (k w a) = Sh.prim { s with world := w } (k w a)
    obtain ⟨w', e'⟩ := k w a
    cases e' <;> rfl

/-- An operation on constants. -/
theorem feval_bin_lit (ρ : Name → Option Val) (vis : Nat) (loc : LEnv) (t : BinTok) (a b : FLit) (m : Bool) (s : Sh W) :
    feval F P Q label call vis loc (.bin t (.lit a) (.lit b)) m s = s.prim (eval F P ρ (.bin t a.expr b.expr) s.world) := by
  rcases t with o | _ | _ | _ | _ | _ <;> simp only [feval, eval, eval_lit, FRes.bind, PRes.bind_ok]
  · rcases h : applyBin F P s.world .eq a.val b.val with ⟨w, e | v⟩ <;> rfl
  · rcases h : applyBin F P s.world .id a.val b.val with ⟨w, e | v⟩ <;> rfl
  · split <;> rfl
  · split <;> rfl
  · split <;> rfl

theorem feval_un_lit (ρ : Name → Option Val) (vis : Nat) (loc : LEnv) (o : UnOp) (a : FLit) (m : Bool) (s : Sh W) :
    feval F P Q label call vis loc (.un o (.lit a)) m s = s.prim (eval F P ρ (.un o a.expr) s.world) := by
  simp only [feval, eval, eval_lit, FRes.bind, PRes.bind_ok]

theorem feval_lit (ρ : Name → Option Val) (vis : Nat) (loc : LEnv) (a : FLit) (m : Bool) (s : Sh W) :
    feval F P Q label call vis loc (.lit a) m s = s.prim (eval F P ρ a.expr s.world) := by
  rw [eval_lit]; rfl

/-! ## Everything -/

theorem SameSh.assignAll (vis : Nat) : ∀ (ls : List FTarget) (vs : List Val) (loc : LEnv) (s s' : Sh W), SameSh F s s' →
    SameSh F (Yasl.assignAll vis ls vs loc s).1 (Yasl.assignAll vis ls vs loc s').1 ∧ (Yasl.assignAll vis ls vs loc s).2 = (Yasl.assignAll vis ls vs loc s').2
  | [], vs, loc, s, s', h => by simp only [Yasl.assignAll]; exact ⟨h, trivial⟩
  | .let_ x :: ls, [], loc, s, s', h => by simp only [Yasl.assignAll]; exact ⟨h, trivial⟩
  | .const_ x :: ls, [], loc, s, s', h => by simp only [Yasl.assignAll]; exact ⟨h, trivial⟩
  | .assign x :: ls, [], loc, s, s', h => by simp only [Yasl.assignAll]; exact ⟨h, trivial⟩
  | .let_ x :: ls, v :: vs, loc, s, s', h => by simp only [Yasl.assignAll]; exact SameSh.assignAll vis ls vs _ s s' h
  | .const_ x :: ls, v :: vs, loc, s, s', h => by simp only [Yasl.assignAll]; exact SameSh.assignAll vis ls vs _ s s' h
  | .assign x :: ls, v :: vs, loc, s, s', h => by
    have h1 := h.assign vis loc x v
    simp only [Yasl.assignAll]
    rw [h1.2]
    exact SameSh.assignAll vis ls vs _ _ _ h1.1

theorem SameSh.assignTop : ∀ (ls : List FTarget) (vs : List Val) (s s' : Sh W), SameSh F s s' → SameSh F (Yasl.assignTop ls vs s) (Yasl.assignTop ls vs s')
  | [], vs, s, s', h => by simp only [Yasl.assignTop]; exact h
  | .let_ x :: ls, [], s, s', h => by simp only [Yasl.assignTop]; exact h
  | .const_ x :: ls, [], s, s', h => by simp only [Yasl.assignTop]; exact h
  | .assign x :: ls, [], s, s', h => by simp only [Yasl.assignTop]; exact h
  | .let_ x :: ls, v :: vs, s, s', h => by simp only [Yasl.assignTop]; exact SameSh.assignTop ls vs _ _ ⟨by rw [h.1], h.2, h.3, h.4, h.5, h.6⟩
  | .const_ x :: ls, v :: vs, s, s', h => by simp only [Yasl.assignTop]; exact SameSh.assignTop ls vs _ _ ⟨by rw [h.1], h.2, h.3, h.4, h.5, h.6⟩
  | .assign x :: ls, v :: vs, s, s', h => by
    simp only [Yasl.assignTop]
    rw [h.statics]
    exact SameSh.assignTop ls vs _ _ (h.assign _ _ _ _).1

/-- The same meaning. -/
def FRedSem (F : FloatOps) (P : Prims W) (Q : W → Val → List Val → PRes W (List Val)) (label : Nat → Option Nat) (call : Clo → List Val → Sh W → FRes W Val) :
    (c : FCat) → c.T → c.T → Prop
  | .expr, e, e' => SafeFE F e → ∀ vis loc m s s', SameSh F s s' → SameR F (feval F P Q label call vis loc e m s) (feval F P Q label call vis loc e' m s')
  | .exprs, e, e' => SafeFEs F e → ∀ vis loc m s s', SameSh F s s' → SameR F (fevalAll F P Q label call vis loc e m s) (fevalAll F P Q label call vis loc e' m s')
  | .stmt, e, e' => SafeFS F e → ∀ fuel vis m loc s s', SameSh F s s' → SameR F (fexec F P Q label call fuel vis m e loc s) (fexec F P Q label call fuel vis m e' loc s')
  | .stmts, e, e' => SafeFSs F e → ∀ fuel vis m loc s s', SameSh F s s' →
      SameR F (fexecAll F P Q label call fuel vis m e loc s) (fexecAll F P Q label call fuel vis m e' loc s')

theorem fred_sem (hcall : SameCalls F call) {c : FCat} {x y : c.T} (h : FRed F c x y) : FRedSem F P Q label call c x y := by
  induction h with
  | lit l => intro _ vis loc m s s' h; simp only [feval]; exact ⟨h, rfl⟩
  | var x => intro _ vis loc m s s' h; simp only [feval, h.look]; split <;> exact ⟨h, rfl⟩
  | nil => intro _ vis loc m s s' h; simp only [fevalAll]; exact ⟨h, rfl⟩
  | brk => intro _ fuel vis m loc s s' h; simp only [fexec]; exact ⟨h, rfl⟩
  | cont => intro _ fuel vis m loc s s' h; simp only [fexec]; exact ⟨h, rfl⟩
  | snil => intro _ fuel vis m loc s s' h; simp only [fexecAll]; exact ⟨h, rfl⟩
  | @trans c x y z h1 h2 i1 i2 =>
    cases c with
    | expr => exact fun hs vis loc m s s' h => (i1 hs vis loc m s s h.left).trans (i2 ((fred_known h1).2 hs) vis loc m s s' h)
    | exprs => exact fun hs vis loc m s s' h => (i1 hs vis loc m s s h.left).trans (i2 (fred_known h1 hs) vis loc m s s' h)
    | stmt => exact fun hs fuel vis m loc s s' h => (i1 hs fuel vis m loc s s h.left).trans (i2 (fred_known h1 hs) fuel vis m loc s s' h)
    | stmts => exact fun hs fuel vis m loc s s' h => (i1 hs fuel vis m loc s s h.left).trans (i2 (fred_known h1 hs) fuel vis m loc s s' h)
  | @foldBin t a b c h1 h2 h3 =>
    intro hs vis loc m s s' h
    simp only [SafeFE, FExpr.known] at hs
    rw [feval_bin_lit (fun _ => none), feval_lit (fun _ => none),
      foldBin_eval F P (fun _ => none) (fun ht => hs.2.2 ht a b (lit?_lit h1) (lit?_lit h2)) (lit?_known h3).1, h.world]
    exact h.prim _
  | @foldUn o a c h1 h3 =>
    intro hs vis loc m s s' h
    simp only [SafeFE, FExpr.known] at hs
    rw [feval_un_lit (fun _ => none), feval_lit (fun _ => none),
      foldUn_eval F P (fun _ => none) (fun ht b hb => hs.2 ht b (by rw [hb]; rfl)) (lit?_known h3).1, h.world]
    exact h.prim _
  | cons _ _ i1 i2 =>
    intro hs vis loc m s s' h
    simp only [SafeFEs] at hs
    simp only [fevalAll]
    exact (i1 hs.1 _ _ _ _ _ h).bind fun s s' v h => (i2 hs.2 _ _ _ _ _ h).bind fun s s' vs h => ⟨h, rfl⟩
  | un _ i1 =>
    intro hs vis loc m s s' h
    simp only [SafeFE] at hs
    simp only [feval]
    exact (i1 hs.1 _ _ _ _ _ h).bind fun s s' v h => h.world ▸ h.prim _
  | @bin t _ _ _ _ _ _ i1 i2 =>
    intro hs vis loc m s s' h
    simp only [SafeFE] at hs
    rcases t with o | _ | _ | _ | _ | _ <;> simp only [feval]
    · exact (i1 hs.1 _ _ _ _ _ h).bind fun s s' v h => (i2 hs.2.1 _ _ _ _ _ h).bind fun s s' v h => h.world ▸ h.prim _
    · exact ((i1 hs.1 _ _ _ _ _ h).bind fun s s' v h => (i2 hs.2.1 _ _ _ _ _ h).bind fun s s' v h => h.world ▸ h.prim _).bind fun s s' v h => ⟨h, rfl⟩
    · exact ((i1 hs.1 _ _ _ _ _ h).bind fun s s' v h => (i2 hs.2.1 _ _ _ _ _ h).bind fun s s' v h => h.world ▸ h.prim _).bind fun s s' v h => ⟨h, rfl⟩
    · refine (i1 hs.1 _ _ _ _ _ h).bind fun s s' v h => ?_
      split
      · exact ⟨h, rfl⟩
      · exact i2 hs.2.1 _ _ _ _ _ h
    · refine (i1 hs.1 _ _ _ _ _ h).bind fun s s' v h => ?_
      split
      · exact i2 hs.2.1 _ _ _ _ _ h
      · exact ⟨h, rfl⟩
    · refine (i1 hs.1 _ _ _ _ _ h).bind fun s s' v h => ?_
      split
      · exact i2 hs.2.1 _ _ _ _ _ h
      · exact ⟨h, rfl⟩
  | tri _ _ _ i1 i2 i3 =>
    intro hs vis loc m s s' h
    simp only [SafeFE] at hs
    simp only [feval]
    refine (i1 hs.1 _ _ _ _ _ h).bind fun s s' v h => ?_
    split
    · exact i3 hs.2.2 _ _ _ _ _ h
    · exact i2 hs.2.1 _ _ _ _ _ h
  | list _ i1 =>
    intro hs vis loc m s s' h
    simp only [SafeFE] at hs
    simp only [feval]
    exact (i1 hs _ _ _ _ _ h).bind fun s s' v h => h.world ▸ h.prim _
  | table _ i1 =>
    intro hs vis loc m s s' h
    simp only [SafeFE] at hs
    simp only [feval]
    exact (i1 hs _ _ _ _ _ h).bind fun s s' v h => h.world ▸ h.prim _
  | get _ _ i1 i2 =>
    intro hs vis loc m s s' h
    simp only [SafeFE] at hs
    simp only [feval]
    exact (i1 hs.1 _ _ _ _ _ h).bind fun s s' v h => (i2 hs.2 _ _ _ _ _ h).bind fun s s' v h => h.world ▸ h.prim _
  | slice _ _ _ i1 i2 i3 =>
    intro hs vis loc m s s' h
    simp only [SafeFE] at hs
    simp only [feval]
    exact (i1 hs.1 _ _ _ _ _ h).bind fun s s' v h => (i2 hs.2.1 _ _ _ _ _ h).bind fun s s' v h => (i3 hs.2.2 _ _ _ _ _ h).bind fun s s' v h => h.world ▸ h.prim _
  | fn hr _ =>
    intro hs vis loc m s s' h
    simp only [SafeFE] at hs
    simp only [feval]
    exact h.mkFn _ ⟨rfl, rfl, rfl, hs, hr⟩
  | call _ _ i1 i2 =>
    intro hs vis loc m s s' h
    simp only [SafeFE] at hs
    simp only [feval]
    exact (i1 hs.1 _ _ _ _ _ h).bind fun s s' v h => h.checkFn _ ((i2 hs.2 _ _ _ _ _ h).bind fun s s' vs h => h.apply hcall _ _ _)
  | mcall _ _ i1 i2 =>
    intro hs vis loc m s s' h
    simp only [SafeFE] at hs
    simp only [feval]
    exact (i1 hs.1 _ _ _ _ _ h).bind fun s s' v h => (h.world ▸ h.prim _ : SameR F _ _).bind fun s s' f h =>
      h.checkFn _ ((i2 hs.2 _ _ _ _ _ h).bind fun s s' vs h => h.apply hcall _ _ _)
  | ctx _ i1 =>
    intro hs vis loc m s s' h
    simp only [SafeFE] at hs
    simp only [feval]
    exact i1 hs _ _ _ _ _ h
  | sexpr _ i1 =>
    intro hs fuel vis m loc s s' h
    simp only [SafeFS] at hs
    simp only [fexec]
    exact (i1 hs _ _ _ _ _ h).bind fun s s' v h => ⟨h, rfl⟩
  | let_ _ i1 =>
    intro hs fuel vis m loc s s' h
    simp only [SafeFS] at hs
    simp only [fexec]
    exact (i1 hs _ _ _ _ _ h).bind fun s s' v h => ⟨h, rfl⟩
  | const_ _ i1 =>
    intro hs fuel vis m loc s s' h
    simp only [SafeFS] at hs
    simp only [fexec]
    exact (i1 hs _ _ _ _ _ h).bind fun s s' v h => ⟨h, rfl⟩
  | @multi ls _ _ _ i1 =>
    intro hs fuel vis m loc s s' h
    simp only [SafeFS] at hs
    simp only [fexec]
    refine (i1 hs _ _ _ _ _ h).bind fun s s' vs h => ?_
    have := SameSh.assignAll vis ls vs loc s s' h
    exact ⟨this.1, by rw [this.2]⟩
  | @assign x _ _ _ i1 =>
    intro hs fuel vis m loc s s' h
    simp only [SafeFS] at hs
    simp only [fexec]
    refine (i1 hs _ _ _ _ _ h).bind fun s s' v h => ?_
    have := h.assign vis loc x v
    exact ⟨this.1, by rw [this.2]⟩
  | set _ _ _ i1 i2 i3 =>
    intro hs fuel vis m loc s s' h
    simp only [SafeFS] at hs
    simp only [fexec]
    exact (i1 hs.1 _ _ _ _ _ h).bind fun s s' v h => (i2 hs.2.1 _ _ _ _ _ h).bind fun s s' v h => (i3 hs.2.2 _ _ _ _ _ h).bind fun s s' v h =>
      (h.world ▸ h.prim _ : SameR F _ _).bind fun s s' f h => ⟨h, rfl⟩
  | echo _ i1 =>
    intro hs fuel vis m loc s s' h
    simp only [SafeFS] at hs
    simp only [fexec]
    exact (i1 hs _ _ _ _ _ h).bind fun s s' v h => (h.world ▸ h.prim _ : SameR F _ _).bind fun s s' f h => ⟨⟨h.1, h.2, h.3, by rw [h.4], h.5, h.6⟩, rfl⟩
  | assert _ i1 =>
    intro hs fuel vis m loc s s' h
    simp only [SafeFS] at hs
    simp only [fexec]
    refine (i1 hs _ _ _ _ _ h).bind fun s s' v h => ?_
    split
    · exact (h.world ▸ h.prim _ : SameR F _ _).bind fun s s' f h => ⟨h, rfl⟩
    · exact ⟨h, rfl⟩
  | ret _ i1 =>
    intro hs fuel vis m loc s s' h
    simp only [SafeFS] at hs
    simp only [fexec]
    exact (i1 hs _ _ _ _ _ h).bind fun s s' v h => ⟨h, rfl⟩
  | block _ i1 =>
    intro hs fuel vis m loc s s' h
    simp only [SafeFS] at hs
    simp only [fexec]
    exact (i1 hs _ _ _ _ _ _ h).andThen fun s s' v h => ⟨h, rfl⟩
  | ifThen _ _ i1 i2 =>
    intro hs fuel vis m loc s s' h
    simp only [SafeFS] at hs
    simp only [fexec]
    refine (i1 hs.1 _ _ _ _ _ h).bind fun s s' v h => ?_
    split
    · exact ⟨h, rfl⟩
    · exact i2 hs.2 _ _ _ _ _ _ h
  | ifElse _ _ _ i1 i2 i3 =>
    intro hs fuel vis m loc s s' h
    simp only [SafeFS] at hs
    simp only [fexec]
    refine (i1 hs.1 _ _ _ _ _ h).bind fun s s' v h => ?_
    split
    · exact i3 hs.2.2 _ _ _ _ _ _ h
    · exact i2 hs.2.1 _ _ _ _ _ _ h
  | while_ _ _ i1 i2 =>
    intro hs fuel vis m loc s s' h
    simp only [SafeFS] at hs
    simp only [fexec]
    refine same_floop ?_ ?_ _ _ _ _ h
    · intro loc s s' h; exact i1 hs.1 vis loc m s s' h
    · intro loc s s' h; exact i2 hs.2 fuel vis m loc s s' h
  | loop _ _ _ i1 i2 i3 =>
    intro hs fuel vis m loc s s' h
    simp only [SafeFS] at hs
    simp only [fexec]
    refine same_floopP ?_ ?_ ?_ _ _ _ _ h
    · intro loc s s' h; exact i1 hs.1 vis loc m s s' h
    · intro loc s s' h; exact i2 hs.2.1 fuel vis m loc s s' h
    · intro loc s s' h; exact i3 hs.2.2 fuel vis m loc s s' h
  | forIter _ _ i1 i2 =>
    intro hs fuel vis m loc s s' h
    simp only [SafeFS] at hs
    simp only [fexec]
    exact (i1 hs.1 _ _ _ _ _ h).bind fun s s' v h => by
      refine same_floopIter ?_ _ _ _ _ _ h
      intro loc s s' h; exact i2 hs.2 fuel vis m loc s s' h
  | fnDecl hr _ =>
    intro hs fuel vis m loc s s' h
    simp only [SafeFS] at hs
    simp only [fexec]
    refine SameR.bind (h.mkFn _ ⟨rfl, rfl, rfl, hs, hr⟩) ?_
    intro s s' v h
    exact ⟨h, rfl⟩
  | scons _ _ i1 i2 =>
    intro hs fuel vis m loc s s' h
    simp only [SafeFSs] at hs
    simp only [fexecAll]
    exact (i1 hs.1 _ _ _ _ _ _ h).andThen fun s s' loc h => i2 hs.2 _ _ _ _ _ _ h

/-- Calls of functions. -/
theorem callF_same : ∀ n, SameCalls F (callF F P Q label n)
  | 0 => fun c c' args s s' hc h => ⟨h, rfl⟩
  | n + 1 => by
    rintro ⟨ps, b, vis, m⟩ ⟨ps', b', vis', m'⟩ args s s' ⟨rfl, rfl, rfl, hs, hr⟩ h
    simp only [callF]
    refine (fred_sem (callF_same n) hr hs _ _ _ _ _ _ h).bind fun s s' r h => ?_
    split <;> exact ⟨h, rfl⟩

/-- The same meaning, for the statements of the file. -/
def FRedSemTop (F : FloatOps) (P : Prims W) (Q : W → Val → List Val → PRes W (List Val)) (label : Nat → Option Nat) : (c : FCat) → c.T → c.T → Prop
  | .stmt, e, e' => SafeFS F e → ∀ n s s', SameSh F s s' → SameR F (ftop F P Q label n e s) (ftop F P Q label n e' s')
  | .stmts, e, e' => SafeFSs F e → ∀ n s s', SameSh F s s' → SameR F (fprog F P Q label n e s) (fprog F P Q label n e' s')
  | _, _, _ => True

/-- A statement of the file which is not a declaration. -/
theorem ftop_other {st st' : FStmt} (h : FRed F .stmt st st')
    (h1 : ∀ n (s : Sh W), ftop F P Q label n st s = (fexec F P Q label (callF F P Q label n) n s.statics.length false st [] s).bind fun s _ => (s, .ok ()))
    (h2 : ∀ n (s : Sh W), ftop F P Q label n st' s = (fexec F P Q label (callF F P Q label n) n s.statics.length false st' [] s).bind fun s _ => (s, .ok ())) :
    FRedSemTop F P Q label .stmt st st' := by
  intro hs n s s' hh
  rw [h1, h2, hh.statics]
  exact (fred_sem (callF_same n) h hs _ _ _ _ _ _ hh).bind fun s s' r h => ⟨h, rfl⟩

theorem fred_semTop {c : FCat} {x y : c.T} (h : FRed F c x y) : FRedSemTop F P Q label c x y := by
  induction h with
  | @trans c x y z h1 h2 i1 i2 =>
    cases c with
    | stmt => exact fun hs n s s' h => (i1 hs n s s h.left).trans (i2 (fred_known h1 hs) n s s' h)
    | stmts => exact fun hs n s s' h => (i1 hs n s s h.left).trans (i2 (fred_known h1 hs) n s s' h)
    | _ => trivial
  | snil => exact fun hs n s s' h => ⟨h, rfl⟩
  | scons _ _ i1 i2 =>
    intro hs n s s' h
    simp only [SafeFSs] at hs
    simp only [fprog]
    exact (i1 hs.1 _ _ _ h).bind fun s s' _ h => i2 hs.2 _ _ _ h
  | let_ hr =>
    intro hs n s s' h
    simp only [SafeFS] at hs
    simp only [ftop, h.statics]
    exact (fred_sem (callF_same n) hr hs _ _ _ _ _ h).bind fun s s' r h => ⟨⟨by rw [h.1], h.2, h.3, h.4, h.5, h.6⟩, rfl⟩
  | const_ hr =>
    intro hs n s s' h
    simp only [SafeFS] at hs
    simp only [ftop, h.statics]
    exact (fred_sem (callF_same n) hr hs _ _ _ _ _ h).bind fun s s' r h => ⟨⟨by rw [h.1], h.2, h.3, h.4, h.5, h.6⟩, rfl⟩
  | multi hr =>
    intro hs n s s' h
    simp only [SafeFS] at hs
    simp only [ftop, h.statics]
    exact (fred_sem (callF_same n) hr hs _ _ _ _ _ h).bind fun s s' vs h => ⟨SameSh.assignTop _ _ _ _ h, rfl⟩
  | fnDecl hr =>
    intro hs n s s' h
    simp only [SafeFS] at hs
    simp only [ftop, h.statics]
    refine SameR.bind (h.mkFn _ ⟨rfl, rfl, rfl, hs, hr⟩) ?_
    intro s s' v h
    exact ⟨⟨by rw [h.1], h.2, h.3, h.4, h.5, h.6⟩, rfl⟩
  | brk => exact ftop_other .brk (fun _ _ => rfl) (fun _ _ => rfl)
  | cont => exact ftop_other .cont (fun _ _ => rfl) (fun _ _ => rfl)
  | sexpr h => exact ftop_other (.sexpr h) (fun _ _ => rfl) (fun _ _ => rfl)
  | assign h => exact ftop_other (.assign h) (fun _ _ => rfl) (fun _ _ => rfl)
  | set h1 h2 h3 => exact ftop_other (.set h1 h2 h3) (fun _ _ => rfl) (fun _ _ => rfl)
  | echo h => exact ftop_other (.echo h) (fun _ _ => rfl) (fun _ _ => rfl)
  | assert h => exact ftop_other (.assert h) (fun _ _ => rfl) (fun _ _ => rfl)
  | ret h => exact ftop_other (.ret h) (fun _ _ => rfl) (fun _ _ => rfl)
  | block h => exact ftop_other (.block h) (fun _ _ => rfl) (fun _ _ => rfl)
  | ifThen h1 h2 => exact ftop_other (.ifThen h1 h2) (fun _ _ => rfl) (fun _ _ => rfl)
  | ifElse h1 h2 h3 => exact ftop_other (.ifElse h1 h2 h3) (fun _ _ => rfl) (fun _ _ => rfl)
  | while_ h1 h2 => exact ftop_other (.while_ h1 h2) (fun _ _ => rfl) (fun _ _ => rfl)
  | loop h1 h2 h3 => exact ftop_other (.loop h1 h2 h3) (fun _ _ => rfl) (fun _ _ => rfl)
  | forIter h1 h2 => exact ftop_other (.forIter h1 h2) (fun _ _ => rfl) (fun _ _ => rfl)
  | _ => trivial

end
end Yasl
