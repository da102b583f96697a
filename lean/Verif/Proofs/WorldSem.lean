import Verif.Proofs.WorldOps
import Verif.Spec.FLang
set_option autoImplicit false
/-! # Programs with real lists and tables do what they do with sequences and maps -/
namespace Yasl

/-- The same state. -/
structure WSh (s : Sh World) (s' : Sh AWorld) : Prop where
  statics : s.statics = s'.statics
  globals : s.globals = s'.globals
  out : s.out = s'.out
  ncl : s.ncl = s'.ncl
  fns : s.fns = s'.fns
  world : WRep s.world s'.world

/-- The same result, where the specification says something. -/
def WSame {α : Type} (r : FRes World α) (r' : FRes AWorld α) : Prop := r'.2 = .error (.err .other) ∨ (WSh r.1 r'.1 ∧ r.2 = r'.2)

theorem WSame.mk {α : Type} {s : Sh World} {s' : Sh AWorld} {r : Except FErr α} (h : WSh s s') : WSame (s, r) (s', r) := .inr ⟨h, rfl⟩

theorem WSame.bind {α β : Type} {r : FRes World α} {r' : FRes AWorld α} {k : Sh World → α → FRes World β} {k' : Sh AWorld → α → FRes AWorld β} (h : WSame r r')
    (hk : ∀ s s' a, WSh s s' → WSame (k s a) (k' s' a)) : WSame (r.bind k) (r'.bind k') := by
  obtain ⟨s, e⟩ := r
  obtain ⟨s', e'⟩ := r'
  rcases h with h | ⟨h1, h2⟩
  · dsimp only at h; subst h; exact .inl rfl
  · dsimp only at h1 h2; subst h2
    cases e with
    | error e => exact .mk h1
    | ok a => exact hk _ _ _ h1

theorem WSh.prim {α : Type} {s : Sh World} {s' : Sh AWorld} (h : WSh s s') {r : PRes World α} {r' : PRes AWorld α} (hr : PSim r r') : WSame (s.prim r) (s'.prim r') := by
  obtain ⟨w, e⟩ := r
  obtain ⟨w', e'⟩ := r'
  rcases hr with hr | ⟨h1, h2⟩
  · dsimp only at hr; subst hr; exact .inl rfl
  · dsimp only at h1 h2; subst h1
    cases e <;> exact .mk ⟨h.1, h.2, h.3, h.4, h.5, h2⟩

theorem WSh.look {s : Sh World} {s' : Sh AWorld} (h : WSh s s') (vis : Nat) (loc : LEnv) (x : Name) : s.look vis loc x = s'.look vis loc x := by
  simp only [Sh.look, h.statics, h.globals]

theorem WSh.assign {s : Sh World} {s' : Sh AWorld} (h : WSh s s') (vis : Nat) (loc : LEnv) (x : Name) (v : Val) :
    WSh (s.assign vis loc x v).1 (s'.assign vis loc x v).1 ∧ (s.assign vis loc x v).2 = (s'.assign vis loc x v).2 := by
  simp only [Sh.assign, h.statics, h.globals]
  split
  · exact ⟨h, rfl⟩
  · split
    · exact ⟨⟨rfl, rfl, h.3, h.4, h.5, h.6⟩, rfl⟩
    · exact ⟨⟨rfl, rfl, h.3, h.4, h.5, h.6⟩, rfl⟩

theorem WSh.mkFn {s : Sh World} {s' : Sh AWorld} (h : WSh s s') (a : Option Nat) (c : Clo) : WSame (s.mkFn a c) (s'.mkFn a c) := by
  cases a with
  | some a => exact .mk ⟨h.1, h.2, h.3, h.4, by simp [h.5], h.6⟩
  | none => exact .inr ⟨⟨h.1, h.2, h.3, by simp [Sh.mkFn, h.4], by simp [Sh.mkFn, h.4, h.5], h.6⟩, by simp [Sh.mkFn, h.4]⟩

theorem WSh.checkFn {α : Type} {s : Sh World} {s' : Sh AWorld} (h : WSh s s') (f : Val) {k : Sh World → FRes World α} {k' : Sh AWorld → FRes AWorld α}
    (hk : WSame (k s) (k' s')) : WSame (checkFn f s k) (checkFn f s' k') := by
  unfold Yasl.checkFn
  split
  · exact hk
  · exact .mk h

theorem WSame.andThen {r : FSRes World} {r' : FSRes AWorld} {k : Sh World → LEnv → FSRes World} {k' : Sh AWorld → LEnv → FSRes AWorld} (h : WSame r r')
    (hk : ∀ s s' loc, WSh s s' → WSame (k s loc) (k' s' loc)) : WSame (r.andThen k) (r'.andThen k') := by
  obtain ⟨s, e⟩ := r
  obtain ⟨s', e'⟩ := r'
  rcases h with h | ⟨h1, h2⟩
  · dsimp only at h; subst h; exact .inl rfl
  · dsimp only at h1 h2; subst h2
    rcases e with e | ⟨loc, _ | _ | _ | _⟩ <;> first | exact .mk h1 | exact hk _ _ _ h1

theorem WSame.round {r : FSRes World} {r' : FSRes AWorld} {n : Nat} {k : Sh World → LEnv → FSRes World} {k' : Sh AWorld → LEnv → FSRes AWorld} (h : WSame r r')
    (hk : ∀ s s' loc, WSh s s' → WSame (k s loc) (k' s' loc)) : WSame (r.round n k) (r'.round n k') := by
  obtain ⟨s, e⟩ := r
  obtain ⟨s', e'⟩ := r'
  rcases h with h | ⟨h1, h2⟩
  · dsimp only at h; subst h; exact .inl rfl
  · dsimp only at h1 h2; subst h2
    rcases e with e | ⟨loc, _ | _ | _ | _⟩ <;> first | exact .mk h1 | exact hk _ _ _ h1

theorem w_floop {cond : LEnv → Sh World → FRes World Val} {cond' : LEnv → Sh AWorld → FRes AWorld Val} {body : LEnv → Sh World → FSRes World}
    {body' : LEnv → Sh AWorld → FSRes AWorld} (hc : ∀ loc s s', WSh s s' → WSame (cond loc s) (cond' loc s'))
    (hb : ∀ loc s s', WSh s s' → WSame (body loc s) (body' loc s')) : ∀ fuel loc s s', WSh s s' → WSame (floop cond body fuel loc s) (floop cond' body' fuel loc s')
  | 0, _, _, _, h => .mk h
  | fuel + 1, loc, s, s', h => by
    rw [floop, floop]
    refine (hc loc s s' h).bind fun s s' v h => ?_
    split
    · exact .mk h
    · exact (hb loc s s' h).round fun s s' loc h => w_floop hc hb fuel loc s s' h

theorem w_floopP {cond : LEnv → Sh World → FRes World Val} {cond' : LEnv → Sh AWorld → FRes AWorld Val} {body post : LEnv → Sh World → FSRes World}
    {body' post' : LEnv → Sh AWorld → FSRes AWorld} (hc : ∀ loc s s', WSh s s' → WSame (cond loc s) (cond' loc s'))
    (hb : ∀ loc s s', WSh s s' → WSame (body loc s) (body' loc s')) (hp : ∀ loc s s', WSh s s' → WSame (post loc s) (post' loc s')) :
    ∀ fuel loc s s', WSh s s' → WSame (floopP cond body post fuel loc s) (floopP cond' body' post' fuel loc s')
  | 0, _, _, _, h => .mk h
  | fuel + 1, loc, s, s', h => by
    rw [floopP, floopP]
    refine (hc loc s s' h).bind fun s s' v h => ?_
    split
    · exact .mk h
    · exact (hb loc s s' h).round fun s s' loc h => (hp loc s s' h).andThen fun s s' loc h => w_floopP hc hb hp fuel loc s s' h

section
variable {F : FloatOps} {P : Prims World} {A : Prims AWorld} {Q : World → Val → List Val → PRes World (List Val)} {B : AWorld → Val → List Val → PRes AWorld (List Val)}
  {label : Nat → Option Nat} (hP : PrimSim P A) (hQ : ∀ w a fn args, WRep w a → PSim (Q w fn args) (B a fn args))
include hP

theorem w_floopIter {x : Name} {coll : Val} {body : LEnv → Sh World → FSRes World} {body' : LEnv → Sh AWorld → FSRes AWorld}
    (hb : ∀ loc s s', WSh s s' → WSame (body loc s) (body' loc s')) :
    ∀ fuel i loc s s', WSh s s' → WSame (floopIter P x coll body fuel i loc s) (floopIter A x coll body' fuel i loc s')
  | 0, _, _, _, _, h => .mk h
  | fuel + 1, i, loc, s, s', h => by
    rw [floopIter, floopIter]
    refine (h.prim (hP.next _ _ _ _ h.world)).bind fun s s' r h => ?_
    split
    · exact .mk h
    · exact (hb _ s s' h).round fun s s' loc h => w_floopIter hb fuel _ loc s s' h

theorem w_bin {w : World} {a : AWorld} (r : WRep w a) (o : BinOp) (x y : Val) : PSim (applyBin F P w o x y) (applyBin F A a o x y) := by
  unfold applyBin
  split <;> first | exact .mk r _ | exact hP.binary _ _ _ _ _ r

theorem w_un {w : World} {a : AWorld} (r : WRep w a) (o : UnOp) (x : Val) : PSim (applyUn P w o x) (applyUn A a o x) := by
  unfold applyUn
  split <;> first | exact .mk r _ | exact hP.unary _ _ _ _ r

variable {call : Clo → List Val → Sh World → FRes World Val} {call' : Clo → List Val → Sh AWorld → FRes AWorld Val}
  (hcall : ∀ c args s s', WSh s s' → WSame (call c args s) (call' c args s'))
include hQ hcall

omit hP in
theorem w_apply {s : Sh World} {s' : Sh AWorld} (h : WSh s s') (m : Bool) (f : Val) (args : List Val) : WSame (apply Q call m f args s) (apply B call' m f args s') := by
  unfold Yasl.apply
  split
  · refine (h.prim (hQ _ _ _ _ h.world)).bind fun s s' rs h => ?_
    split
    · split <;> exact .mk h
    · exact .mk h
  · rw [h.fns]
    split
    · exact hcall _ _ _ _ h
    · exact .mk h

mutual
theorem w_feval (vis : Nat) (loc : LEnv) : ∀ (e : FExpr) (m : Bool) (s : Sh World) (s' : Sh AWorld), WSh s s' →
    WSame (feval F P Q label call vis loc e m s) (feval F A B label call' vis loc e m s')
  | .lit l, m, s, s', h => by simp only [feval]; exact .mk h
  | .var x, m, s, s', h => by simp only [feval, h.look]; split <;> exact .mk h
  | .un o e, m, s, s', h => by
    simp only [feval]
    exact (w_feval vis loc e m s s' h).bind fun s s' v h => h.prim (w_un hP h.world _ _)
  | .bin (.op o) l r, m, s, s', h => by
    simp only [feval]
    exact (w_feval vis loc l m s s' h).bind fun s s' v h => (w_feval vis loc r m s s' h).bind fun s s' v h => h.prim (w_bin hP h.world _ _ _)
  | .bin .ne l r, m, s, s', h => by
    simp only [feval]
    refine WSame.bind ?_ (fun s s' v h => ?_)
    · exact (w_feval vis loc l m s s' h).bind fun s s' v h => (w_feval vis loc r m s s' h).bind fun s s' v h => h.prim (w_bin hP h.world _ _ _)
    · exact .mk h
  | .bin .nid l r, m, s, s', h => by
    simp only [feval]
    refine WSame.bind ?_ (fun s s' v h => ?_)
    · exact (w_feval vis loc l m s s' h).bind fun s s' v h => (w_feval vis loc r m s s' h).bind fun s s' v h => h.prim (w_bin hP h.world _ _ _)
    · exact .mk h
  | .bin .and l r, m, s, s', h => by
    simp only [feval]
    refine (w_feval vis loc l m s s' h).bind fun s s' v h => ?_
    split
    · exact .mk h
    · exact w_feval vis loc r m s s' h
  | .bin .or l r, m, s, s', h => by
    simp only [feval]
    refine (w_feval vis loc l m s s' h).bind fun s s' v h => ?_
    split
    · exact w_feval vis loc r m s s' h
    · exact .mk h
  | .bin .coalesce l r, m, s, s', h => by
    simp only [feval]
    refine (w_feval vis loc l m s s' h).bind fun s s' v h => ?_
    split
    · exact w_feval vis loc r m s s' h
    · exact .mk h
  | .tri c x y, m, s, s', h => by
    simp only [feval]
    refine (w_feval vis loc c m s s' h).bind fun s s' v h => ?_
    split
    · exact w_feval vis loc y m s s' h
    · exact w_feval vis loc x m s s' h
  | .list es, m, s, s', h => by
    simp only [feval]
    exact (w_fevalAll vis loc es m s s' h).bind fun s s' v h => h.prim (hP.newList _ _ _ h.world)
  | .table es, m, s, s', h => by
    simp only [feval]
    exact (w_fevalAll vis loc es m s s' h).bind fun s s' v h => h.prim (hP.newTable _ _ _ h.world)
  | .get c k, m, s, s', h => by
    simp only [feval]
    exact (w_feval vis loc c m s s' h).bind fun s s' v h => (w_feval vis loc k m s s' h).bind fun s s' v h => h.prim (hP.get _ _ _ _ h.world)
  | .slice c x y, m, s, s', h => by
    simp only [feval]
    exact (w_feval vis loc c m s s' h).bind fun s s' v h => (w_feval vis loc x m s s' h).bind fun s s' v h => (w_feval vis loc y m s s' h).bind fun s s' v h =>
      h.prim (hP.slice _ _ _ _ _ h.world)
  | .fn id params body, m, s, s', h => by
    simp only [feval]
    exact h.mkFn _ _
  | .call g args, m, s, s', h => by
    simp only [feval]
    exact (w_feval vis loc g m s s' h).bind fun s s' v h => h.checkFn _ ((w_fevalAll vis loc args m s s' h).bind fun s s' vs h => w_apply hQ hcall h _ _ _)
  | .mcall o name args, m, s, s', h => by
    simp only [feval]
    exact (w_feval vis loc o m s s' h).bind fun s s' v h => (h.prim (hP.get _ _ _ _ h.world)).bind fun s s' g h =>
      h.checkFn _ ((w_fevalAll vis loc args m s s' h).bind fun s s' vs h => w_apply hQ hcall h _ _ _)
  | .ctx all e, m, s, s', h => by
    simp only [feval]
    exact w_feval vis loc e all s s' h
theorem w_fevalAll (vis : Nat) (loc : LEnv) : ∀ (es : FExprs) (m : Bool) (s : Sh World) (s' : Sh AWorld), WSh s s' →
    WSame (fevalAll F P Q label call vis loc es m s) (fevalAll F A B label call' vis loc es m s')
  | .nil, m, s, s', h => by simp only [fevalAll]; exact .mk h
  | .cons e es, m, s, s', h => by
    simp only [fevalAll]
    exact (w_feval vis loc e m s s' h).bind fun s s' v h => (w_fevalAll vis loc es m s s' h).bind fun s s' vs h => .mk h
end

omit hP hQ hcall in
theorem w_assignAll (vis : Nat) : ∀ (ls : List FTarget) (vs : List Val) (loc : LEnv) (s : Sh World) (s' : Sh AWorld), WSh s s' →
    WSh (assignAll vis ls vs loc s).1 (assignAll vis ls vs loc s').1 ∧ (assignAll vis ls vs loc s).2 = (assignAll vis ls vs loc s').2
  | [], vs, loc, s, s', h => by simp only [assignAll]; exact ⟨h, trivial⟩
  | .let_ x :: ls, [], loc, s, s', h => by simp only [assignAll]; exact ⟨h, trivial⟩
  | .const_ x :: ls, [], loc, s, s', h => by simp only [assignAll]; exact ⟨h, trivial⟩
  | .assign x :: ls, [], loc, s, s', h => by simp only [assignAll]; exact ⟨h, trivial⟩
  | .let_ x :: ls, v :: vs, loc, s, s', h => by simp only [assignAll]; exact w_assignAll vis ls vs _ s s' h
  | .const_ x :: ls, v :: vs, loc, s, s', h => by simp only [assignAll]; exact w_assignAll vis ls vs _ s s' h
  | .assign x :: ls, v :: vs, loc, s, s', h => by
    have h1 := h.assign vis loc x v
    simp only [assignAll]
    rw [h1.2]
    exact w_assignAll vis ls vs _ _ _ h1.1

omit hP hQ hcall in
theorem w_assignTop : ∀ (ls : List FTarget) (vs : List Val) (s : Sh World) (s' : Sh AWorld), WSh s s' → WSh (assignTop ls vs s) (assignTop ls vs s')
  | [], vs, s, s', h => by simp only [assignTop]; exact h
  | .let_ x :: ls, [], s, s', h => by simp only [assignTop]; exact h
  | .const_ x :: ls, [], s, s', h => by simp only [assignTop]; exact h
  | .assign x :: ls, [], s, s', h => by simp only [assignTop]; exact h
  | .let_ x :: ls, v :: vs, s, s', h => by simp only [assignTop]; exact w_assignTop ls vs _ _ ⟨by rw [h.1], h.2, h.3, h.4, h.5, h.6⟩
  | .const_ x :: ls, v :: vs, s, s', h => by simp only [assignTop]; exact w_assignTop ls vs _ _ ⟨by rw [h.1], h.2, h.3, h.4, h.5, h.6⟩
  | .assign x :: ls, v :: vs, s, s', h => by
    simp only [assignTop]
    rw [h.statics]
    exact w_assignTop ls vs _ _ (h.assign _ _ _ _).1

mutual
theorem w_fexec (fuel vis : Nat) (m : Bool) : ∀ (st : FStmt) (loc : LEnv) (s : Sh World) (s' : Sh AWorld), WSh s s' →
    WSame (fexec F P Q label call fuel vis m st loc s) (fexec F A B label call' fuel vis m st loc s')
  | .expr e, loc, s, s', h => by
    simp only [fexec]
    exact (w_feval hP hQ hcall vis loc e m s s' h).bind fun s s' v h => .mk h
  | .let_ x e, loc, s, s', h => by
    simp only [fexec]
    exact (w_feval hP hQ hcall vis loc e m s s' h).bind fun s s' v h => .mk h
  | .const_ x e, loc, s, s', h => by
    simp only [fexec]
    exact (w_feval hP hQ hcall vis loc e m s s' h).bind fun s s' v h => .mk h
  | .multi ls es, loc, s, s', h => by
    simp only [fexec]
    refine (w_fevalAll hP hQ hcall vis loc es m s s' h).bind fun s s' vs h => ?_
    have := w_assignAll vis ls vs loc s s' h
    exact .inr ⟨this.1, by rw [this.2]⟩
  | .assign x e, loc, s, s', h => by
    simp only [fexec]
    refine (w_feval hP hQ hcall vis loc e m s s' h).bind fun s s' v h => ?_
    have := h.assign vis loc x v
    exact .inr ⟨this.1, by rw [this.2]⟩
  | .set c k v, loc, s, s', h => by
    simp only [fexec]
    exact (w_feval hP hQ hcall vis loc c m s s' h).bind fun s s' _ h => (w_feval hP hQ hcall vis loc k m s s' h).bind fun s s' _ h =>
      (w_feval hP hQ hcall vis loc v m s s' h).bind fun s s' _ h => (h.prim (hP.set _ _ _ _ _ h.world)).bind fun s s' _ h => .mk h
  | .echo e, loc, s, s', h => by
    simp only [fexec]
    exact (w_feval hP hQ hcall vis loc e m s s' h).bind fun s s' v h => (h.prim (hP.tostr _ _ _ h.world)).bind fun s s' t h =>
      .mk ⟨h.1, h.2, by rw [h.3], h.4, h.5, h.6⟩
  | .assert e, loc, s, s', h => by
    simp only [fexec]
    refine (w_feval hP hQ hcall vis loc e m s s' h).bind fun s s' v h => ?_
    split
    · exact (h.prim (hP.tostr _ _ _ h.world)).bind fun s s' t h => .mk h
    · exact .mk h
  | .block ss, loc, s, s', h => by
    simp only [fexec]
    exact (w_fexecAll fuel vis m ss loc s s' h).andThen fun s s' v h => .mk h
  | .ifThen c t, loc, s, s', h => by
    simp only [fexec]
    refine (w_feval hP hQ hcall vis loc c m s s' h).bind fun s s' v h => ?_
    split
    · exact .mk h
    · exact w_fexec fuel vis m t loc s s' h
  | .ifElse c t e, loc, s, s', h => by
    simp only [fexec]
    refine (w_feval hP hQ hcall vis loc c m s s' h).bind fun s s' v h => ?_
    split
    · exact w_fexec fuel vis m e loc s s' h
    · exact w_fexec fuel vis m t loc s s' h
  | .while_ c body, loc, s, s', h => by
    simp only [fexec]
    refine w_floop ?_ ?_ _ _ _ _ h
    · intro loc s s' h; exact w_feval hP hQ hcall vis loc c m s s' h
    · intro loc s s' h; exact w_fexec fuel vis m body loc s s' h
  | .loop c body post, loc, s, s', h => by
    simp only [fexec]
    refine w_floopP ?_ ?_ ?_ _ _ _ _ h
    · intro loc s s' h; exact w_feval hP hQ hcall vis loc c m s s' h
    · intro loc s s' h; exact w_fexec fuel vis m body loc s s' h
    · intro loc s s' h; exact w_fexec fuel vis m post loc s s' h
  | .forIter x coll body, loc, s, s', h => by
    simp only [fexec]
    refine (w_feval hP hQ hcall vis loc coll m s s' h).bind ?_
    intro s s' v h
    refine w_floopIter hP ?_ _ _ _ _ _ h
    intro loc s s' h; exact w_fexec fuel vis m body loc s s' h
  | .brk, loc, s, s', h => by simp only [fexec]; exact .mk h
  | .cont, loc, s, s', h => by simp only [fexec]; exact .mk h
  | .ret e, loc, s, s', h => by
    simp only [fexec]
    exact (w_feval hP hQ hcall vis loc e m s s' h).bind fun s s' v h => .mk h
  | .fnDecl x id params body, loc, s, s', h => by
    simp only [fexec]
    refine WSame.bind (h.mkFn _ _) ?_
    intro s s' v h
    exact .mk h
theorem w_fexecAll (fuel vis : Nat) (m : Bool) : ∀ (ss : FStmts) (loc : LEnv) (s : Sh World) (s' : Sh AWorld), WSh s s' →
    WSame (fexecAll F P Q label call fuel vis m ss loc s) (fexecAll F A B label call' fuel vis m ss loc s')
  | .nil, loc, s, s', h => by simp only [fexecAll]; exact .mk h
  | .cons st ss, loc, s, s', h => by
    simp only [fexecAll]
    exact (w_fexec fuel vis m st loc s s' h).andThen fun s s' loc h => w_fexecAll fuel vis m ss loc s s' h
end

omit hcall in
theorem w_callF : ∀ (n : Nat) (c : Clo) (args : List Val) (s : Sh World) (s' : Sh AWorld), WSh s s' → WSame (callF F P Q label n c args s) (callF F A B label n c args s')
  | 0, c, args, s, s', h => by rw [callF, callF]; exact .mk h
  | n + 1, c, args, s, s', h => by
    rw [callF, callF]
    refine (w_fexecAll hP hQ (w_callF n) n _ _ _ _ _ _ h).bind fun s s' r h => ?_
    split <;> exact .mk h

omit hcall in
theorem w_ftop (n : Nat) (st : FStmt) {s : Sh World} {s' : Sh AWorld} (h : WSh s s') : WSame (ftop F P Q label n st s) (ftop F A B label n st s') := by
  have ev := fun (e : FExpr) => w_feval (F := F) (label := label) hP hQ (w_callF hP hQ (F := F) (label := label) n) s'.statics.length [] e false s s' h
  have evs := fun (es : FExprs) => w_fevalAll (F := F) (label := label) hP hQ (w_callF hP hQ (F := F) (label := label) n) s'.statics.length [] es false s s' h
  have ex := w_fexec (F := F) (label := label) hP hQ (w_callF hP hQ (F := F) (label := label) n) n s'.statics.length false st [] s s' h
  unfold ftop
  rw [h.statics]
  split
  · exact (ev _).bind fun s s' v h => .mk ⟨by rw [h.1], h.2, h.3, h.4, h.5, h.6⟩
  · exact (ev _).bind fun s s' v h => .mk ⟨by rw [h.1], h.2, h.3, h.4, h.5, h.6⟩
  · exact (evs _).bind fun s s' vs h => .mk (w_assignTop _ _ _ _ h)
  · refine WSame.bind (h.mkFn _ _) ?_
    intro s s' v h
    exact .mk ⟨by rw [h.1], h.2, h.3, h.4, h.5, h.6⟩
  · exact ex.bind fun s s' v h => .mk h

omit hcall in
theorem w_fprog (n : Nat) : ∀ (ss : FStmts) (s : Sh World) (s' : Sh AWorld), WSh s s' → WSame (fprog F P Q label n ss s) (fprog F A B label n ss s')
  | .nil, s, s', h => by rw [fprog, fprog]; exact .mk h
  | .cons st ss, s, s', h => by
    rw [fprog, fprog]
    exact (w_ftop hP hQ n st h).bind fun s s' _ h => w_fprog n ss s s' h

end
end Yasl
