import Verif.Spec.Static
import Verif.Model.FCompile
set_option autoImplicit false
/-! # Which programs the compiler refuses: the proofs -/
namespace Yasl

/-! ## Once refused, always refused -/

theorem declParams_mono : ∀ (ps : List Name) (c : CState), (declParams ps c).ok = true → c.ok = true
  | [], _, h => h
  | x :: ps, c, h => by
    have h1 := declParams_mono ps _ h
    revert h1
    unfold CState.declVar CState.intern CState.error
    split
    · dsimp only; split <;> simp
    · dsimp only; split <;> exact id

theorem intern_ok (c : CState) (v : Val) : (c.intern v).2.ok = c.ok := by unfold CState.intern; split <;> rfl
theorem intern_scopes (c : CState) (v : Val) : (c.intern v).2.scopes = c.scopes := by unfold CState.intern; split <;> rfl
theorem intern_globals (c : CState) (v : Val) : (c.intern v).2.globals = c.globals := by unfold CState.intern; split <;> rfl
theorem intern_checkpoints (c : CState) (v : Val) : (c.intern v).2.checkpoints = c.checkpoints := by unfold CState.intern; split <;> rfl

/-- The parts of the state which the rules depend on. -/
structure Facts where
  ok : Bool
  scopes : List Scope
  outer : List (List Scope)
  globals : Scope
  checkpoints : List Nat

/-- The parts of the state which the rules depend on. -/
def FState.facts (s : FState) : Facts := ⟨s.c.ok, s.c.scopes, s.outer, s.c.globals, s.c.checkpoints⟩

theorem facts_ok (s : FState) : s.c.ok = s.facts.ok := rfl

theorem lit_facts (l : FLit) (s : FState) : (s.on fun c => visitExpr l.expr c).facts = s.facts := by
  cases l <;> simp only [FState.facts, FState.on, FLit.expr, visitExpr, CState.pushLiteral, CState.literal, CState.op, CState.emit, CState.int]
  all_goals try split
  all_goals simp only [intern_ok, intern_scopes, intern_globals, intern_checkpoints]

theorem op_facts (s : FState) (o : Opc) : (s.op o).facts = s.facts := rfl
theorem emit_facts (s : FState) (b : Byte) : (s.emit b).facts = s.facts := rfl
theorem jump_facts (s : FState) (o : Opc) : (s.jump o).facts = s.facts := rfl
theorem patch_facts (s : FState) (i : Nat) : (s.patch i).facts = s.facts := rfl
theorem branchBack_facts (s : FState) (i : Nat) : (s.branchBack i).facts = s.facts := rfl
theorem short_facts (s : FState) (o : Opc) : (s.on fun c => c.shortcircuit o).facts = s.facts := rfl
theorem initCall_facts (s : FState) : s.initCall.facts = s.facts := rfl
theorem validated_facts (s s' : FState) : (s.validated s').facts = s'.facts := rfl
theorem expected_facts (s : FState) (n : Int) : ({ s with expected := n } : FState).facts = s.facts := rfl
theorem upval_facts (s : FState) (o : Byte) (x : Name) : (s.upval o x).facts = s.facts := rfl
theorem initMc_facts (s : FState) (n : Name) : (s.initMc n).facts = s.facts := by
  simp only [FState.initMc, FState.facts, FState.on, FState.emit, CState.int, CState.emit, intern_ok, intern_scopes, intern_globals, intern_checkpoints]

/-- What loading a variable leaves. -/
theorem loadVar_facts (s : FState) (x : Name) : (s.loadVar x).facts =
    { s.facts with ok := s.c.ok && ((scopeGet s.c.scopes x).isSome || inOuter s.outer x || (s.c.globals.get x).isSome) } := by
  unfold FState.loadVar
  by_cases h : scopeGet s.c.scopes x = none ∧ inOuter s.outer x = true
  · rw [if_pos h, upval_facts]; simp [FState.facts, h.2]
  · rw [if_neg h]
    rcases hs : scopeGet s.c.scopes x with _ | v
    · have ho : inOuter s.outer x = false := by simpa [hs] using h
      rcases hg : s.c.globals.get x with _ | w
      · simp [FState.on, CState.loadVar, hs, hg, ho, FState.facts, CState.error]
      · simp [FState.on, CState.loadVar, hs, hg, FState.facts, CState.op, CState.emit, CState.int]
    · simp [FState.on, CState.loadVar, hs, FState.facts, CState.op, CState.emit]

/-- The value of a name. -/
def lookVal (s : FState) (x : Name) : Option (BitVec 64) :=
  ((scopeGet s.c.scopes x).or (outerGet s.outer x)).or (s.c.globals.get x)

theorem inOuter_iff : ∀ (outer : List (List Scope)) (x : Name), inOuter outer x = (outerGet outer x).isSome
  | [], _ => rfl
  | scs :: outer, x => by
    have ih := inOuter_iff outer x
    unfold inOuter at ih ⊢
    rw [List.any_cons, ih, outerGet]
    rcases scopeGet scs x <;> simp

/-- What storing into a variable leaves. -/
theorem storeVar_facts (s : FState) (x : Name) : (s.storeVar x).facts =
    { s.facts with ok := s.c.ok && ((lookVal s x).map isConst == some false) } := by
  unfold FState.storeVar lookVal
  by_cases h : scopeGet s.c.scopes x = none ∧ inOuter s.outer x = true
  · rw [if_pos h]
    have ho := h.2
    rw [inOuter_iff] at ho
    rcases hx : outerGet s.outer x with _ | v
    · simp [hx] at ho
    · simp only [h.1, Option.none_or, Option.some_or]
      rcases hv : isConst v <;> simp [hv, FState.facts, FState.error, FState.on, CState.error, FState.upval, FState.emit, CState.emit]
  · rw [if_neg h]
    rcases hs : scopeGet s.c.scopes x with _ | v
    · have ho : inOuter s.outer x = false := by simpa [hs] using h
      rw [inOuter_iff] at ho
      have ho' : outerGet s.outer x = none := by simpa using ho
      rw [ho']
      rcases hg : s.c.globals.get x with _ | w
      · simp [FState.on, CState.storeVar, hs, hg, FState.facts, CState.error]
      · rcases hv : isConst w <;> simp [FState.on, CState.storeVar, hs, hg, hv, FState.facts, CState.op, CState.emit, CState.int, CState.error]
    · rcases hv : isConst v <;> simp [FState.on, CState.storeVar, hs, hv, FState.facts, CState.op, CState.emit, CState.error]

theorem loadVar_mono (s : FState) (x : Name) (h : (s.loadVar x).c.ok = true) : s.c.ok = true := by
  rw [facts_ok, loadVar_facts] at h
  simp only [Bool.and_eq_true] at h
  exact h.1

theorem storeVar_mono (s : FState) (x : Name) (h : (s.storeVar x).c.ok = true) : s.c.ok = true := by
  rw [facts_ok, storeVar_facts] at h
  simp only [Bool.and_eq_true] at h
  exact h.1

theorem declVar_mono (c : CState) (x : Name) (h : (c.declVar x).ok = true) : c.ok = true := declParams_mono [x] c h

theorem declare_mono (s : FState) (x : Name) (h : (s.declare x).c.ok = true) : s.c.ok = true := by
  unfold FState.declare at h
  by_cases hc : s.c.containsCur x = true
  · rw [if_pos hc] at h; cases h
  · rw [if_neg hc] at h; exact declVar_mono _ _ h

theorem fnEnter_mono (ps : List Name) (s : FState) (h : (s.fnEnter ps).c.ok = true) : s.c.ok = true :=
  declParams_mono ps { s.c with scopes := [[]] } h

theorem exitScope_ok (c : CState) : c.exitScope.ok = c.ok := by unfold CState.exitScope; split <;> rfl
theorem static_makeConst_ok (c : CState) (x : Name) : (c.makeConst x).ok = c.ok := by
  unfold CState.makeConst; split
  · split <;> rfl
  · rfl

theorem fnLeave_facts (id : Nat) (s s3 : FState) : (s.fnLeave id s3).facts =
    { s.facts with ok := s3.c.ok, globals := s3.c.globals, checkpoints := s3.c.checkpoints } := by
  have he : ∀ c : CState, c.exitScope.ok = c.ok ∧ c.exitScope.globals = c.globals ∧ c.exitScope.checkpoints = c.checkpoints := by
    intro c; unfold CState.exitScope; split <;> exact ⟨rfl, rfl, rfl⟩
  unfold FState.fnLeave
  generalize (if s3.used.headD false = true then opCRET else opRET) = b
  dsimp only
  split <;> simp only [FState.facts, FState.on, FState.patch, CState.patch, FState.op, FState.emit, CState.op, CState.emit, he]

/-- An expression as a statement. -/
theorem visitFS_expr_facts (e : FExpr) (s : FState) : (visitFS (.expr e) s).facts = (visitFE e s).facts := by
  cases e
  case lit l => rw [visitFE, lit_facts, visitFS]
  case var x => rw [visitFE, visitFS, validated_facts]
  all_goals rw [visitFS, op_facts] <;> (intro _ h; cases h)

theorem visitTargets_mono : ∀ (ls : List FTarget) (s : FState), (visitTargets ls s).c.ok = true → s.c.ok = true
  | [], s, h => h
  | .assign x :: ls, s, h => by
    rw [visitTargets] at h
    by_cases hc : (!s.contains x) = true
    · rw [if_pos hc] at h; cases h
    · rw [if_neg hc] at h
      have h' := visitTargets_mono ls _ h
      have h'' := storeVar_mono _ _ h'
      exact h''
  | .let_ x :: ls, s, h => by
    rw [visitTargets] at h
    by_cases hc : s.c.containsCur x = true
    · rw [if_pos hc] at h; cases h
    · rw [if_neg hc] at h
      have h' := visitTargets_mono ls _ h
      exact declare_mono _ _ h'
  | .const_ x :: ls, s, h => by
    rw [visitTargets] at h
    by_cases hc : s.c.containsCur x = true
    · rw [if_pos hc] at h; cases h
    · rw [if_neg hc] at h
      have h' : (CState.makeConst (s.declare x).c x).ok = true := visitTargets_mono ls _ h
      rw [static_makeConst_ok] at h'
      exact declare_mono _ _ h'

mutual
theorem visitFE_mono : ∀ (e : FExpr) (s : FState), (visitFE e s).c.ok = true → s.c.ok = true
  | .lit l, s, h => by
    unfold visitFE at h
    rw [facts_ok, lit_facts] at h; exact h
  | .var x, s, h => loadVar_mono s x (by unfold visitFE at h; exact h)
  | .un o e, s, h => visitFE_mono e s (by unfold visitFE at h; exact h)
  | .bin o l r, s, h => by
    cases o <;> unfold visitFE at h <;> have h' := visitFE_mono r _ h <;> exact visitFE_mono l s h'
  | .tri c a b, s, h => by
    unfold visitFE at h; have h' := visitFE_mono b _ h; have h'' := visitFE_mono a _ h'; have h''' := visitFE_mono c _ h''; exact h'''
  | .list es, s, h => by unfold visitFE at h; have h' := visitFEs_mono es _ h; exact h'
  | .table es, s, h => by unfold visitFE at h; have h' := visitFEs_mono es _ h; exact h'
  | .get c k, s, h => by unfold visitFE at h; have h' := visitFE_mono k _ h; have h'' := visitFE_mono c _ h'; exact h''
  | .slice c a b, s, h => by unfold visitFE at h; have h' := visitFE_mono b _ h; have h'' := visitFE_mono a _ h'; have h''' := visitFE_mono c _ h''; exact h'''
  | .fn id ps body, s, h => by
    unfold visitFE at h
    rw [facts_ok, fnLeave_facts] at h
    have h' := visitFSs_mono body _ h; have h'' := fnEnter_mono ps _ h'; exact h''
  | .call f args, s, h => by unfold visitFE at h; have h' := visitFEs_mono args _ h; have h'' := visitFE_mono f _ h'; exact h''
  | .mcall o n args, s, h => by
    unfold visitFE at h
    have h1 := visitFEs_mono args _ h
    rw [facts_ok, initMc_facts] at h1
    have h1' := visitFE_mono o _ h1; exact h1'
  | .ctx all e, s, h => by unfold visitFE at h; have h' := visitFE_mono e _ h; exact h'
theorem visitFEs_mono : ∀ (es : FExprs) (s : FState), (visitFEs es s).c.ok = true → s.c.ok = true
  | .nil, s, h => by unfold visitFEs at h; exact h
  | .cons e es, s, h => by unfold visitFEs at h; have h' := visitFEs_mono es _ h; have h'' := visitFE_mono e _ h'; exact h''
theorem visitFS_mono : ∀ (st : FStmt) (s : FState), (visitFS st s).c.ok = true → s.c.ok = true
  | .expr e, s, h => by
    rw [facts_ok, visitFS_expr_facts] at h
    exact visitFE_mono e s h
  | .let_ x e, s, h => by unfold visitFS at h; have h' := declare_mono _ _ h; have h'' := visitFE_mono e _ h'; exact h''
  | .const_ x e, s, h => by
    unfold visitFS at h
    have h1 : (CState.makeConst ((visitFE e s).declare x).c x).ok = true := h
    rw [static_makeConst_ok] at h1
    have h1' := declare_mono _ _ h1; have h1'' := visitFE_mono e _ h1'; exact h1''
  | .assign x e, s, h => by
    unfold visitFS at h
    by_cases hc : (!s.contains x) = true
    · rw [if_pos hc] at h; cases h
    · rw [if_neg hc] at h; have h' := storeVar_mono _ _ h; have h'' := visitFE_mono e _ h'; exact h''
  | .multi ls es, s, h => by unfold visitFS at h; have h' := visitTargets_mono ls _ h; have h'' := visitFEs_mono es _ h'; exact h''
  | .set c k v, s, h => by unfold visitFS at h; have h' := visitFE_mono v _ h; have h'' := visitFE_mono k _ h'; have h''' := visitFE_mono c _ h''; exact h'''
  | .echo e, s, h => by unfold visitFS at h; have h' := visitFE_mono e _ h; exact h'
  | .assert e, s, h => by unfold visitFS at h; have h' := visitFE_mono e _ h; exact h'
  | .block ss, s, h => by
    unfold visitFS at h
    have h1 : (CState.exitScope (visitFSs ss (s.on fun c => c.enterScope)).c).ok = true := h
    rw [exitScope_ok] at h1
    have h1' := visitFSs_mono ss _ h1; exact h1'
  | .ifThen c t, s, h => by
    unfold visitFS at h
    by_cases h1 : c.truthyNode = true
    · rw [if_pos h1] at h; have h' := visitFS_mono t _ h; exact h'
    · rw [if_neg h1] at h
      by_cases h2 : c.falseyNode = true
      · rw [if_pos h2] at h; have h' := visitFS_mono t _ h; exact h'
      · rw [if_neg h2] at h; have h' := visitFS_mono t _ h; have h'' := visitFE_mono c _ h'; exact h''
  | .ifElse c t e, s, h => by
    unfold visitFS at h
    by_cases h1 : c.truthyNode = true
    · rw [if_pos h1] at h; have h' := visitFS_mono e _ h; have h'' := visitFS_mono t _ h'; exact h''
    · rw [if_neg h1] at h
      by_cases h2 : c.falseyNode = true
      · rw [if_pos h2] at h; have h' := visitFS_mono e _ h; have h'' := visitFS_mono t _ h'; exact h''
      · rw [if_neg h2] at h; have h' := visitFS_mono e _ h; have h'' := visitFS_mono t _ h'; have h''' := visitFE_mono c _ h''; exact h'''
  | .while_ c body, s, h => by
    unfold visitFS at h
    by_cases h2 : c.falseyNode = true
    · rw [if_pos h2] at h; have h' := visitFS_mono body _ h; exact h'
    · rw [if_neg h2] at h; have h' := visitFS_mono body _ h; have h'' := visitFE_mono c _ h'; exact h''
  | .loop c body post, s, h => by
    unfold visitFS at h
    by_cases h2 : c.falseyNode = true
    · rw [if_pos h2] at h; have h' := visitFS_mono post _ h; have h'' := visitFS_mono body _ h'; exact h''
    · rw [if_neg h2] at h; have h' := visitFS_mono body _ h; have h'' := visitFE_mono c _ h'; have h''' := visitFS_mono post _ h''; exact h'''
  | .forIter x coll body, s, h => by
    unfold visitFS at h
    dsimp only at h
    have h1 : ∀ f : FState, ((f.op .ENDFOR).on fun c => c.exitScope.rmCheckpoints).c.ok = f.c.ok := fun f => exitScope_ok (f.op .ENDFOR).c
    rw [h1] at h
    have h2 := storeVar_mono _ _ (visitFS_mono body _ h)
    have h2' := declVar_mono _ _ h2; have h2'' := visitFE_mono coll _ h2'; exact h2''
  | .brk, s, h => by
    unfold visitFS at h
    rcases hc : s.c.checkpoints with _ | ⟨a, b⟩ <;> rw [hc] at h
    · cases h
    · exact h
  | .cont, s, h => by
    unfold visitFS at h
    rcases hc : s.c.checkpoints with _ | ⟨a, b⟩ <;> rw [hc] at h
    · cases h
    · exact h
  | .ret e, s, h => by
    unfold visitFS at h
    by_cases h2 : s.outer = []
    · rw [if_pos h2] at h; cases h
    · rw [if_neg h2] at h; have h' := visitFE_mono e _ h; exact h'
  | .fnDecl x id ps body, s, h => by
    unfold visitFS at h
    by_cases h2 : s.c.containsCur x = true
    · rw [if_pos h2] at h; cases h
    · rw [if_neg h2] at h
      dsimp only at h
      rw [facts_ok, fnLeave_facts] at h
      have h' := visitFSs_mono body _ h; have h'' := fnEnter_mono ps _ h'; have h''' := declVar_mono s.c _ h''; exact h'''
theorem visitFSs_mono : ∀ (ss : FStmts) (s : FState), (visitFSs ss s).c.ok = true → s.c.ok = true
  | .nil, s, h => by unfold visitFSs at h; exact h
  | .cons st ss, s, h => by unfold visitFSs at h; have h' := visitFSs_mono ss _ h; have h'' := visitFS_mono st _ h'; exact h''
end

/-! ## What the compiler knows is what can be seen -/

/-- The variables of the scopes, without their places. -/
def forget (scs : List Scope) : List (List (Name × Bool)) := scs.map fun sc => sc.map fun p => (p.1, isConst p.2)

/-- What the compiler knows is what can be seen. -/
structure Rel (f : Facts) (v : Seen) : Prop where
  here : forget f.scopes = v.here
  around : f.outer.map forget = v.around
  globals : ∀ x, (Scope.get f.globals x).map isConst = if x ∈ v.globals then some false else none
  loop : v.inLoop = !f.checkpoints.isEmpty
  nonempty : f.scopes ≠ []

/-- Nothing was refused so far, and `Rel`. -/
def Live (f : Facts) (v : Seen) : Prop := f.ok = true ∧ Rel f v

/-- An expression was visited. -/
def EStep (f f' : Facts) (b : Bool) : Prop := f'.ok = b ∧ (b = true → f' = f)

/-- A statement was visited. -/
def SStep (f f' : Facts) (b : Bool) (v' : Seen) : Prop :=
  f'.ok = b ∧ (b = true → Live f' v' ∧ f'.checkpoints = f.checkpoints ∧ f'.globals = f.globals)

theorem EStep.live {f f' : Facts} {b : Bool} {v : Seen} (h : EStep f f' b) (hb : b = true) (hl : Live f v) : Live f' v := h.2 hb ▸ hl

theorem EStep.refl {f : Facts} (h : f.ok = true) : EStep f f true := ⟨h, fun _ => rfl⟩

theorem EStep.seq {f f1 f2 : Facts} {b c : Bool} (h1 : EStep f f1 b) (h2 : b = true → EStep f1 f2 c) (hm : f2.ok = true → f1.ok = true) :
    EStep f f2 (b && c) := by
  cases b
  · refine ⟨?_, fun h => nomatch h⟩
    rcases h : f2.ok with _ | _
    · rfl
    · exact (Bool.false_ne_true (h1.1.symm.trans (hm h))).elim
  · have h := h2 rfl
    refine ⟨h.1, fun hc => ?_⟩
    exact (h.2 hc).trans (h1.2 rfl)

theorem EStep.s {f f' : Facts} {b : Bool} {v : Seen} (h : EStep f f' b) (hl : Live f v) : SStep f f' b v :=
  ⟨h.1, fun hb => by rw [h.2 hb]; exact ⟨hl, rfl, rfl⟩⟩

theorem SStep.seq {f f1 f2 : Facts} {b c : Bool} {v1 v2 : Seen} (h1 : SStep f f1 b v1) (h2 : b = true → SStep f1 f2 c v2)
    (hm : f2.ok = true → f1.ok = true) : SStep f f2 (b && c) v2 := by
  cases b
  · refine ⟨?_, fun h => nomatch h⟩
    rcases h : f2.ok with _ | _
    · rfl
    · exact (Bool.false_ne_true (h1.1.symm.trans (hm h))).elim
  · have h := h2 rfl
    refine ⟨h.1, fun hc => ?_⟩
    have h3 := h.2 hc
    have h4 := h1.2 rfl
    exact ⟨h3.1, h3.2.1.trans h4.2.1, h3.2.2.trans h4.2.2⟩

theorem SStep.refl {f : Facts} {v : Seen} (h : Live f v) : SStep f f true v := ⟨h.1, fun _ => ⟨h, rfl, rfl⟩⟩

/-! ### Looking up names -/

theorem get_lookup (sc : Scope) (x : Name) : (sc.get x).map isConst = (sc.map fun p => (p.1, isConst p.2)).lookup x := by
  induction sc with
  | nil => rfl
  | cons p sc ih =>
    unfold Scope.get at ih ⊢
    rw [List.map_cons, List.lookup_cons, List.find?_cons]
    by_cases h : p.1 = x
    · simp [h]
    · have h1 : (p.1 == x) = false := by simpa using h
      have h2 : (x == p.1) = false := by simpa using fun e => h (Eq.symm e)
      simp only [h1, h2]
      exact ih

theorem lookup_append {l1 l2 : List (Name × Bool)} {x : Name} : (l1 ++ l2).lookup x = (l1.lookup x).or (l2.lookup x) := by
  induction l1 with
  | nil => rfl
  | cons p l ih =>
    rw [List.cons_append, List.lookup_cons, List.lookup_cons, ih]
    split <;> simp

theorem scopeGet_lookup : ∀ (scs : List Scope) (x : Name), (scopeGet scs x).map isConst = (forget scs).flatten.lookup x
  | [], _ => rfl
  | sc :: scs, x => by
    have ih := scopeGet_lookup scs x
    unfold forget at ih ⊢
    rw [List.map_cons, List.flatten_cons, lookup_append, ← ih, ← get_lookup, scopeGet]
    rcases sc.get x <;> simp

theorem outerGet_lookup : ∀ (outer : List (List Scope)) (x : Name), (outerGet outer x).map isConst = (outer.map forget).flatten.flatten.lookup x
  | [], _ => rfl
  | scs :: outer, x => by
    have ih := outerGet_lookup outer x
    rw [List.map_cons, List.flatten_cons, List.flatten_append, lookup_append, ← ih, ← scopeGet_lookup, outerGet]
    rcases scopeGet scs x <;> simp

theorem Rel.find {s : FState} {v : Seen} (h : Rel s.facts v) (x : Name) : (lookVal s x).map isConst = v.find x := by
  unfold lookVal Seen.find
  rw [lookup_append, ← h.here, ← h.around, ← scopeGet_lookup, ← outerGet_lookup, ← h.globals x]
  show Option.map isConst (((scopeGet s.c.scopes x).or (outerGet s.outer x)).or (s.c.globals.get x)) =
    ((Option.map isConst (scopeGet s.c.scopes x)).or (Option.map isConst (outerGet s.outer x))).or (Option.map isConst (s.c.globals.get x))
  rcases scopeGet s.c.scopes x <;> rcases outerGet s.outer x <;> rcases s.c.globals.get x <;> rfl

theorem loadVar_step {s : FState} {v : Seen} (h : Live s.facts v) (x : Name) : EStep s.facts (s.loadVar x).facts (v.find x).isSome := by
  have ho : s.c.ok = true := h.1
  have hf := h.2.find x
  have he : ((scopeGet s.c.scopes x).isSome || inOuter s.outer x || (s.c.globals.get x).isSome) = (v.find x).isSome := by
    rw [← hf, inOuter_iff]; unfold lookVal
    rcases scopeGet s.c.scopes x <;> rcases outerGet s.outer x <;> rcases s.c.globals.get x <;> rfl
  rw [loadVar_facts, he, ho]
  refine ⟨rfl, fun hb => ?_⟩
  rw [hb]
  show _ = s.facts
  unfold FState.facts
  rw [ho]; rfl

theorem storeVar_step {s : FState} {v : Seen} (h : Live s.facts v) (x : Name) : EStep s.facts (s.storeVar x).facts (v.find x == some false) := by
  have ho : s.c.ok = true := h.1
  rw [storeVar_facts, h.2.find x, ho]
  refine ⟨rfl, fun hb => ?_⟩
  rw [hb]
  show _ = s.facts
  unfold FState.facts
  rw [ho]; rfl

theorem contains_find {s : FState} {v : Seen} (h : Rel s.facts v) (x : Name) : s.contains x = (v.find x).isSome := by
  rw [← h.find x]
  unfold FState.contains CState.contains lookVal
  rw [inOuter_iff]
  rcases scopeGet s.c.scopes x <;> rcases outerGet s.outer x <;> rcases s.c.globals.get x <;> rfl

/-! ### Declaring names -/

theorem forget_length (scs : List Scope) : (forget scs).flatten.length = scopeLen scs := by
  unfold forget scopeLen
  rw [List.length_flatten, List.map_map]
  congr 1
  apply List.map_congr_left
  intro sc _
  simp

theorem get_contains (sc : Scope) (x : Name) : (sc.get x).isSome = ((sc.map fun p => (p.1, isConst p.2)).map Prod.fst).contains x := by
  unfold Scope.get
  induction sc with
  | nil => rfl
  | cons p sc ih =>
    rw [List.find?_cons, List.map_cons, List.map_cons, List.contains_cons]
    by_cases h : p.1 = x
    · simp [h]
    · have h1 : (p.1 == x) = false := by simpa using h
      have h2 : (x == p.1) = false := by simpa using fun e => h (Eq.symm e)
      simp only [h1, h2, Bool.false_or]
      exact ih

theorem put_new {sc : Scope} {x : Name} {w : BitVec 64} (h : sc.get x = none) : sc.put x w = (x, w) :: sc := if_pos h

theorem put_old {sc : Scope} {x : Name} {w : BitVec 64} (h : sc.get x ≠ none) : sc.put x w = sc.map fun p => if p.1 == x then (x, w) else p := if_neg h

theorem small_const {n : Nat} (h : n ≤ 255) : isConst (BitVec.ofNat 64 n) = false := by
  have : ∀ k : Fin 256, isConst (BitVec.ofNat 64 k.1) = false := by decide +kernel
  exact this ⟨n, by omega⟩

theorem static_isConst_not (v : BitVec 64) : isConst (~~~v) = !isConst v := by
  have h : ∀ w : BitVec 64, isConst w = w.getLsbD 63 := by
    intro w
    unfold isConst
    rcases hw : w.getLsbD 63 with _ | _
    · have : (0x8000000000000000#64 &&& w) = 0 := by
        apply BitVec.eq_of_getLsbD_eq
        intro i hi
        rw [BitVec.getLsbD_and]
        by_cases h63 : i = 63
        · subst h63; rw [hw]; simp
        · have : (0x8000000000000000#64).getLsbD i = false := by
            have hk : ∀ k : Fin 64, k.1 ≠ 63 → (0x8000000000000000#64).getLsbD k.1 = false := by decide
            exact hk ⟨i, hi⟩ h63
          simp [this]
      simp [this]
    · have : (0x8000000000000000#64 &&& w) ≠ 0 := by
        intro he
        have h63 := congrArg (fun b => b.getLsbD 63) he
        simp only [BitVec.getLsbD_and, hw] at h63
        exact absurd h63 (by decide)
      simpa using this
  rw [h, h]
  simp

theorem containsCur_free {s : FState} {v : Seen} (h : Rel s.facts v) (x : Name) : s.c.containsCur x = !v.free x := by
  have h1 := h.here
  have h2 := h.nonempty
  simp only [FState.facts] at h1 h2
  unfold CState.containsCur Seen.free
  rcases hs : s.c.scopes with _ | ⟨sc, scs⟩
  · exact absurd hs h2
  · rw [← h1, hs]
    simp only [Bool.not_not]
    exact get_contains sc x

/-- Declaring a variable that is not there yet. -/
theorem static_declVar {s : FState} {v : Seen} (h : Live s.facts v) (x : Name) (hf : v.free x = true) :
    SStep s.facts (s.on fun c => c.declVar x).facts (v.add x false).fits (v.add x false) := by
  have h1 := h.2.here
  have h2 := h.2.nonempty
  have ho : s.c.ok = true := h.1
  have hc : s.c.containsCur x = false := by rw [containsCur_free h.2, hf]; rfl
  simp only [FState.facts] at h1 h2
  rcases hs : s.c.scopes with _ | ⟨sc, scs⟩
  · exact absurd hs h2
  · unfold CState.containsCur at hc
    rw [hs] at hc
    have hg : sc.get x = none := by simpa using hc
    have hp : ∀ w, sc.put x w = (x, w) :: sc := fun w => put_new hg
    have hd : s.c.declVar x = if scopeLen (((x, BitVec.ofNat 64 (scopeLen s.c.scopes)) :: sc) :: scs) > 255
        then ({ s.c with scopes := ((x, BitVec.ofNat 64 (scopeLen s.c.scopes)) :: sc) :: scs } : CState).error
        else { s.c with scopes := ((x, BitVec.ofNat 64 (scopeLen s.c.scopes)) :: sc) :: scs } := by
      unfold CState.declVar
      rw [hs]
      simp only [hp]
    have hl : (v.add x false).here.flatten.length = scopeLen (((x, BitVec.ofNat 64 (scopeLen s.c.scopes)) :: sc) :: scs) := by
      rw [← forget_length]
      unfold Seen.add
      rw [← h1, hs]
      simp [forget]
    have hlen : scopeLen (((x, BitVec.ofNat 64 (scopeLen s.c.scopes)) :: sc) :: scs) = scopeLen s.c.scopes + 1 := by
      rw [hs]; simp [scopeLen]; omega
    unfold Seen.fits
    rw [hl]
    by_cases hb : scopeLen (((x, BitVec.ofNat 64 (scopeLen s.c.scopes)) :: sc) :: scs) > 255
    · refine ⟨?_, fun hh => ?_⟩
      · show (s.c.declVar x).ok = _
        rw [hd, if_pos hb]
        exact (decide_eq_false (by omega)).symm
      · rw [decide_eq_true_eq] at hh; omega
    · have hd' : s.c.declVar x = { s.c with scopes := ((x, BitVec.ofNat 64 (scopeLen s.c.scopes)) :: sc) :: scs } := by rw [hd, if_neg hb]
      have hfa : (s.on fun c => c.declVar x).facts =
          { s.facts with scopes := ((x, BitVec.ofNat 64 (scopeLen s.c.scopes)) :: sc) :: scs } := by
        simp only [FState.facts, FState.on, hd']
      rw [hfa]
      refine ⟨?_, fun _ => ⟨⟨ho, ?_, h.2.around, h.2.globals, h.2.loop, by simp⟩, rfl, rfl⟩⟩
      · show s.c.ok = _
        rw [ho]; exact (decide_eq_true (by omega)).symm
      · show forget _ = (v.add x false).here
        unfold Seen.add
        rw [← h1, hs]
        have := small_const (n := scopeLen (sc :: scs)) (by rw [← hs]; omega)
        simp [forget, this]

theorem declare_step {s : FState} {v : Seen} (h : Live s.facts v) (x : Name) :
    SStep s.facts (s.declare x).facts (v.free x && (v.add x false).fits) (v.add x false) := by
  unfold FState.declare
  rw [containsCur_free h.2 x]
  rcases hf : v.free x with _ | _
  · exact ⟨rfl, fun hh => nomatch hh⟩
  · exact static_declVar h x hf

/-- Making the newest variable a constant. -/
theorem makeConst_step {s : FState} {v : Seen} (x : Name) (hf : v.free x = true) (h : Live s.facts (v.add x false)) :
    SStep s.facts (s.on fun c => c.makeConst x).facts true (v.add x true) := by
  have h1 := h.2.here
  have h2 := h.2.nonempty
  have ho : s.c.ok = true := h.1
  simp only [FState.facts] at h1 h2
  rcases hs : s.c.scopes with _ | ⟨sc, scs⟩
  · exact absurd hs h2
  · rw [hs] at h1
    unfold Seen.add at h1
    simp only [forget, List.map_cons, List.cons.injEq] at h1
    rcases sc with _ | ⟨⟨y, w⟩, sc⟩
    · simp at h1
    · simp only [List.map_cons, List.cons.injEq, Prod.mk.injEq] at h1
      obtain ⟨⟨⟨hy, hw⟩, hsc⟩, hscs⟩ := h1
      subst hy
      have hn : ∀ p ∈ sc, p.1 ≠ y := by
        intro p hp he
        unfold Seen.free at hf
        rw [← hsc] at hf
        simp only [Bool.not_eq_true', List.map_map] at hf
        have hcon : (List.map (Prod.fst ∘ fun p : Name × BitVec 64 => (p.1, isConst p.2)) sc).contains y = true := by
          rw [List.contains_iff_mem, List.mem_map]
          exact ⟨p, hp, he⟩
        rw [hcon] at hf
        cases hf
      have hg : Scope.get ((y, w) :: sc) y = some w := by simp [Scope.get]
      have hput : Scope.put ((y, w) :: sc) y (~~~w) = (y, ~~~w) :: sc := by
        rw [put_old (by rw [hg]; simp), List.map_cons]
        congr 1
        · simp
        · refine Eq.trans (List.map_congr_left (g := id) ?_) (List.map_id sc)
          intro p hp
          have : (p.1 == y) = false := by simpa using hn p hp
          simp [this]
      have hm : s.c.makeConst y = { s.c with scopes := ((y, ~~~w) :: sc) :: scs } := by
        unfold CState.makeConst
        rw [hs]
        simp only [scopeMakeConst, hg, hput]
      have hfa : (s.on fun c => c.makeConst y).facts = { s.facts with scopes := ((y, ~~~w) :: sc) :: scs } := by
        simp only [FState.facts, FState.on, hm]
      rw [hfa]
      refine ⟨ho, fun _ => ⟨⟨ho, ?_, h.2.around, h.2.globals, h.2.loop, by simp⟩, rfl, rfl⟩⟩
      show forget _ = (v.add y true).here
      unfold Seen.add
      have hcw : isConst (~~~w) = true := by rw [static_isConst_not, hw]; rfl
      simp only [forget, List.map_cons, hcw, hsc]
      rw [hscs]

/-! ### Entering functions -/

theorem paramBlock_length : ∀ (ps : List Name) (b : List (Name × Bool)), b.length ≤ (paramBlock ps b).length
  | [], _ => Nat.le_refl _
  | x :: ps, b => by
    rw [paramBlock]
    refine Nat.le_trans ?_ (paramBlock_length ps _)
    split <;> simp

theorem declParams_step : ∀ (ps : List Name) (c : CState) (sc : Scope), c.ok = true → c.scopes = [sc] → sc.length ≤ 255 →
    (∀ p ∈ sc, isConst p.2 = false) →
    (declParams ps c).ok = decide ((paramBlock ps (sc.map fun p => (p.1, isConst p.2))).length ≤ 255) ∧
    ((declParams ps c).ok = true → forget (declParams ps c).scopes = [paramBlock ps (sc.map fun p => (p.1, isConst p.2))] ∧
      (declParams ps c).globals = c.globals ∧ (declParams ps c).checkpoints = c.checkpoints)
  | [], c, sc, ho, hs, hl, hn => by
    rw [declParams, paramBlock]
    refine ⟨?_, fun _ => ⟨?_, rfl, rfl⟩⟩
    · rw [ho]; exact (decide_eq_true (by rw [List.length_map]; exact hl)).symm
    · rw [hs]; rfl
  | x :: ps, c, sc, ho, hs, hl, hn => by
    have hlen : scopeLen [sc] = sc.length := by simp [scopeLen]
    have hsmall := small_const hl
    rw [declParams, paramBlock, ← get_contains]
    rcases hg : sc.get x with _ | w
    · have hd : c.declVar x = if ((x, BitVec.ofNat 64 sc.length) :: sc).length > 255
          then ({ c with scopes := [(x, BitVec.ofNat 64 sc.length) :: sc] } : CState).error
          else { c with scopes := [(x, BitVec.ofNat 64 sc.length) :: sc] } := by
        unfold CState.declVar
        rw [hs]
        simp only [hlen, Scope.put, hg, if_true, scopeLen, List.map_cons, List.map_nil, List.sum_cons, List.sum_nil, Nat.add_zero]
      have hfl : (if (none : Option (BitVec 64)).isSome = true then sc.map fun p => (p.1, isConst p.2)
          else (x, false) :: sc.map fun p => (p.1, isConst p.2)) = ((x, BitVec.ofNat 64 sc.length) :: sc).map fun p => (p.1, isConst p.2) := by
        simp [hsmall]
      rw [hfl]
      by_cases hb : ((x, BitVec.ofNat 64 sc.length) :: sc).length > 255
      · have hno : ¬ (declParams ps (c.declVar x)).ok = true := by
          intro hh
          have := declParams_mono ps _ hh
          rw [hd, if_pos hb] at this
          cases this
        have hbig := paramBlock_length ps (((x, BitVec.ofNat 64 sc.length) :: sc).map fun p => (p.1, isConst p.2))
        rw [List.length_map] at hbig
        refine ⟨?_, fun hh => absurd hh hno⟩
        rw [Bool.not_eq_true] at hno
        rw [hno]; exact (decide_eq_false (by omega)).symm
      · rw [hd, if_neg hb]
        have := declParams_step ps { c with scopes := [(x, BitVec.ofNat 64 sc.length) :: sc] } _ ho rfl (by omega)
          (by
            intro p hp
            rcases List.mem_cons.mp hp with rfl | hp
            · exact hsmall
            · exact hn p hp)
        exact this
    · have hput : (sc.put x (BitVec.ofNat 64 sc.length)).map (fun p => (p.1, isConst p.2)) = sc.map fun p => (p.1, isConst p.2) := by
        rw [put_old (by rw [hg]; simp), List.map_map]
        apply List.map_congr_left
        intro p hp
        by_cases hpx : p.1 = x
        · simp [hpx, hsmall, hn p hp]
        · have : (p.1 == x) = false := by simpa using hpx
          simp only [Function.comp, this]; rfl
      have hlput : (sc.put x (BitVec.ofNat 64 sc.length)).length = sc.length := by
        have := congrArg List.length hput
        simpa using this
      have hd : c.declVar x = { c with scopes := [sc.put x (BitVec.ofNat 64 sc.length)] } := by
        unfold CState.declVar
        rw [hs]
        simp only [hlen, scopeLen, List.map_cons, List.map_nil, List.sum_cons, List.sum_nil, Nat.add_zero, hlput]
        rw [if_neg (by omega)]
      rw [hd]
      have := declParams_step ps { c with scopes := [sc.put x (BitVec.ofNat 64 sc.length)] } _ ho rfl (by rw [hlput]; exact hl)
        (by
          intro p hp
          have h3 : (p.1, isConst p.2) ∈ (sc.put x (BitVec.ofNat 64 sc.length)).map (fun p => (p.1, isConst p.2)) := List.mem_map.mpr ⟨p, hp, rfl⟩
          rw [hput] at h3
          obtain ⟨q, hq, he⟩ := List.mem_map.mp h3
          rw [Prod.mk.injEq] at he
          rw [← he.2]; exact hn q hq)
      rw [hput] at this
      exact this

theorem fnEnter_step {s : FState} {v : Seen} (h : Live s.facts v) (ps : List Name) :
    SStep s.facts (s.fnEnter ps).facts (v.inFunction .code ps).fits (v.inFunction .code ps) := by
  have hd := declParams_step ps { s.c with scopes := [[]] } [] h.1 rfl (by simp) (by simp)
  have hfit : (v.inFunction .code ps).fits = decide ((paramBlock ps []).length ≤ 255) := by simp [Seen.fits, Seen.inFunction]
  have hfa : (s.fnEnter ps).facts = ⟨(declParams ps { s.c with scopes := [[]] }).ok, (declParams ps { s.c with scopes := [[]] }).scopes,
      s.c.scopes :: s.outer, (declParams ps { s.c with scopes := [[]] }).globals, (declParams ps { s.c with scopes := [[]] }).checkpoints⟩ := rfl
  rw [hfa, hfit]
  rw [List.map_nil] at hd
  refine ⟨hd.1, fun hb => ?_⟩
  rw [← hd.1] at hb
  obtain ⟨h1, h2, h3⟩ := hd.2 hb
  refine ⟨⟨hb, h1, ?_, ?_, ?_, ?_⟩, h3, h2⟩
  · have := h.2.around
    have h' := h.2.here
    simp only [FState.facts] at this h'
    show (s.c.scopes :: s.outer).map forget = _
    rw [List.map_cons, this, h']; rfl
  · show ∀ x, (Scope.get (declParams ps { s.c with scopes := [[]] }).globals x).map isConst = _
    rw [h2]; exact h.2.globals
  · show _ = !(declParams ps { s.c with scopes := [[]] }).checkpoints.isEmpty
    rw [h3]
    have : v.inLoop = !s.c.checkpoints.isEmpty := h.2.loop
    simpa [Seen.inFunction] using this
  · intro he
    have he' : (declParams ps { s.c with scopes := [[]] }).scopes = [] := he
    rw [he'] at h1
    cases h1

/-! ### Blocks and statements -/

/-- What is seen after some statements. -/
def FStmts.afters : FStmts → Seen → Seen
  | .nil, v => v
  | .cons st ss, v => ss.afters (st.after v)

theorem afterL_kept : ∀ (ls : List FTarget) (v : Seen), (afterL ls v).here.tail = v.here.tail ∧ (afterL ls v).around = v.around ∧
    (afterL ls v).globals = v.globals ∧ (afterL ls v).inLoop = v.inLoop
  | [], v => ⟨rfl, rfl, rfl, rfl⟩
  | .let_ x :: ls, v => afterL_kept ls (v.add x false)
  | .const_ x :: ls, v => afterL_kept ls (v.add x true)
  | .assign x :: ls, v => afterL_kept ls v

theorem afterL_same : ∀ (ls : List FTarget) (v : Seen), declsL ls = [] → afterL ls v = v
  | [], v, _ => rfl
  | .let_ x :: ls, v, h => by simp [declsL] at h
  | .const_ x :: ls, v, h => by simp [declsL] at h
  | .assign x :: ls, v, h => afterL_same ls v h

theorem after_kept (st : FStmt) (v : Seen) : (st.after v).here.tail = v.here.tail ∧ (st.after v).around = v.around ∧
    (st.after v).globals = v.globals ∧ (st.after v).inLoop = v.inLoop := by
  cases st with
  | multi ls es => exact afterL_kept ls v
  | _ => exact ⟨rfl, rfl, rfl, rfl⟩

theorem afters_kept : ∀ (ss : FStmts) (v : Seen), (ss.afters v).here.tail = v.here.tail ∧ (ss.afters v).around = v.around ∧
    (ss.afters v).globals = v.globals ∧ (ss.afters v).inLoop = v.inLoop
  | .nil, v => ⟨rfl, rfl, rfl, rfl⟩
  | .cons st ss, v => by
    have h1 := after_kept st v
    have h2 := afters_kept ss (st.after v)
    rw [FStmts.afters]
    exact ⟨h2.1.trans h1.1, h2.2.1.trans h1.2.1, h2.2.2.1.trans h1.2.2.1, h2.2.2.2.trans h1.2.2.2⟩

theorem after_same {st : FStmt} (v : Seen) (h : st.decls.isEmpty = true) : st.after v = v := by
  cases st with
  | multi ls es => exact afterL_same ls v (by simpa [FStmt.decls] using h)
  | _ => first | rfl | simp [FStmt.decls] at h

theorem falsey_never (c : FExpr) : c.falseyNode = c.neverNode := by
  unfold FExpr.falseyNode FExpr.neverNode
  split
  · rename_i b; cases b <;> rfl
  · rfl
  · rename_i h1 h2
    split
    · rename_i h; exact absurd rfl (h1 false)
    · exact absurd rfl h2
    · rfl

theorem never_good {c : FExpr} (v : Seen) (h : c.neverNode = true) : c.good .code v = true := by
  unfold FExpr.neverNode at h
  split at h
  · rfl
  · rfl
  · cases h

theorem truthy_good {c : FExpr} (v : Seen) (h : c.truthyNode = true) : c.good .code v = true := by
  unfold FExpr.truthyNode at h
  split at h
  · rfl
  · rfl
  · cases h

theorem Live.inBlock {s : FState} {v : Seen} (h : Live s.facts v) : Live (s.on fun c => c.enterScope).facts v.inBlock := by
  refine ⟨h.1, ?_, h.2.around, h.2.globals, h.2.loop, by simp [FState.facts, FState.on, CState.enterScope]⟩
  have := h.2.here
  simp only [FState.facts] at this
  simp [FState.facts, FState.on, CState.enterScope, forget, Seen.inBlock, ← this]

/-- Leaving a block. -/
theorem Live.leave {s0 s : FState} {v v' : Seen} (h0 : Live s0.facts v) (h : Live s.facts v') (hh : v'.here.tail = v.here)
    (ha : v'.around = v.around) (hg : v'.globals = v.globals) (hc : s.c.checkpoints = s0.c.checkpoints) :
    Live (s.on fun c => c.exitScope).facts v := by
  have h1 := h.2.here
  have h2 := h.2.nonempty
  have h3 := h0.2.here
  have h4 := h0.2.nonempty
  have ho : s.c.ok = true := h.1
  simp only [FState.facts] at h1 h2 h3 h4
  rcases hs : s.c.scopes with _ | ⟨sc, scs⟩
  · exact absurd hs h2
  · have hfa : (s.on fun c => c.exitScope).facts = { s.facts with scopes := scs } := by
      simp only [FState.facts, FState.on, CState.exitScope, hs]
    rw [hfa]
    rw [hs] at h1
    have h5 : forget scs = v.here := by rw [← hh, ← h1]; rfl
    refine ⟨ho, h5, ha ▸ h.2.around, hg ▸ h.2.globals, ?_, ?_⟩
    · show v.inLoop = !s.c.checkpoints.isEmpty
      rw [hc]; exact h0.2.loop
    · intro he
      have he' : scs = [] := he
      rw [he'] at h5
      rw [← h3] at h5
      rcases hs0 : s0.c.scopes with _ | ⟨a, b⟩
      · exact h4 hs0
      · rw [hs0] at h5; cases h5

/-- Entering a loop. -/
theorem Live.loop {s : FState} {v : Seen} (h : Live s.facts v) (n : Nat) : Live (s.on fun c => c.addCheckpoint n).facts v.loop :=
  ⟨h.1, h.2.here, h.2.around, h.2.globals, rfl, h.2.nonempty⟩

/-- Leaving a loop. -/
theorem Live.unloop {s0 s : FState} {v : Seen} (h0 : Live s0.facts v) (h : Live s.facts v.loop) (n m : Nat)
    (hc : s.c.checkpoints = n :: m :: s0.c.checkpoints) : Live (s.on fun c => c.rmCheckpoints).facts v := by
  refine ⟨h.1, h.2.here, h.2.around, h.2.globals, ?_, h.2.nonempty⟩
  show v.inLoop = !(s.c.checkpoints.drop 2).isEmpty
  rw [hc]
  exact h0.2.loop

/-! ### The programs -/

theorem Live.cast {f f' : Facts} {v : Seen} (h : Live f v) (e : f' = f) : Live f' v := e ▸ h

/-- A function: its parameters and its body. -/
theorem static_fn {s : FState} {v : Seen} {ps : List Name} {body : FStmts} (id : Nat) (h : Live s.facts v)
    (hb : Live (s.fnEnter ps).facts (v.inFunction .code ps) →
      SStep (s.fnEnter ps).facts (visitFSs body (s.fnEnter ps)).facts (body.good .code (v.inFunction .code ps)) (body.afters (v.inFunction .code ps))) :
    EStep s.facts (s.fnLeave id (visitFSs body (s.fnEnter ps))).facts
      ((v.inFunction .code ps).fits && body.good .code (v.inFunction .code ps)) := by
  have h1 := fnEnter_step h ps
  have h2 := h1.seq (fun hf => hb (h1.2 hf).1) (visitFSs_mono body _)
  rw [fnLeave_facts]
  refine ⟨h2.1, fun hh => ?_⟩
  obtain ⟨hl, hc, hg⟩ := h2.2 hh
  have e1 : (visitFSs body (s.fnEnter ps)).c.ok = s.facts.ok := hl.1.trans h.1.symm
  have e2 : (visitFSs body (s.fnEnter ps)).c.globals = s.facts.globals := hg
  have e3 : (visitFSs body (s.fnEnter ps)).c.checkpoints = s.facts.checkpoints := hc
  rw [e1, e2, e3]

/-- A loop: its condition `bc` and its body `bb`. -/
theorem loop_step {s s2 s4 : FState} {v : Seen} {bc bb : Bool} {n m : Nat} (h : Live s.facts v)
    (hc : EStep (s.on fun c => c.addCheckpoint n).facts s2.facts bc)
    (hb : bc = true → SStep (s2.on fun c => c.addCheckpoint m).facts s4.facts bb v.loop) (hm : s4.facts.ok = true → s2.facts.ok = true) :
    SStep s.facts (s4.on fun c => c.rmCheckpoints).facts (bc && bb) v := by
  cases bc
  · refine ⟨?_, fun hh => nomatch hh⟩
    show s4.facts.ok = _
    rcases ho : s4.facts.ok with _ | _
    · rfl
    · exact (Bool.false_ne_true (hc.1.symm.trans (hm ho))).elim
  · have h1 := hb rfl
    have h2 := hc.2 rfl
    refine ⟨h1.1, fun hh => ?_⟩
    obtain ⟨hl, hk, hg⟩ := h1.2 hh
    have hk2 : s2.c.checkpoints = n :: s.c.checkpoints := congrArg Facts.checkpoints h2
    have hg2 : s2.c.globals = s.c.globals := congrArg Facts.globals h2
    have hk3 : s4.c.checkpoints = m :: n :: s.c.checkpoints := by rw [← hk2]; exact hk
    refine ⟨h.unloop hl m n hk3, ?_, hg.trans hg2⟩
    show s4.c.checkpoints.drop 2 = s.c.checkpoints
    rw [hk3]; rfl

theorem visitTargets_step : ∀ (ls : List FTarget) (s : FState) (v : Seen), Live s.facts v → SStep s.facts (visitTargets ls s).facts (goodL ls v) (afterL ls v)
  | [], s, v, h => SStep.refl h
  | .let_ x :: ls, s, v, h => by
    rw [visitTargets, goodL, afterL, containsCur_free h.2 x]
    have h1 := declare_step h x
    rcases hf : v.free x with _ | _
    · exact ⟨rfl, fun hh => nomatch hh⟩
    · rw [if_neg (by simp), ← hf]
      exact h1.seq (fun hb => visitTargets_step ls _ _ (h1.2 hb).1) (visitTargets_mono ls _)
  | .const_ x :: ls, s, v, h => by
    rw [visitTargets, goodL, afterL, containsCur_free h.2 x]
    have h1 := declare_step h x
    have hft : (v.add x true).fits = (v.add x false).fits := by simp [Seen.fits, Seen.add]
    rw [hft]
    rcases hf : v.free x with _ | _
    · exact ⟨rfl, fun hh => nomatch hh⟩
    · rw [hf, Bool.true_and] at h1
      rw [if_neg (by simp), Bool.true_and]
      have h3 := h1.seq (v2 := v.add x true) (f2 := ((s.declare x).on fun c => c.makeConst x).facts) (c := true) (fun hb => makeConst_step x hf (h1.2 hb).1)
        (fun hh => by
          have h4 : (CState.makeConst (s.declare x).c x).ok = true := hh
          rw [static_makeConst_ok] at h4
          exact h4)
      rw [Bool.and_true] at h3
      exact h3.seq (fun hb => visitTargets_step ls _ _ (h3.2 hb).1) (visitTargets_mono ls _)
  | .assign x :: ls, s, v, h => by
    rw [visitTargets, goodL, afterL, contains_find h.2 x]
    rcases hx : v.find x with _ | b
    · rw [if_pos (by rfl)]
      exact ⟨rfl, fun hh => nomatch hh⟩
    · rw [if_neg (by simp), ← hx]
      have hl : Live ((s.op .MOVEUP_FP).emit (BitVec.ofNat 8 (scopeLen s.c.scopes))).facts v := h
      have h1 := storeVar_step hl x
      exact (h1.s hl).seq (fun hb => visitTargets_step ls _ _ (h1.live hb hl)) (visitTargets_mono ls _)

mutual
theorem visitFE_step : ∀ (e : FExpr) (s : FState) (v : Seen), e.shaped = true → Live s.facts v →
    EStep s.facts (visitFE e s).facts (e.good .code v)
  | .lit l, s, v, _, h => by
    rw [visitFE, lit_facts, FExpr.good]; exact EStep.refl h.1
  | .var x, s, v, _, h => by
    rw [visitFE, FExpr.good]; exact loadVar_step h x
  | .un o e, s, v, hs, h => by
    rw [FExpr.shaped] at hs
    rw [visitFE, FExpr.good]; exact visitFE_step e s v hs h
  | .bin o a b, s, v, hs, h => by
    rw [FExpr.shaped, Bool.and_eq_true] at hs
    have h1 := visitFE_step a s v hs.1 h
    rw [FExpr.good]
    cases o <;> rw [visitFE] <;> exact h1.seq (fun hb => visitFE_step b _ v hs.2 (h1.live hb h)) (visitFE_mono b _)
  | .tri c a b, s, v, hs, h => by
    simp only [FExpr.shaped, Bool.and_eq_true] at hs
    have h1 := visitFE_step c s v hs.1.1 h
    rw [FExpr.good, visitFE]
    have h2 := h1.seq (fun hb => visitFE_step a ((visitFE c s).jump .BRF_8) v hs.1.2 (h1.live hb h)) (visitFE_mono a _)
    exact h2.seq (fun hb => visitFE_step b ((((visitFE a ((visitFE c s).jump .BRF_8))).jump .BR_8).patch ((visitFE c s).len + 1)) v hs.2 (h2.live hb h)) (visitFE_mono b _)
  | .list es, s, v, hs, h => by
    rw [FExpr.shaped] at hs
    rw [visitFE, FExpr.good]; exact visitFEs_step es (s.op .END) v hs h
  | .table es, s, v, hs, h => by
    rw [FExpr.shaped] at hs
    rw [visitFE, FExpr.good]; exact visitFEs_step es (s.op .END) v hs h
  | .get c k, s, v, hs, h => by
    rw [FExpr.shaped, Bool.and_eq_true] at hs
    have h1 := visitFE_step c s v hs.1 h
    rw [FExpr.good, visitFE]
    exact h1.seq (fun hb => visitFE_step k _ v hs.2 (h1.live hb h)) (visitFE_mono k _)
  | .slice c a b, s, v, hs, h => by
    simp only [FExpr.shaped, Bool.and_eq_true] at hs
    have h1 := visitFE_step c s v hs.1.1 h
    rw [FExpr.good, visitFE]
    have h2 := h1.seq (fun hb => visitFE_step a _ v hs.1.2 (h1.live hb h)) (visitFE_mono a _)
    exact h2.seq (fun hb => visitFE_step b _ v hs.2 (h2.live hb h)) (visitFE_mono b _)
  | .fn id ps body, s, v, hs, h => by
    rw [FExpr.shaped] at hs
    rw [visitFE, FExpr.good]
    exact static_fn id h (fun hl => visitFSs_step body (s.fnEnter ps) (v.inFunction .code ps) hs hl)
  | .call f args, s, v, hs, h => by
    rw [FExpr.shaped, Bool.and_eq_true] at hs
    have h1 := visitFE_step f s v hs.1 h
    rw [FExpr.good, visitFE]
    exact h1.seq (fun hb => visitFEs_step args (visitFE f s).initCall v hs.2 (h1.live hb h)) (visitFEs_mono args (visitFE f s).initCall)
  | .mcall o n args, s, v, hs, h => by
    rw [FExpr.shaped, Bool.and_eq_true] at hs
    have h1 := visitFE_step o s v hs.1 h
    rw [FExpr.good, visitFE]
    refine h1.seq (fun hb => ?_) (fun hh => ?_)
    · have := visitFEs_step args ((visitFE o s).initMc n) v hs.2 ((h1.live hb h).cast (initMc_facts _ n))
      rw [initMc_facts] at this
      exact this
    · have h3 := visitFEs_mono args ((visitFE o s).initMc n) hh
      rw [facts_ok, initMc_facts] at h3
      exact h3
  | .ctx all e, s, v, hs, h => by
    rw [FExpr.shaped] at hs
    rw [visitFE, FExpr.good]; exact visitFE_step e { s with expected := if all then -1 else 1 } v hs h
theorem visitFEs_step : ∀ (es : FExprs) (s : FState) (v : Seen), es.shaped = true → Live s.facts v →
    EStep s.facts (visitFEs es s).facts (es.good .code v)
  | .nil, s, v, _, h => by
    rw [visitFEs, FExprs.good]; exact EStep.refl h.1
  | .cons e es, s, v, hs, h => by
    rw [FExprs.shaped, Bool.and_eq_true] at hs
    have h1 := visitFE_step e s v hs.1 h
    rw [FExprs.good, visitFEs]
    exact h1.seq (fun hb => visitFEs_step es _ v hs.2 (h1.live hb h)) (visitFEs_mono es _)
theorem visitFS_step : ∀ (st : FStmt) (s : FState) (v : Seen), st.shaped = true → Live s.facts v →
    SStep s.facts (visitFS st s).facts (st.good .code v) (st.after v)
  | .expr e, s, v, hs, h => by
    rw [FStmt.shaped] at hs
    rw [FStmt.good, visitFS_expr_facts]
    exact (visitFE_step e s v hs h).s h
  | .echo e, s, v, hs, h => by
    rw [FStmt.shaped] at hs
    rw [FStmt.good, visitFS]
    exact (visitFE_step e s v hs h).s h
  | .assert e, s, v, hs, h => by
    rw [FStmt.shaped] at hs
    rw [FStmt.good, visitFS]
    exact (visitFE_step e s v hs h).s h
  | .let_ x e, s, v, hs, h => by
    rw [FStmt.shaped] at hs
    have h1 := visitFE_step e s v hs h
    rw [FStmt.good, visitFS, Bool.and_assoc]
    exact (h1.s h).seq (fun hb => declare_step (h1.live hb h) x) (declare_mono _ x)
  | .const_ x e, s, v, hs, h => by
    rw [FStmt.shaped] at hs
    have h1 := visitFE_step e s v hs h
    have hft : (v.add x true).fits = (v.add x false).fits := by simp [Seen.fits, Seen.add]
    rw [FStmt.good, visitFS, Bool.and_assoc, hft]
    have h2 := (h1.s h).seq (fun hb => declare_step (h1.live hb h) x) (declare_mono _ x)
    have h3 := h2.seq (v2 := v.add x true) (f2 := (((visitFE e s).declare x).on fun c => c.makeConst x).facts) (c := true) (fun hb => by
      have hb' := hb
      simp only [Bool.and_eq_true] at hb'
      exact makeConst_step x hb'.2.1 (h2.2 hb).1) (fun hh => by
      have h4 : (CState.makeConst ((visitFE e s).declare x).c x).ok = true := hh
      rw [static_makeConst_ok] at h4
      exact h4)
    rw [Bool.and_true] at h3
    exact h3
  | .multi ls es, s, v, hs, h => by
    rw [FStmt.shaped] at hs
    have h1 := visitFEs_step es s v hs h
    rw [FStmt.good, visitFS]
    exact (h1.s h).seq (fun hb => visitTargets_step ls _ _ (h1.live hb h)) (visitTargets_mono ls _)
  | .assign x e, s, v, hs, h => by
    rw [FStmt.shaped] at hs
    have h1 := visitFE_step e s v hs h
    rw [FStmt.good, visitFS, contains_find h.2 x]
    rcases hx : v.find x with _ | b
    · rw [if_pos (by rfl)]
      refine ⟨?_, fun hh => ?_⟩
      · show false = _
        simp
      · simp at hh
    · rw [if_neg (by simp), ← hx]
      exact (h1.s h).seq (fun hb => (storeVar_step (h1.live hb h) x).s (h1.live hb h)) (storeVar_mono _ x)
  | .set c k e, s, v, hs, h => by
    simp only [FStmt.shaped, Bool.and_eq_true] at hs
    have h1 := visitFE_step c s v hs.1.1 h
    rw [FStmt.good, visitFS]
    have h2 := h1.seq (fun hb => visitFE_step k _ v hs.1.2 (h1.live hb h)) (visitFE_mono k _)
    have h3 := h2.seq (fun hb => visitFE_step e _ v hs.2 (h2.live hb h)) (visitFE_mono e _)
    exact h3.s h
  | .block ss, s, v, hs, h => by
    rw [FStmt.shaped] at hs
    have h1 := visitFSs_step ss (s.on fun c => c.enterScope) v.inBlock hs h.inBlock
    rw [FStmt.good, visitFS]
    refine ⟨?_, fun hb => ?_⟩
    · show (CState.exitScope (visitFSs ss (s.on fun c => c.enterScope)).c).ok = _
      rw [exitScope_ok]; exact h1.1
    · obtain ⟨hl, hc, hg⟩ := h1.2 hb
      have hk := afters_kept ss v.inBlock
      have hl' := Live.leave h hl hk.1 hk.2.1 hk.2.2.1 hc
      have he : ∀ c : CState, c.exitScope.globals = c.globals ∧ c.exitScope.checkpoints = c.checkpoints := by
        intro c; unfold CState.exitScope; split <;> exact ⟨rfl, rfl⟩
      refine ⟨hl', (he _).2.trans hc, (he _).1.trans hg⟩
  | .ifThen c t, s, v, hs, h => by
    simp only [FStmt.shaped, Bool.and_eq_true] at hs
    rw [FStmt.good, visitFS]
    show SStep _ _ _ v
    by_cases h1 : c.truthyNode = true
    · rw [if_pos h1, truthy_good v h1, Bool.true_and]
      have := visitFS_step t s v hs.2 h
      rw [after_same v hs.1.2] at this
      exact this
    · rw [if_neg h1]
      by_cases h2 : c.falseyNode = true
      · rw [if_pos h2, never_good v (falsey_never c ▸ h2), Bool.true_and]
        have := visitFS_step t s v hs.2 h
        rw [after_same v hs.1.2] at this
        exact this
      · rw [if_neg h2]
        have h3 := visitFE_step c s v hs.1.1 h
        refine (h3.s h).seq (fun hb => ?_) (visitFS_mono t ((visitFE c s).jump .BRF_8))
        have := visitFS_step t ((visitFE c s).jump .BRF_8) v hs.2 (h3.live hb h)
        rw [after_same v hs.1.2] at this
        exact this
  | .ifElse c t e, s, v, hs, h => by
    simp only [FStmt.shaped, Bool.and_eq_true] at hs
    have ht := fun s h => visitFS_step t s v hs.1.1.2 h
    have he := fun s h => visitFS_step e s v hs.2 h
    rw [after_same v hs.1.1.1.2] at ht
    rw [after_same v hs.1.2] at he
    rw [FStmt.good, visitFS]
    show SStep _ _ _ v
    by_cases h1 : c.truthyNode = true
    · rw [if_pos h1, truthy_good v h1, Bool.true_and]
      have h3 := ht s h
      exact h3.seq (fun hb => he _ (h3.2 hb).1) (visitFS_mono e _)
    · rw [if_neg h1]
      by_cases h2 : c.falseyNode = true
      · rw [if_pos h2, never_good v (falsey_never c ▸ h2), Bool.true_and]
        have h3 := ht s h
        exact h3.seq (fun hb => he (s.validated (visitFS t s)) (h3.2 hb).1) (visitFS_mono e (s.validated (visitFS t s)))
      · rw [if_neg h2]
        have h3 := visitFE_step c s v hs.1.1.1.1 h
        have h4 := (h3.s h).seq (fun hb => ht ((visitFE c s).jump .BRF_8) (h3.live hb h)) (visitFS_mono t ((visitFE c s).jump .BRF_8))
        exact h4.seq (fun hb => he (((visitFS t ((visitFE c s).jump .BRF_8)).jump .BR_8).patch ((visitFE c s).len + 1)) (h4.2 hb).1)
          (visitFS_mono e (((visitFS t ((visitFE c s).jump .BRF_8)).jump .BR_8).patch ((visitFE c s).len + 1)))
  | .while_ c body, s, v, hs, h => by
    simp only [FStmt.shaped, Bool.and_eq_true] at hs
    have hbody := fun s v h => visitFS_step body s v hs.2 h
    rw [FStmt.good, visitFS]
    show SStep _ _ _ v
    unfold Seen.whileBody
    by_cases h2 : c.falseyNode = true
    · rw [if_pos h2, ← falsey_never, h2, if_pos (by rfl), never_good v (falsey_never c ▸ h2), Bool.true_and]
      have := hbody s v h
      rw [after_same v hs.1.2] at this
      exact this
    · rw [if_neg h2, ← falsey_never]
      rw [Bool.not_eq_true] at h2
      rw [h2, if_neg (by simp)]
      exact loop_step (n := s.len) h (visitFE_step c (s.on fun c => c.addCheckpoint s.len) v.loop hs.1.1 (h.loop _)) (fun hb => by
        have h3 := visitFE_step c (s.on fun c => c.addCheckpoint s.len) v.loop hs.1.1 (h.loop _)
        have h4 := hbody (((visitFE c (s.on fun c => c.addCheckpoint s.len)).on fun c' => c'.addCheckpoint (visitFE c (s.on fun c => c.addCheckpoint s.len)).len).jump .BRF_8) v.loop
          (Live.loop (v := v.loop) (h3.live hb (h.loop _)) _)
        rw [after_same _ hs.1.2] at h4
        exact h4) (visitFS_mono body (((visitFE c (s.on fun c => c.addCheckpoint s.len)).on fun c' => c'.addCheckpoint (visitFE c (s.on fun c => c.addCheckpoint s.len)).len).jump .BRF_8))
  | .loop c body post, s, v, hs, h => by
    simp only [FStmt.shaped, Bool.and_eq_true] at hs
    have hbody := fun s v h => visitFS_step body s v hs.1.1.2 h
    have hpost := fun s h => visitFS_step post s v hs.2 h
    rw [after_same v hs.1.2] at hpost
    rw [FStmt.good, visitFS]
    show SStep _ _ _ v
    unfold Seen.whileBody
    by_cases h2 : c.falseyNode = true
    · rw [if_pos h2, ← falsey_never, h2, if_pos (by rfl), never_good v (falsey_never c ▸ h2), Bool.true_and]
      have h3 := hbody s v h
      rw [after_same v hs.1.1.1.2] at h3
      exact h3.seq (fun hb => hpost (s.validated (visitFS body s)) (h3.2 hb).1) (visitFS_mono post (s.validated (visitFS body s)))
    · rw [if_neg h2, ← falsey_never]
      rw [Bool.not_eq_true] at h2
      rw [h2, if_neg (by simp), Bool.and_comm]
      have h0 := hpost (s.jump .BR_8) h
      dsimp only
      generalize hs1 : s.jump .BR_8 = s1 at h0 ⊢
      have hs1' : s.facts = s1.facts := hs1 ▸ rfl
      rw [hs1']
      generalize hs2 : (visitFS post s1).patch (s.len + 1) = s2
      have hs2' : (visitFS post s1).facts = s2.facts := hs2 ▸ rfl
      rw [hs2'] at h0
      refine h0.seq (fun hb => ?_) ?_
      · have hl := (h0.2 hb).1
        have h3 := visitFE_step c (s2.on fun c => c.addCheckpoint s1.len) v.loop hs.1.1.1.1 (hl.loop _)
        exact loop_step (n := s1.len) hl h3 (fun hb => by
          have h4 := hbody (((visitFE c (s2.on fun c => c.addCheckpoint s1.len)).on fun c' => c'.addCheckpoint (visitFE c (s2.on fun c => c.addCheckpoint s1.len)).len).jump .BRF_8) v.loop
            (Live.loop (v := v.loop) (h3.live hb (hl.loop _)) _)
          rw [after_same _ hs.1.1.1.2] at h4
          exact h4) (visitFS_mono body (((visitFE c (s2.on fun c => c.addCheckpoint s1.len)).on fun c' => c'.addCheckpoint (visitFE c (s2.on fun c => c.addCheckpoint s1.len)).len).jump .BRF_8))
      · intro hh
        have h5 := visitFS_mono body (((visitFE c (s2.on fun c => c.addCheckpoint s1.len)).on fun c' => c'.addCheckpoint (visitFE c (s2.on fun c => c.addCheckpoint s1.len)).len).jump .BRF_8) hh
        exact visitFE_mono c (s2.on fun c => c.addCheckpoint s1.len) h5
  | .forIter x coll body, s, v, hs, h => by
    simp only [FStmt.shaped, Bool.and_eq_true] at hs
    rw [FStmt.good, visitFS]
    show SStep _ _ _ v
    have hc := visitFE_step coll (s.on fun c => c.enterScope) v.inBlock hs.1.1 h.inBlock
    generalize hsa : visitFE coll (s.on fun c => c.enterScope) = sa at hc ⊢
    have hfree : v.inBlock.free x = true := rfl
    have hd := (hc.s h.inBlock).seq (fun hb => static_declVar (s := ((sa.op .INITFOR).op .END)) (hc.live hb h.inBlock) x hfree) (declVar_mono ((sa.op .INITFOR).op .END).c x)
    generalize hs1 : (((sa.op .INITFOR).op .END).on fun c => c.declVar x) = s1 at hd ⊢
    generalize hw : v.inBlock.add x false = w at hd ⊢
    have hfind : w.loop.find x = some false := by
      rw [← hw]
      simp [Seen.find, Seen.loop, Seen.add, Seen.inBlock]
    generalize hs2 : (s1.on fun c => c.addCheckpoint s1.len).op .ITER_1 = s2
    have hs2' : s2.facts = (s1.on fun c => c.addCheckpoint s1.len).facts := hs2 ▸ rfl
    generalize hs3 : (s2.on fun c => c.addCheckpoint s2.len).jump .BRF_8 = s3
    have hs3' : s3.facts = (s2.on fun c => c.addCheckpoint s2.len).facts := hs3 ▸ rfl
    have hl : SStep (s.on fun c => c.enterScope).facts ((visitFS body (s3.storeVar x)).on fun c => c.rmCheckpoints).facts
        (coll.good .code v.inBlock && w.fits && body.good .code w.loop) w := by
      refine hd.seq (fun hb => ?_) (fun hh => ?_)
      · have hl1 := (hd.2 hb).1
        have hl2 : Live s2.facts w.loop := (hl1.loop s1.len).cast hs2'
        have hl3 : Live s3.facts w.loop := (Live.loop (v := w.loop) hl2 s2.len).cast hs3'
        have hst := storeVar_step hl3 x
        rw [hfind] at hst
        have := loop_step (s := s1) (s2 := s2) (s4 := visitFS body (s3.storeVar x)) (bc := true) (bb := body.good .code w.loop) (n := s1.len) (m := s2.len) hl1
          (hs2' ▸ EStep.refl hl2.1) (fun _ => by
            have h6 := (hst.s hl3).seq (fun _ => visitFS_step body (s3.storeVar x) w.loop hs.2 (hst.live rfl hl3)) (visitFS_mono body _)
            rw [after_same _ hs.1.2, hs3'] at h6
            exact h6) (fun hh => by
            have h7 := storeVar_mono _ _ (visitFS_mono body _ hh)
            rw [facts_ok, hs3'] at h7
            exact h7)
        exact this
      · have h7 := storeVar_mono _ _ (visitFS_mono body _ hh)
        rw [facts_ok, hs3'] at h7
        have h8 : s2.facts.ok = true := h7
        rw [hs2'] at h8
        exact h8
    generalize hs4 : visitFS body (s3.storeVar x) = s4 at hl ⊢
    have hf : ((((s4.branchBack s1.len).patch (s2.len + 1)).op .ENDFOR).on fun c => c.exitScope.rmCheckpoints).facts =
        ((s4.on fun c => c.rmCheckpoints).on fun c => c.exitScope).facts := by
      simp only [FState.facts, FState.on, FState.branchBack, FState.patch, FState.op, CState.branchBack, CState.patch, CState.op, CState.emit, CState.int,
        CState.exitScope, CState.rmCheckpoints]
      rcases s4.c.scopes with _ | ⟨a, b⟩ <;> rfl
    rw [hf]
    refine ⟨?_, fun hb => ?_⟩
    · refine Eq.trans ?_ hl.1
      exact exitScope_ok _
    · obtain ⟨hl1, hk, hg⟩ := hl.2 hb
      have he : ∀ c : CState, c.exitScope.globals = c.globals ∧ c.exitScope.checkpoints = c.checkpoints := by
        intro c; unfold CState.exitScope; split <;> exact ⟨rfl, rfl⟩
      refine ⟨Live.leave h hl1 ?_ ?_ ?_ hk, (he _).2.trans hk, (he _).1.trans hg⟩ <;> rw [← hw] <;> rfl
  | .brk, s, v, hs, h => by
    rw [FStmt.good, visitFS, h.2.loop]
    show SStep _ _ (!s.c.checkpoints.isEmpty) _
    rcases hc : s.c.checkpoints with _ | ⟨a, b⟩
    · exact ⟨rfl, fun hh => nomatch hh⟩
    · exact SStep.refl h
  | .cont, s, v, hs, h => by
    rw [FStmt.good, visitFS, h.2.loop]
    show SStep _ _ (!s.c.checkpoints.isEmpty) _
    rcases hc : s.c.checkpoints with _ | ⟨a, b⟩
    · exact ⟨rfl, fun hh => nomatch hh⟩
    · exact SStep.refl h
  | .ret e, s, v, hs, h => by
    rw [FStmt.shaped] at hs
    rw [FStmt.good, visitFS, ← h.2.around]
    show SStep _ _ (!(s.outer.map forget).isEmpty && _) v
    rcases hc : s.outer with _ | ⟨a, b⟩
    · exact ⟨rfl, fun hh => nomatch hh⟩
    · rw [if_neg (by simp)]
      exact (visitFE_step e s v hs h).s h
  | .fnDecl x id ps body, s, v, hs, h => by
    rw [FStmt.shaped] at hs
    rw [FStmt.good, visitFS, containsCur_free h.2 x]
    rcases hf : v.free x with _ | _
    · exact ⟨rfl, fun hh => nomatch hh⟩
    · rw [if_neg (by simp)]
      have h1 := static_declVar h x hf
      have h2 := h1.seq (fun hb => ((static_fn id (h1.2 hb).1 (fun hl => visitFSs_step body _ _ hs hl)).s (h1.2 hb).1)) (fun hh => by
        rw [fnLeave_facts] at hh
        exact fnEnter_mono ps _ (visitFSs_mono body _ hh))
      have e : (true && (v.add x false).fits && okParams .code ps && ((v.add x false).inFunction .code ps).fits &&
          body.good .code ((v.add x false).inFunction .code ps)) = ((v.add x false).fits && (((v.add x false).inFunction .code ps).fits &&
          body.good .code ((v.add x false).inFunction .code ps))) := by
        simp [okParams, Bool.and_assoc]
      rw [e]
      exact h2
theorem visitFSs_step : ∀ (ss : FStmts) (s : FState) (v : Seen), ss.shaped = true → Live s.facts v →
    SStep s.facts (visitFSs ss s).facts (ss.good .code v) (ss.afters v)
  | .nil, s, v, _, h => by
    rw [visitFSs, FStmts.good]; exact SStep.refl h
  | .cons st ss, s, v, hs, h => by
    rw [FStmts.shaped, Bool.and_eq_true] at hs
    have h1 := visitFS_step st s v hs.1 h
    rw [FStmts.good, visitFSs]
    exact h1.seq (fun hb => visitFSs_step ss _ _ hs.2 (h1.2 hb).1) (visitFSs_mono ss _)
end

/-! ### Files -/

theorem compileFAll_no : ∀ (ss : FStmts) (s : FState) (code : List Byte), s.c.ok = false → (compileFAll ss s code).1.c.ok = false
  | .nil, _, _, h => h
  | .cons st ss, s, code, h => by
    rw [compileFAll]
    refine compileFAll_no ss _ _ ?_
    show (visitFS st s).c.ok = false
    rcases hv : (visitFS st s).c.ok with _ | _
    · rfl
    · rw [visitFS_mono st s hv] at h; cases h

theorem compileFAll_step : ∀ (ss : FStmts) (s : FState) (code : List Byte) (v : Seen), ss.shaped = true → Live s.facts v →
    (compileFAll ss s code).1.c.ok = ss.good .code v
  | .nil, s, code, v, _, h => h.1
  | .cons st ss, s, code, v, hs, h => by
    rw [FStmts.shaped, Bool.and_eq_true] at hs
    rw [compileFAll, FStmts.good]
    have h1 := visitFS_step st s v hs.1 h
    rcases hb : st.good .code v with _ | _
    · rw [hb] at h1
      exact compileFAll_no _ _ _ h1.1
    · rw [Bool.true_and]
      exact compileFAll_step ss _ _ _ hs.2 (h1.2 hb).1

theorem declGlobals_facts : ∀ (gs : List Name) (c : CState), c.scopes = [] → c.globals.length + gs.length ≤ 2 ^ 63 →
    (∀ p ∈ c.globals, isConst p.2 = false) →
    (c.declGlobals gs).ok = c.ok ∧ (c.declGlobals gs).scopes = [] ∧ (c.declGlobals gs).checkpoints = c.checkpoints ∧
    ∀ x, ((c.declGlobals gs).globals.get x).map isConst = if x ∈ gs ∨ (c.globals.get x).isSome then some false else none
  | [], c, hs, _, hn => by
    rw [CState.declGlobals]
    refine ⟨rfl, hs, rfl, fun x => ?_⟩
    rcases hf : c.globals.get x with _ | w
    · simp
    · have hw : isConst w = false := by
        unfold Scope.get at hf
        obtain ⟨p, hp, he⟩ := Option.map_eq_some_iff.mp hf
        rw [← he]; exact hn p (List.mem_of_find?_eq_some hp)
      simp [hw]
  | g :: gs, c, hs, hl, hn => by
    have hsmall : isConst (BitVec.ofNat 64 c.globals.length) = false := by
      have hlt : c.globals.length < 2 ^ 63 := by rw [List.length_cons] at hl; omega
      have h1 : (BitVec.ofNat 64 c.globals.length).msb = false := by
        rw [BitVec.msb_eq_false_iff_two_mul_lt, BitVec.toNat_ofNat, Nat.mod_eq_of_lt (by omega)]; omega
      have h2 : (0x8000000000000000#64 &&& BitVec.ofNat 64 c.globals.length) = 0 := by
        apply BitVec.eq_of_getLsbD_eq
        intro i hi
        rw [BitVec.getLsbD_and]
        by_cases h63 : i = 63
        · subst h63
          rw [BitVec.msb_eq_getLsbD_last] at h1
          rw [h1]; simp
        · have hk : ∀ k : Fin 64, k.1 ≠ 63 → (0x8000000000000000#64).getLsbD k.1 = false := by decide
          rw [hk ⟨i, hi⟩ h63]; simp
      unfold isConst; rw [h2]; rfl
    have hput : (∀ p ∈ c.globals.put g (BitVec.ofNat 64 c.globals.length), isConst p.2 = false) ∧
        (c.globals.put g (BitVec.ofNat 64 c.globals.length)).length ≤ c.globals.length + 1 ∧
        ∀ x, ((c.globals.put g (BitVec.ofNat 64 c.globals.length)).get x).isSome = (x == g || (c.globals.get x).isSome) := by
      rcases hg : c.globals.get g with _ | w
      · rw [put_new hg]
        refine ⟨?_, by simp, fun x => ?_⟩
        · intro p hp
          rcases List.mem_cons.mp hp with rfl | hp
          · exact hsmall
          · exact hn p hp
        · unfold Scope.get
          rw [List.find?_cons]
          by_cases hx : g = x
          · simp [hx]
          · have h1 : (g == x) = false := by simpa using hx
            have h2 : (x == g) = false := by simpa using fun e => hx (Eq.symm e)
            simp [h1, h2]
      · rw [put_old (by rw [hg]; simp)]
        refine ⟨?_, by simp, fun x => ?_⟩
        · intro p hp
          obtain ⟨q, hq, he⟩ := List.mem_map.mp hp
          rw [← he]
          split
          · exact hsmall
          · exact hn q hq
        · have h3 : ((c.globals.map fun p => if p.1 == g then (g, BitVec.ofNat 64 c.globals.length) else p).map fun p => (p.1, isConst p.2)).map Prod.fst =
              (c.globals.map fun p => (p.1, isConst p.2)).map Prod.fst := by
            rw [List.map_map, List.map_map, List.map_map]
            apply List.map_congr_left
            intro p _
            by_cases hpg : p.1 = g
            · simp [hpg]
            · have h1 : (p.1 == g) = false := by simpa using hpg
              simp only [Function.comp, h1]; rfl
          have h4 : (Scope.get (c.globals.map fun p => if p.1 == g then (g, BitVec.ofNat 64 c.globals.length) else p) x).isSome = (c.globals.get x).isSome := by
            rw [get_contains, get_contains, h3]
          rw [h4]
          by_cases hx : x = g
          · subst hx; simp [hg]
          · have h1 : (x == g) = false := by simpa using hx
            simp [h1]
    rw [CState.declGlobals, intern_globals]
    have ih := declGlobals_facts gs { (c.intern (.str g)).2 with globals := c.globals.put g (BitVec.ofNat 64 c.globals.length) }
      (by rw [← hs]; exact intern_scopes _ _) (by rw [List.length_cons] at hl; have := hput.2.1; show (c.globals.put g (BitVec.ofNat 64 c.globals.length)).length + _ ≤ _; omega) hput.1
    refine ⟨ih.1.trans (intern_ok _ _), ih.2.1, ih.2.2.1.trans (intern_checkpoints _ _), fun x => ?_⟩
    rw [ih.2.2.2 x]
    have h5 := hput.2.2 x
    have h6 : (x ∈ gs ∨ (Scope.get (c.globals.put g (BitVec.ofNat 64 c.globals.length)) x).isSome = true) ↔ (x ∈ g :: gs ∨ (c.globals.get x).isSome = true) := by
      rw [h5]
      simp only [Bool.or_eq_true, beq_iff_eq, List.mem_cons]
      constructor
      · rintro (h | h | h) <;> simp [h]
      · rintro ((h | h) | h) <;> simp [h]
    by_cases h7 : x ∈ gs ∨ (Scope.get (c.globals.put g (BitVec.ofNat 64 c.globals.length)) x).isSome = true
    · rw [if_pos h7, if_pos (h6.mp h7)]
    · rw [if_neg h7, if_neg (fun h => h7 (h6.mpr h))]

theorem initial_live (gs : List Name) (h : gs.length ≤ 2 ^ 63) :
    Live (FState.initial gs).facts { here := [[]], around := [], globals := gs, inLoop := false } := by
  have hd := declGlobals_facts gs CState.initial rfl (by simpa [CState.initial] using h) (by simp [CState.initial])
  refine ⟨hd.1, ?_, rfl, fun x => ?_, ?_, ?_⟩
  · show forget ([] :: (CState.declGlobals gs CState.initial).scopes) = [[]]
    rw [hd.2.1]; rfl
  · refine (hd.2.2.2 x).trans ?_
    have : (CState.initial.globals.get x).isSome = false := rfl
    rw [this]
    simp
  · show false = !(CState.declGlobals gs CState.initial).checkpoints.isEmpty
    rw [hd.2.2.1]; rfl
  · simp [FState.facts, FState.initial, CState.enterScope]

end Yasl
